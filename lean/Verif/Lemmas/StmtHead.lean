import Verif.Lemmas.Go

/-!
# First and last tokens of statements
-/

namespace TP
open Spec

variable {κ δ τ : Type} {u : Uni}

/-! ## No semicolon inside an expression -/

/-- the leaf is not a semicolon, and determines the kind of its token -/
def NoSemi : Leaf → Prop
  | .ident _ | .word _ | .kw _ | .num _ | .str _ => True
  | .sym s => s ≠ r!";"
  | _ => False

theorem noSemi_is {l : Leaf} {t : Token} (h : NoSemi l) (ht : l.Is u t) : ¬ IsSym r!";" t := by
  intro h'
  cases l with
  | sym s => exact h (ht.2.symm.trans h'.2)
  | ident i => have := ht.1; rw [h'.1] at this; cases this
  | word v => exact ht.1 h'.1
  | kw s => have := ht.1; rw [h'.1] at this; cases this
  | num v => rcases ht.1 with this | this <;> rw [h'.1] at this <;> cases this
  | str v => have := ht.1; rw [h'.1] at this; cases this
  | _ => exact h

theorem opLeaf_noSemi {op : Str} (h : op ≠ r!";") : NoSemi (opLeaf op) := by
  unfold opLeaf; split
  · trivial
  · exact h

theorem leaves_noSemi {ls : List Leaf} {ts : List Token} (h : Leaves u ls ts) (hl : ∀ l ∈ ls, NoSemi l) :
    ∀ t ∈ ts, ¬ IsSym r!";" t := by
  induction ls generalizing ts with
  | nil => cases ts with
    | nil => simp
    | cons => exact h.elim
  | cons l ls ih =>
    obtain ⟨t, ts', rfl, h1, h2⟩ := leaves_uncons h
    intro t' ht'
    rcases List.mem_cons.1 ht' with rfl | ht'
    · exact noSemi_is (hl l (by simp)) h1
    · exact ih h2 (fun l hl' => hl l (by simp [hl'])) t' ht'

theorem qual_noSemi (q : QualId δ) : ∀ l ∈ flatQual q, NoSemi l := by
  intro l hl
  unfold flatQual at hl
  split at hl <;> simp only [List.mem_cons, List.not_mem_nil, or_false] at hl
  · subst hl; trivial
  · rcases hl with rfl | rfl | rfl
    · trivial
    · show r!"." ≠ r!";"; decide
    · trivial

section
variable {E : Env κ δ} {k : κ}

theorem op_ne {op : Str} {a b : List Str} (h : op ∈ a ∨ op ∈ b) (ha : r!";" ∉ a) (hb : r!";" ∉ b) : op ≠ r!";" := by
  rintro rfl
  exact h.elim ha hb

/-- all leaves of a list -/
def AllNo (ls : List Leaf) : Prop := ∀ l ∈ ls, NoSemi l

theorem AllNo.nil : AllNo [] := by intro l h; cases h
theorem AllNo.cons {l : Leaf} {ls : List Leaf} (h : NoSemi l) (h' : AllNo ls) : AllNo (l :: ls) := by
  intro x hx
  rcases List.mem_cons.1 hx with rfl | hx
  · exact h
  · exact h' x hx
theorem AllNo.append {a b : List Leaf} (h : AllNo a) (h' : AllNo b) : AllNo (a ++ b) := by
  intro x hx
  rcases List.mem_append.1 hx with hx | hx
  · exact h x hx
  · exact h' x hx
theorem AllNo.sym {s : Str} {ls : List Leaf} (h : s ≠ r!";") (h' : AllNo ls) : AllNo (.sym s :: ls) := .cons h h'

mutual
theorem expr_no : ∀ e : Expr δ, FitsExpr u E k e → AllNo (flatExpr e)
  | .mk se r, h => (sexpr_no se h.1).append (rel_no r h.2)
theorem rel_no : ∀ r : RelTail δ, FitsRel u E k r → AllNo (flatRel r)
  | .nil, _ => .nil
  | .cons _ se r, h => .cons (opLeaf_noSemi (op_ne h.1 (by decide) (by decide))) ((sexpr_no se h.2.1).append (rel_no r h.2.2))
theorem sexpr_no : ∀ e : SExpr δ, FitsSExpr u E k e → AllNo (flatSExpr e)
  | .mk none t r, h => (term_no t h.2.1).append (add_no r h.2.2)
  | .mk (some op) t r, h => .sym (op_ne (.inl (h.1 op rfl)) (by decide) (b := []) (by decide))
      ((term_no t h.2.1).append (add_no r h.2.2))
theorem add_no : ∀ r : AddTail δ, FitsAdd u E k r → AllNo (flatAdd r)
  | .nil, _ => .nil
  | .cons _ t r, h => .cons (opLeaf_noSemi (op_ne h.1 (by decide) (by decide))) ((term_no t h.2.1).append (add_no r h.2.2))
theorem term_no : ∀ t : Term δ, FitsTerm u E k t → AllNo (flatTerm t)
  | .mk f r, h => (factor_no f h.1).append (mul_no r h.2)
theorem mul_no : ∀ r : MulTail δ, FitsMul u E k r → AllNo (flatMul r)
  | .nil, _ => .nil
  | .cons _ f r, h => .cons (opLeaf_noSemi (op_ne h.1 (by decide) (by decide))) ((factor_no f h.2.1).append (mul_no r h.2.2))
theorem factor_no : ∀ f : Factor δ, FitsFactor u E k f → AllNo (flatFactor f)
  | .desig d, h => desig_no d h.1
  | .call d args, h => (desig_no d h.1).append (.sym (by decide) ((exprs_no args h.2.2.2).append (.sym (by decide) .nil)))
  | .addr d, h => .sym (by decide) (desig_no d h)
  | .value _, _ => .cons trivial .nil
  | .str _, _ => .cons trivial .nil
  | .num _, _ => .cons trivial .nil
  | .nil, _ => .cons trivial .nil
  | .paren e, h => .sym (by decide) ((expr_no e h).append (.sym (by decide) .nil))
  | .not f, h => .cons trivial (factor_no f h)
  | .set es, h => .sym (by decide) ((elems_no es h).append (.sym (by decide) .nil))
  | .cast _ e, h => .cons trivial (.sym (by decide) ((expr_no e h.2.2).append (.sym (by decide) .nil)))
theorem desig_no : ∀ d : Desig δ, FitsDesig u E k d → AllNo (flatDesig d)
  | .mk q items, h => AllNo.append (qual_noSemi q) (items_no items h.2)
theorem items_no : ∀ i : Items δ, FitsItems u E k i → AllNo (flatItems i)
  | .nil, _ => .nil
  | .ident _ r, h => .sym (by decide) (.cons trivial (items_no r h))
  | .index es r, h => .sym (by decide) ((exprs_no es h.1).append (.sym (by decide) (items_no r h.2)))
  | .deref r, h => .sym (by decide) (items_no r h)
theorem exprs_no : ∀ es : Exprs δ, FitsExprs u E k es → AllNo (flatExprs es)
  | .one e, h => expr_no e h
  | .cons e r, h => (expr_no e h.1).append (.sym (by decide) (exprs_no r h.2))
theorem elems_no : ∀ es : SetElems δ, FitsElems u E k es → AllNo (flatElems es)
  | .one e, h => elem_no e h
  | .cons e r, h => (elem_no e h.1).append (.sym (by decide) (elems_no r h.2))
theorem elem_no : ∀ e : SetElem δ, FitsElem u E k e → AllNo (flatElem e)
  | .single e, h => expr_no e h
  | .range lo hi, h => (expr_no lo h.1).append (.sym (by decide) (expr_no hi h.2))
end
end

/-! ## The last token of a statement is not a semicolon -/

/-- not empty, and the last token is not a semicolon -/
def LastNo (ts : List Token) : Prop := ∃ x t, ts = x ++ [t] ∧ ¬ IsSym r!";" t

theorem LastNo.cons {t : Token} {ts : List Token} (h : LastNo ts) : LastNo (t :: ts) := by
  obtain ⟨x, y, rfl, h⟩ := h
  exact ⟨t :: x, y, rfl, h⟩

theorem LastNo.append {a ts : List Token} (h : LastNo ts) : LastNo (a ++ ts) := by
  obtain ⟨x, y, rfl, h⟩ := h
  exact ⟨a ++ x, y, (List.append_assoc _ _ _).symm, h⟩

theorem LastNo.one {t : Token} (h : ¬ IsSym r!";" t) : LastNo [t] := ⟨[], t, rfl, h⟩

theorem LastNo.all {ts : List Token} (h : ts ≠ []) (h' : ∀ t ∈ ts, ¬ IsSym r!";" t) : LastNo ts :=
  ⟨ts.dropLast, ts.getLast h, (List.dropLast_concat_getLast h).symm, h' _ (List.getLast_mem h)⟩

section
variable {S : SEnv κ δ τ} {DTy : κ → τ → List Token → κ → Prop}

theorem expr_last {k : κ} {e : Expr δ} {x : List Token} (h : DExpr u S True k e x) : LastNo x := by
  obtain ⟨t, y, rfl, -⟩ := expr_head e h.1 (h.2 trivial)
  exact .all (by simp) (leaves_noSemi h.1 (expr_no e (h.2 trivial)))

theorem desig_head {k : κ} {L : Prop} {d : Desig δ} {x : List Token} (h : DDesig u S L k d x) :
    ∃ t y, x = t :: y ∧ t.typ = .ident := by
  obtain ⟨i, l, e, -⟩ := flatDesig_head d
  have h1 := h.1
  rw [e] at h1
  obtain ⟨t, y, rfl, h2, -⟩ := leaves_uncons h1
  exact ⟨t, y, rfl, h2.1⟩

theorem desig_last {k : κ} {d : Desig δ} {x : List Token} (h : DDesig u S True k d x) : LastNo x := by
  obtain ⟨t, y, rfl, -⟩ := desig_head h
  exact .all (by simp) (leaves_noSemi h.1 (desig_no d (h.2 trivial)))

mutual
theorem stmt_last : ∀ (st : Stmt δ τ) {k k' : κ} {x : List Token}, DStmt u S True DTy k st x k' → LastNo x
  | .mk none b, k, k', x, h => by
    rw [DStmt] at h
    exact body_last b h.1
  | .mk (some i) b, k, k', x, h => by
    rw [DStmt] at h
    obtain ⟨t, c, x, rfl, -, -, -, h⟩ := h
    exact (body_last b h).cons.cons
theorem body_last : ∀ (b : Body δ τ) {k k' : κ} {x : List Token}, DBody u S True DTy k b x k' → LastNo x
  | .assign d e, k, k', x, h => by
    rw [DBody] at h
    obtain ⟨-, x, t, y, rfl, -, -, h⟩ := h
    exact (expr_last h).cons.append
  | .call d, k, k', x, h => by
    rw [DBody] at h
    exact desig_last h.2
  | .callArgs d args, k, k', x, h => by
    rw [DBody] at h
    obtain ⟨-, x, t, y, c, rfl, -, -, -, h⟩ := h
    exact (LastNo.one (not_sym h (by decide))).append.cons.append
  | .inherited, k, k', x, h => by
    rw [DBody] at h
    obtain ⟨-, t, rfl, h⟩ := h
    exact .one (not_sym_kw h)
  | .goto i r, k, k', x, h => by
    rw [DBody] at h
    obtain ⟨-, t, l, rfl, -, h, -⟩ := h
    exact (LastNo.one (fun h' => by have := h'.1; rw [h] at this; cases this)).cons
  | .compound l, k, k', x, h => by
    rw [DBody] at h
    obtain ⟨t, x, c, rfl, -, -, h⟩ := h
    exact (LastNo.one (not_sym_kw h)).append.cons
  | .ifThen c s, k, k', x, h => by
    rw [DBody] at h
    obtain ⟨t, x, g, y, rfl, -, -, -, h⟩ := h
    exact (stmt_last s h).cons.append.cons
  | .ifElse c s1 s2, k, k', x, h => by
    rw [DBody] at h
    obtain ⟨t, x, g, y, e, z, k1, rfl, -, -, -, -, -, -, -, h⟩ := h
    exact (stmt_last s2 h).cons.append.cons.append.cons
  | .case e sels els, k, k', x, h => by
    rw [DBody] at h
    obtain ⟨t, x, g, y, z, c, k1, rfl, -, -, -, -, -, h⟩ := h
    exact (LastNo.one (not_sym_kw h)).append.append.cons.append.cons
  | .repeat l c, k, k', x, h => by
    rw [DBody] at h
    obtain ⟨t, x, g, y, rfl, -, -, -, h⟩ := h
    exact (expr_last h).cons.append.cons
  | .while c s, k, k', x, h => by
    rw [DBody] at h
    obtain ⟨t, x, g, y, rfl, -, -, -, h⟩ := h
    exact (stmt_last s h).cons.append.cons
  | .for q down lo hi s, k, k', x, h => by
    rw [DBody] at h
    obtain ⟨t, x, a, y, o, z, g, w, rfl, -, -, -, -, -, -, -, h⟩ := h
    exact (stmt_last s h).cons.append.cons.append.cons.append.cons
  | .with qs s, k, k', x, h => by
    rw [DBody] at h
    obtain ⟨t, x, g, y, rfl, -, -, -, h⟩ := h
    exact (stmt_last s h).cons.append.cons
  | .tryExcept l b, k, k', x, h => by
    rw [DBody] at h
    obtain ⟨t, x, g, y, k1, rfl, -, -, -, h⟩ := h
    have : LastNo y := by
      cases b with
      | plain l =>
        rw [DExc] at h
        obtain ⟨x, c, rfl, -, h, -⟩ := h
        exact (LastNo.one (not_sym_kw h)).append
      | handlers hs els =>
        cases els with
        | none =>
          rw [DExc] at h
          obtain ⟨x, y, c, rfl, -, -, h⟩ := h
          exact (LastNo.one (not_sym_kw h)).append.append
        | some l =>
          rw [DExc] at h
          obtain ⟨x, t, y, c, k1, rfl, -, -, -, h⟩ := h
          exact (LastNo.one (not_sym_kw h)).append.cons.append
    exact this.cons.append.cons
  | .tryFinally l1 l2, k, k', x, h => by
    rw [DBody] at h
    obtain ⟨t, x, g, y, c, k1, rfl, -, -, -, -, h⟩ := h
    exact (LastNo.one (not_sym_kw h)).append.cons.append.cons
  | .raise obj addr, k, k', x, h => by
    rw [DBody] at h
    obtain ⟨-, t, x, y, rfl, h, ho, ha⟩ := h
    cases addr with
    | some e =>
      obtain ⟨t, z, rfl, -, d⟩ := ha
      exact (expr_last d).cons.append.cons
    | none =>
      cases ha
      cases obj with
      | none => cases ho; exact .one (not_sym_kw h)
      | some e =>
        rw [List.append_nil]
        exact (expr_last ho.1).cons
  | .asm, k, k', x, h => by
    rw [DBody] at h
    obtain ⟨-, t, f, body, c, rfl, -, -, h⟩ := h
    exact (LastNo.one (not_sym_kw h)).append.cons.cons
end

/-! ## The first token of a statement -/

/-- the words that end a list of statements -/
def endWords : List Str := [r!"END", r!"UNTIL", r!"EXCEPT", r!"FINALLY", r!"FINALIZATION"]

/-- the token ends no list of statements -/
def StmtHead (u : Uni) (t : Token) : Prop := ∀ w ∈ endWords, ¬ IsKw u w t

theorem kw_head {c : Str} {t : Token} (h : IsKw u c t) (hc : c ∉ endWords) : StmtHead u t := by
  intro w hw h'
  rw [← h.2, h'.2] at hc
  exact hc hw

theorem body_head (b : Body δ τ) {k k' : κ} {x : List Token} (h : DBody u S True DTy k b x k') :
    ∃ t y, x = t :: y ∧ StmtHead u t := by
  have desig : ∀ {d : Desig δ} {x : List Token} (r : List Token), DDesig u S True k d x → ∃ t y, x ++ r = t :: y ∧ StmtHead u t := by
    intro d x r h
    obtain ⟨t, y, rfl, g⟩ := desig_head h
    exact ⟨t, y ++ r, rfl, fun w _ h' => by have := h'.1; rw [g] at this; cases this⟩
  cases b <;> rw [DBody] at h
  case assign d e => obtain ⟨-, x, t, y, rfl, h, -⟩ := h; exact desig _ h
  case call d => have := desig [] h.2; rwa [List.append_nil] at this
  case callArgs d e => obtain ⟨-, x, t, y, c, rfl, h, -⟩ := h; exact desig _ h
  case inherited => obtain ⟨-, t, rfl, h⟩ := h; exact ⟨t, _, rfl, kw_head h (by decide)⟩
  case goto => obtain ⟨-, t, l, rfl, h, -⟩ := h; exact ⟨t, _, rfl, kw_head h (by decide)⟩
  case compound => obtain ⟨t, x, c, rfl, h, -⟩ := h; exact ⟨t, _, rfl, kw_head h (by decide)⟩
  case ifThen => obtain ⟨t, x, c, y, rfl, h, -⟩ := h; exact ⟨t, _, rfl, kw_head h (by decide)⟩
  case ifElse => obtain ⟨t, x, g, y, e, z, k1, rfl, h, -⟩ := h; exact ⟨t, _, rfl, kw_head h (by decide)⟩
  case case => obtain ⟨t, x, g, y, e, z, k1, rfl, h, -⟩ := h; exact ⟨t, _, rfl, kw_head h (by decide)⟩
  case «repeat» => obtain ⟨t, x, c, y, rfl, h, -⟩ := h; exact ⟨t, _, rfl, kw_head h (by decide)⟩
  case «while» => obtain ⟨t, x, c, y, rfl, h, -⟩ := h; exact ⟨t, _, rfl, kw_head h (by decide)⟩
  case «for» => obtain ⟨t, x, a, y, o, z, g, w, rfl, h, -⟩ := h; exact ⟨t, _, rfl, kw_head h (by decide)⟩
  case «with» => obtain ⟨t, x, c, y, rfl, h, -⟩ := h; exact ⟨t, _, rfl, kw_head h (by decide)⟩
  case tryExcept => obtain ⟨t, x, c, y, k1, rfl, h, -⟩ := h; exact ⟨t, _, rfl, kw_head h (by decide)⟩
  case tryFinally => obtain ⟨t, x, g, y, c, k1, rfl, h, -⟩ := h; exact ⟨t, _, rfl, kw_head h (by decide)⟩
  case raise => obtain ⟨-, t, x, y, rfl, h, -⟩ := h; exact ⟨t, _, rfl, kw_head h (by decide)⟩
  case asm => obtain ⟨-, t, f, b, c, rfl, h, -⟩ := h; exact ⟨t, _, rfl, kw_head h (by decide)⟩

theorem stmt_head (st : Stmt δ τ) {k k' : κ} {x : List Token} (hw : ∀ w ∈ endWords, ¬ IsLabelName S k w)
    (h : DStmt u S True DTy k st x k') : ∃ t y, x = t :: y ∧ StmtHead u t := by
  obtain ⟨l, b⟩ := st
  cases l with
  | none => rw [DStmt] at h; exact body_head b h.1
  | some i =>
    rw [DStmt] at h
    obtain ⟨t, c, x, rfl, -, -, h, -⟩ := h
    refine ⟨t, _, rfl, fun w hw' h' => hw w hw' ?_⟩
    have := h trivial
    rwa [(value_reserved h'.1).trans h'.2] at this

theorem stmts_head (l : Stmts δ τ) {k k' : κ} {x : List Token} (hw : ∀ w ∈ endWords, ¬ IsLabelName S k w)
    (h : DStmts u S True DTy k l x k') : ∃ t y, x = t :: y ∧ StmtHead u t := by
  cases l with
  | one s =>
    rw [DStmts] at h
    rcases h with h | ⟨x, t, rfl, h, -⟩
    · exact stmt_head s hw h.2
    · obtain ⟨t, y, rfl, g⟩ := stmt_head s hw h; exact ⟨t, _, rfl, g⟩
  | cons s r =>
    rw [DStmts] at h
    obtain ⟨x, t, y, k1, rfl, h, -⟩ := h
    obtain ⟨t, y, rfl, g⟩ := stmt_head s hw h; exact ⟨t, _, rfl, g⟩

end

end TP
