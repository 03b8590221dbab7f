import Verif.Lemmas.Visit

/-!
# Walks over the trees of the parser: statements
-/

set_option linter.unusedSectionVars false

namespace TP
open TP.Spec

/-! ## No nil pointers -/

section
variable {δ τ : Type} {ty : τ → Option (Tree NodeVal)}

theorem clean_caseLabel (l : CaseLabel δ) : (caseLabelNode l).Clean := by
  cases l <;> simp [caseLabelNode, clean_expr]
theorem clean_caseLabels : ∀ l : CaseLabels δ, CleanL (caseLabelNodes l)
  | .one l => by simp [caseLabelNodes, clean_caseLabel]
  | .cons l rest => by simp [caseLabelNodes, clean_caseLabel, clean_caseLabels rest]
theorem clean_quals : ∀ l : QualIds δ, CleanL (qualNodes l)
  | .one l => by simp [qualNodes]
  | .cons l rest => by simp [qualNodes, clean_quals rest]

variable (hty : ∀ t, CleanL [ty t])
include hty

mutual
theorem clean_stmt : ∀ s : Stmt δ τ, (stmtNode ty s).Clean
  | .mk l b => by simp [stmtNode, clean_body b, cleanL_opt clean_ident]
theorem clean_body : ∀ b : Body δ τ, (bodyNode ty b).Clean
  | .assign d e => by simp [bodyNode, clean_desig, clean_expr]
  | .call d => by simp [bodyNode, clean_desig]
  | .callArgs d args => by simp [bodyNode, clean_desig, clean_exprs]
  | .inherited => by simp [bodyNode]
  | .goto i _ => by simp [bodyNode]
  | .compound l => by simp [bodyNode, clean_stmts l]
  | .ifThen c s => by simp [bodyNode, clean_expr, clean_stmt s]
  | .ifElse c s1 s2 => by simp [bodyNode, clean_expr, clean_stmt s1, clean_stmt s2]
  | .case e sels els => by simp [bodyNode, clean_expr, clean_sels sels, clean_else els]
  | .repeat l c => by simp [bodyNode, clean_expr, clean_stmts l]
  | .while c s => by simp [bodyNode, clean_expr, clean_stmt s]
  | .for q _ lo hi s => by simp [bodyNode, clean_expr, clean_stmt s]
  | .with qs s => by simp [bodyNode, clean_quals, clean_stmt s]
  | .tryExcept l b => by simp [bodyNode, clean_stmts l, clean_exc b]
  | .tryFinally l1 l2 => by simp [bodyNode, clean_stmts l1, clean_stmts l2]
  | .raise obj addr => by simp [bodyNode, cleanL_opt clean_expr]
  | .asm => by simp [bodyNode]
theorem clean_stmts : ∀ l : Stmts δ τ, CleanL (stmtNodes ty l)
  | .one s => by simp [stmtNodes, clean_stmt s]
  | .cons s rest => by simp [stmtNodes, clean_stmt s, clean_stmts rest]
theorem clean_else : ∀ l : OptStmts δ τ, CleanL (elseNode ty l)
  | .none => by simp [elseNode]
  | .some l => by simp [elseNode, clean_stmts l]
theorem clean_sels : ∀ l : Sels δ τ, CleanL (selNodes ty l)
  | .one ls s => by simp [selNodes, clean_stmt s, clean_caseLabels]
  | .cons ls s rest => by simp [selNodes, clean_stmt s, clean_caseLabels, clean_sels rest]
theorem clean_exc : ∀ b : ExcBlock δ τ, (excNode ty b).Clean
  | .plain l => by simp [excNode, clean_stmts l]
  | .handlers hs .none => by simp [excNode, clean_handlers hs]
  | .handlers hs (.some l) => by simp [excNode, clean_handlers hs, clean_stmts l]
theorem clean_handlers : ∀ l : Handlers δ τ, CleanL (handlerNodes ty l)
  | .one h => by simp [handlerNodes, clean_handler h]
  | .cons h rest => by simp [handlerNodes, clean_handler h, clean_handlers rest]
theorem clean_handler : ∀ h : Handler δ τ, (handlerNode ty h).Clean
  | .mk i t s => by simp [handlerNode, clean_stmt s, cleanL_opt clean_ident, hty t]
end
end

/-! ## Names and literals -/

section
variable {κ δ : Type} {u : Uni} {ok : Token → Prop} (K : Passes u ok)
include K

theorem Spec.Reads.tok {a : Token} (h : ok a) : Reads ok 0 [] [a] := .skip h (.nil 0)

omit K in
theorem Spec.Reads.opt {z : List Token} {P Q : Prop} (h : (z = [] ∧ P) ∨ ∃ t, z = [t] ∧ Q) (f : ∀ t, z = [t] → ok t) :
    Reads ok 0 [] z := by
  rcases h with ⟨rfl, -⟩ | ⟨t, rfl, -⟩
  · exact .nil 0
  · exact .skip (f t rfl) (.nil 0)

theorem reads_semi {z : List Token} {P : Prop} (h : (z = [] ∧ P) ∨ ∃ t, z = [t] ∧ IsSym r!";" t) : Reads ok 0 [] z := by
  rcases h with ⟨rfl, -⟩ | ⟨t, rfl, h⟩
  · exact .nil 0
  · exact .skip (K.sym h) (.nil 0)

variable {S : SEnv κ δ (PType δ)} {k : κ}

theorem reads_quals : ∀ {qs : QualIds δ} {ts : List Token}, DQualIds u S False k qs ts → Reads ok 0 (itemsL (qualNodes qs)) ts
  | .one _, _, h => (reads_qual K h.1).cast (by simp [qualNodes])
  | .cons _ _, _, h => by
    obtain ⟨x, t, y, rfl, h1, h2, h3⟩ := h
    exact ((reads_qual K h1.1).app0 (.skip (K.sym h2) (reads_quals h3))).cast (by simp [qualNodes])

theorem reads_caseLabel : ∀ {l : CaseLabel δ} {ts : List Token}, DCaseLabel u S False k l ts →
    Reads ok 0 (caseLabelNode l).items ts
  | .single _, _, h => (reads_expr K h.1).cast (by simp [caseLabelNode])
  | .range _ _, _, h => by
    obtain ⟨x, t, y, rfl, h1, h2, h3⟩ := h
    exact ((reads_expr K h1.1).app0 (.skip (K.sym h2) (reads_expr K h3.1))).cast (by simp [caseLabelNode])

theorem reads_caseLabels : ∀ {l : CaseLabels δ} {ts : List Token}, DCaseLabels u S False k l ts →
    Reads ok 0 (itemsL (caseLabelNodes l)) ts
  | .one _, _, h => (reads_caseLabel K h).cast (by simp [caseLabelNodes])
  | .cons _ _, _, h => by
    obtain ⟨x, t, y, rfl, h1, h2, h3⟩ := h
    exact ((reads_caseLabel K h1).app0 (.skip (K.sym h2) (reads_caseLabels h3))).cast (by simp [caseLabelNodes])

theorem reads_raise {obj addr : Option (Expr δ)} {ts : List Token} (h : DRaise u S False k obj addr ts) :
    Reads ok 0 (itemsL (optNode exprNode obj ++ optNode exprNode addr)) ts := by
  obtain ⟨t, x, y, rfl, ht, hx, hy⟩ := h
  rw [itemsL_append]
  refine .skip (K.kw ht) (Reads.app0 ?_ ?_)
  · cases obj with
    | none => cases hx; exact .nil 0
    | some e => exact (reads_expr K hx.1.1).cast (by simp)
  · cases addr with
    | none => cases hy; exact .nil 0
    | some e =>
      obtain ⟨t, z, rfl, h1, h2⟩ := hy
      exact .skip (K.up (by rw [show u.toUpper (t.value u) = _ from h1]; decide)) ((reads_expr K h2.1).cast (by simp))

theorem up_ok {w : Str} {t : Token} (h : IsUp u w t) (hw : w ∈ roleWords) : ok t :=
  K.up (by rw [show u.toUpper (t.value u) = _ from h]; exact hw)
theorem val_ok {w : Str} {t : Token} (h : t.value u = w) (hw : w ∈ roleWords) : ok t := K.val (by rw [h]; exact hw)

theorem reads_plainName {t : PType δ} (h : PlainName t) {ts : List Token} (hd : typeTokens u t ts) :
    Reads ok 0 (itemsL [typeNode t]) ts := by
  cases t with
  | id t =>
    obtain ⟨y, hd⟩ := hd
    rw [gType] at hd
    obtain ⟨hd, w, z, e, -⟩ := hd
    rw [gTypeId, show t.unit = none from h] at hd
    rcases hd with ⟨t', e', h'⟩ | ⟨e', -⟩
    · have : ts = [t'] := by
        have : ts ++ y = [t'] ++ y := e'
        exact List.append_cancel_right this
      subst this
      refine Reads.cast (.hit (i := .name t.ident) h' (.nil 0)) ?_
      simp [typeNode, typeIdNode, show t.unit = none from h]
    · rw [e'] at e; cases e
  | _ => exact h.elim

variable {A : Prop} (hA : A → ∀ t, ok t)
include hA

local notation "DT" => (fun (_ : κ) (ty : PType δ) (used : List Token) (_ : κ) => typeTokens u ty used)

mutual
theorem reads_stmt : ∀ (st : Stmt δ (PType δ)) (k : κ) (ts : List Token) (k' : κ), RegStmt A st →
    DStmt u S False DT k st ts k' → Reads ok 0 (stmtNode typeNode st).items ts
  | .mk none b, k, ts, k', r, h => by
    rw [DStmt] at h
    rw [RegStmt] at r
    exact (reads_body b k ts k' r h.1).cast (by simp [stmtNode])
  | .mk (some i) b, k, ts, k', r, h => by
    rw [DStmt] at h
    rw [RegStmt] at r
    obtain ⟨t, c, x, rfl, h1, h2, -, h3⟩ := h
    exact Reads.cast (.hit (i := .name i) h1 (.skip (K.sym h2) (reads_body b k x k' r h3))) (by simp [stmtNode])
theorem reads_body : ∀ (st : Body δ (PType δ)) (k : κ) (ts : List Token) (k' : κ), RegBody A st →
    DBody u S False DT k st ts k' → Reads ok 0 (bodyNode typeNode st).items ts
  | .assign d e, k, ts, k', r, h => by
    rw [DBody] at h
    obtain ⟨-, x, t, y, rfl, h1, h2, h3⟩ := h
    exact Reads.cast (.app0 (reads_desig K h1.1) (.skip (val_ok K h2 (by decide)) (reads_expr K h3.1))) (by simp [bodyNode])
  | .call d, k, ts, k', r, h => by
    rw [DBody] at h
    exact (reads_desig K h.2.1).cast (by simp [bodyNode])
  | .callArgs d args, k, ts, k', r, h => by
    rw [DBody] at h
    obtain ⟨-, x, t, y, c, rfl, h1, h2, h3, h4⟩ := h
    exact Reads.cast (.app0 (reads_desig K h1.1) (.skip (K.sym h2) (.app0 (reads_exprs K h3.1) (.tok K (K.sym h4)))))
      (by simp [bodyNode])
  | .inherited, k, ts, k', r, h => by
    rw [DBody] at h
    obtain ⟨-, t, rfl, h1⟩ := h
    exact Reads.cast (.tok K (K.kw h1)) (by simp [bodyNode])
  | .goto i ref, k, ts, k', r, h => by
    rw [DBody] at h
    obtain ⟨-, t, l, rfl, h1, h2, h3, -⟩ := h
    exact Reads.cast (.skip (K.kw h1) (.hit (i := .name i) h3 (.nil 0))) (by simp [bodyNode])
  | .compound l, k, ts, k', r, h => by
    rw [DBody] at h
    rw [RegBody] at r
    obtain ⟨t, x, c, rfl, h1, h2, h3⟩ := h
    exact Reads.cast (.skip (K.kw h1) (.app0 (reads_stmts l _ _ _ r h2) (.tok K (K.kw h3)))) (by simp [bodyNode])
  | .ifThen c s, k, ts, k', r, h => by
    rw [DBody] at h
    rw [RegBody] at r
    obtain ⟨t, x, th, y, rfl, h1, h2, h3, h4⟩ := h
    exact Reads.cast (.skip (K.kw h1) (.app0 (reads_expr K h2.1) (.skip (K.kw h3) (reads_stmt s _ _ _ r h4)))) (by simp [bodyNode])
  | .ifElse c s1 s2, k, ts, k', r, h => by
    rw [DBody] at h
    rw [RegBody] at r
    obtain ⟨t, x, th, y, e, z, k1, rfl, h1, h2, h3, h4, -, -, h5, h6⟩ := h
    exact Reads.cast (.skip (K.kw h1) (.app0 (reads_expr K h2.1) (.skip (K.kw h3) (.app0 (reads_stmt s1 _ _ _ r.1 h4)
      (.skip (K.kw h5) (reads_stmt s2 _ _ _ r.2 h6)))))) (by simp [bodyNode])
  | .case e sels els, k, ts, k', r, h => by
    rw [DBody] at h
    rw [RegBody] at r
    obtain ⟨t, x, th, y, z, c, k1, rfl, h1, h2, h3, h4, h5, h6⟩ := h
    exact Reads.cast (.skip (K.kw h1) (.app0 (reads_expr K h2.1) (.skip (K.kw h3) (.app0 (reads_sels sels _ _ _ r.1 h4)
      (.app0 (reads_else els _ _ _ r.2 h5) (.tok K (K.kw h6))))))) (by simp [bodyNode])
  | .repeat l c, k, ts, k', r, h => by
    rw [DBody] at h
    rw [RegBody] at r
    obtain ⟨t, x, th, y, rfl, h1, h2, h3, h4⟩ := h
    exact Reads.cast (.skip (K.kw h1) (.app0 (reads_stmts l _ _ _ r h2) (.skip (K.kw h3) (reads_expr K h4.1)))) (by simp [bodyNode])
  | .while c s, k, ts, k', r, h => by
    rw [DBody] at h
    rw [RegBody] at r
    obtain ⟨t, x, th, y, rfl, h1, h2, h3, h4⟩ := h
    exact Reads.cast (.skip (K.kw h1) (.app0 (reads_expr K h2.1) (.skip (K.kw h3) (reads_stmt s _ _ _ r h4)))) (by simp [bodyNode])
  | .for q down lo hi s, k, ts, k', r, h => by
    rw [DBody] at h
    rw [RegBody] at r
    obtain ⟨t, x, a, y, o, z, d, w, rfl, h1, h2, h3, h4, h5, h6, h7, h8⟩ := h
    exact Reads.cast (.skip (K.kw h1) (.app0 (reads_qual K h2.1) (.skip (K.sym h3) (.app0 (reads_expr K h4.1)
      (.skip (val_ok K h5 (by cases down <;> decide)) (.app0 (reads_expr K h6.1) (.skip (K.kw h7) (reads_stmt s _ _ _ r h8))))))))
      (by simp [bodyNode])
  | .with qs s, k, ts, k', r, h => by
    rw [DBody] at h
    rw [RegBody] at r
    obtain ⟨t, x, th, y, rfl, h1, h2, h3, h4⟩ := h
    exact Reads.cast (.skip (K.kw h1) (.app0 (reads_quals K h2) (.skip (K.kw h3) (reads_stmt s _ _ _ r h4)))) (by simp [bodyNode])
  | .tryExcept l b, k, ts, k', r, h => by
    rw [DBody] at h
    rw [RegBody] at r
    obtain ⟨t, x, th, y, k1, rfl, h1, h2, h3, h4⟩ := h
    exact Reads.cast (.skip (K.kw h1) (.app0 (reads_stmts l _ _ _ r.1 h2) (.skip (K.kw h3) (reads_exc b _ _ _ r.2 h4))))
      (by simp [bodyNode])
  | .tryFinally l1 l2, k, ts, k', r, h => by
    rw [DBody] at h
    rw [RegBody] at r
    obtain ⟨t, x, th, y, c, k1, rfl, h1, h2, h3, h4, h5⟩ := h
    exact Reads.cast (.skip (K.kw h1) (.app0 (reads_stmts l1 _ _ _ r.1 h2) (.skip (K.kw h3) (.app0
      (reads_stmts l2 _ _ _ r.2 h4) (.tok K (K.kw h5)))))) (by simp [bodyNode])
  | .raise obj addr, k, ts, k', r, h => by
    rw [DBody] at h
    exact (reads_raise K h.2).cast (by simp [bodyNode])
  | .asm, k, ts, k', r, h => by
    rw [RegBody] at r
    have := hA r
    refine Reads.cast ?_ (a := []) (by simp [bodyNode])
    clear h
    induction ts with
    | nil => exact .nil 0
    | cons t ts ih => exact .skip (this t) ih
theorem reads_stmts : ∀ (st : Stmts δ (PType δ)) (k : κ) (ts : List Token) (k' : κ), RegStmts A st →
    DStmts u S False DT k st ts k' → Reads ok 0 (itemsL (stmtNodes typeNode st)) ts
  | .one s, k, ts, k', r, h => by
    rw [DStmts] at h
    rw [RegStmts] at r
    rcases h with ⟨h1, h2⟩ | ⟨x, t, rfl, h1, h2⟩
    · exact (reads_stmt s _ _ _ r h2).cast (by simp [stmtNodes])
    · exact Reads.cast (.app0 (reads_stmt s _ _ _ r h1) (.tok K (K.sym h2))) (by simp [stmtNodes])
  | .cons s rest, k, ts, k', r, h => by
    rw [DStmts] at h
    rw [RegStmts] at r
    obtain ⟨x, t, y, k1, rfl, h1, h2, h3⟩ := h
    exact Reads.cast (.app0 (reads_stmt s _ _ _ r.1 h1) (.skip (K.sym h2) (reads_stmts rest _ _ _ r.2 h3))) (by simp [stmtNodes])
theorem reads_else : ∀ (st : OptStmts δ (PType δ)) (k : κ) (ts : List Token) (k' : κ), RegElse A st →
    DElse u S False DT k st ts k' → Reads ok 0 (itemsL (elseNode typeNode st)) ts
  | .none, k, ts, k', r, h => by
    rw [DElse] at h
    cases h.1
    exact Reads.cast (.nil 0) (by simp [elseNode])
  | .some l, k, ts, k', r, h => by
    rw [DElse] at h
    rw [RegElse] at r
    obtain ⟨t, x, rfl, h1, h2⟩ := h
    exact Reads.cast (.skip (K.kw h1) (reads_stmts l _ _ _ r h2)) (by simp [elseNode])
theorem reads_sels : ∀ (st : Sels δ (PType δ)) (k : κ) (ts : List Token) (k' : κ), RegSels A st →
    DSels u S False DT k st ts k' → Reads ok 0 (itemsL (selNodes typeNode st)) ts
  | .one ls s, k, ts, k', r, h => by
    rw [DSels] at h
    rw [RegSels] at r
    obtain ⟨x, t, y, c, rfl, h1, h2, h3, h4⟩ := h
    exact Reads.cast (.app0 (reads_caseLabels K h1) (.skip (K.sym h2) (.app0 (reads_stmt s _ _ _ r h3) (.tok K (K.sym h4)))))
      (by simp [selNodes])
  | .cons ls s rest, k, ts, k', r, h => by
    rw [DSels] at h
    rw [RegSels] at r
    obtain ⟨x, t, y, c, z, k1, rfl, h1, h2, h3, h4, h5⟩ := h
    exact Reads.cast (.app0 (reads_caseLabels K h1) (.skip (K.sym h2) (.app0 (reads_stmt s _ _ _ r.1 h3)
      (.skip (K.sym h4) (reads_sels rest _ _ _ r.2 h5))))) (by simp [selNodes])
theorem reads_exc : ∀ (st : ExcBlock δ (PType δ)) (k : κ) (ts : List Token) (k' : κ), RegExc A st →
    DExc u S False DT k st ts k' → Reads ok 0 (excNode typeNode st).items ts
  | .plain l, k, ts, k', r, h => by
    rw [DExc] at h
    rw [RegExc] at r
    obtain ⟨x, c, rfl, h1, h2, -⟩ := h
    exact Reads.cast (.app0 (reads_stmts l _ _ _ r h1) (.tok K (K.kw h2))) (by simp [excNode])
  | .handlers hs .none, k, ts, k', r, h => by
    rw [DExc] at h
    rw [RegExc] at r
    obtain ⟨x, y, c, rfl, h1, h2, h3⟩ := h
    refine Reads.cast (.app0 (reads_handlers hs _ _ _ _ r.1 h1) (.app0 (a := []) ?_ (.tok K (K.kw h3)))) (by simp [excNode])
    rcases h2 with rfl | ⟨t, -, -, rfl, h2', -⟩
    · exact .nil 0
    · exact .tok K (K.sym h2')
  | .handlers hs (.some l), k, ts, k', r, h => by
    rw [DExc] at h
    rw [RegExc, RegElse] at r
    obtain ⟨x, t, y, c, k1, rfl, h1, h2, h3, h4⟩ := h
    exact Reads.cast (.app0 (reads_handlers hs _ _ _ _ r.1 h1) (.skip (K.kw h2) (.app0 (reads_stmts l _ _ _ r.2 h3)
      (.tok K (K.kw h4))))) (by simp [excNode])
theorem reads_handlers : ∀ (st : Handlers δ (PType δ)) (e : Bool) (k : κ) (ts : List Token) (k' : κ), RegHandlers A st →
    DHandlers u S False DT k e st ts k' → Reads ok 0 (itemsL (handlerNodes typeNode st)) ts
  | .one h, e, k, ts, k', r, d => by
    rw [DHandlers] at d
    rw [RegHandlers] at r
    exact (reads_handler h _ _ _ _ r d).cast (by simp [handlerNodes])
  | .cons h rest, e, k, ts, k', r, d => by
    rw [DHandlers] at d
    rw [RegHandlers] at r
    obtain ⟨x, y, k1, rfl, h1, h2⟩ := d
    exact Reads.cast (.app0 (reads_handler h _ _ _ _ r.1 h1) (reads_handlers rest _ _ _ _ r.2 h2)) (by simp [handlerNodes])
theorem reads_handler : ∀ (st : Handler δ (PType δ)) (e : Bool) (k : κ) (ts : List Token) (k' : κ), RegHandler A st →
    DHandler u S False DT k e st ts k' → Reads ok 0 (handlerNode typeNode st).items ts
  | .mk none ty s, e, k, ts, k', r, h => by
    rw [DHandler] at h
    rw [RegHandler] at r
    obtain ⟨t, x, d, y, z, k1, rfl, h1, h2, -, h3, h4, h5⟩ := h
    exact Reads.cast (.skip (up_ok K h1 (by decide)) (.app0 (reads_plainName K r.1 h2) (.skip (up_ok K h3 (by decide))
      (.app0 (reads_stmt s _ _ _ r.2 h4) (reads_semi K h5))))) (by simp [handlerNode])
  | .mk (some i) ty s, e, k, ts, k', r, h => by
    rw [DHandler] at h
    rw [RegHandler] at r
    obtain ⟨t, n, c, x, d, y, z, k1, k2, rfl, h1, h2, -, h2', h3, -, h4, h5, h6⟩ := h
    exact Reads.cast (.skip (up_ok K h1 (by decide)) (.hit (i := .name i) h2 (.skip (K.sym h2') (.app0 (reads_plainName K r.1 h3)
      (.skip (up_ok K h4 (by decide)) (.app0 (reads_stmt s _ _ _ r.2 h5) (reads_semi K h6))))))) (by simp [handlerNode])
end

end

end TP
