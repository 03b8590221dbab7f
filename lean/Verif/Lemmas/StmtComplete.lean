import Verif.Lemmas.StmtHead

/-!
# Completeness of the statement parser
-/

namespace TP
open Spec

variable {κ δ τ : Type}

/-- What is fixed while statements are parsed.  `R k c`: the context `c` of the parser answers like `k`. -/
structure CBase (u : Uni) (S : SEnv κ δ τ) (DTy : κ → τ → List Token → κ → Prop) (R : κ → κ → Prop) (tl : Tail) : Prop where
  roll : ∀ k c, R k c → R k (S.rollback c)
  get : ∀ k c, R k c → ∀ name, S.get c name = S.get k name
  member : ∀ k c, R k c → ∀ d name, S.member c d name = S.member k d name
  set : ∀ k c, R k c → ∀ i ty k', S.setHandler k i ty = .ok k' → ∃ c', S.setHandler c i ty = .ok c' ∧ R k' c'
  word : ∀ k c, R k c → ∀ w ∈ endWords, ¬ IsLabelName S k w
  type : ∀ k ty x k', DTy k ty x k' → ∀ rest, Nxt tl rest (IsUp u r!"DO") → Go R tl S.parseType k (x ++ rest) ty k' rest

variable {u : Uni} {S : SEnv κ δ τ} {DTy : κ → τ → List Token → κ → Prop} {R : κ → κ → Prop} {tl : Tail}

/-! ## Tokens that stop a statement -/

theorem stopsDesig_of {t : Token} (h : StopsExpr u t) : StopsDesig t :=
  ⟨h.1.1.1.1, h.1.1.1.2.1, h.1.1.1.2.2.1⟩

theorem value_plain {c : Str} {t : Token} (h : t.value u = c)
    (hc : c ∉ contSyms ++ contWords ∧ c ≠ r!":=" ∧ Asc c ∧ c.map asciiUp ≠ r!"AT") : PlainStop u t :=
  ⟨stops_of_value h hc.1, fun h' => hc.2.1 (h.symm.trans h'), value_not_up h hc.2.2.1 hc.2.2.2⟩

theorem up_plain {w : Str} {t : Token} (h : IsUp u w t) (hc : ∀ c ∈ contSyms ++ contWords, Asc c ∧ c.map asciiUp ≠ w)
    (h1 : r!":=".map asciiUp ≠ w) (h2 : w ≠ r!"AT") : PlainStop u t :=
  ⟨stops_of_up h hc, up_value h (by decide) h1, fun h' => h2 (h.symm.trans h')⟩

theorem kw_plain {c : Str} {t : Token} (h : IsKw u c t)
    (hc : c ∉ contSyms ++ contWords ∧ c ≠ r!":=" ∧ Asc c ∧ c.map asciiUp ≠ r!"AT") : PlainStop u t :=
  value_plain (kw_value h) hc

theorem semi_plain {t : Token} (h : IsSym r!";" t) : PlainStop u t := value_plain (sym_value h) (by decide)

theorem semi_stops {t : Token} (h : IsSym r!";" t) (st : Stmt δ τ) : StopsStmt u st t :=
  ⟨semi_plain h, fun _ h' => not_sym_kw h' h, fun _ => h⟩

theorem kw_ne {c d : Str} {t : Token} (h : IsKw u c t) (hc : c ≠ d) : ¬ IsKw u d t :=
  fun h' => hc (h.2.symm.trans h'.2)

theorem up_not_kw {w c : Str} {t : Token} (h : IsUp u w t) (ha : Asc c) (hw : c.map asciiUp ≠ w) : ¬ IsKw u c t :=
  fun h' => up_value h ha hw (kw_value h')

theorem up_not_sym {w c : Str} {t : Token} (h : IsUp u w t) (ha : Asc c) (hw : c.map asciiUp ≠ w) : ¬ IsSym c t :=
  fun h' => up_value h ha hw (sym_value h')

theorem symF {c : Str} {t : Token} (h : ¬ IsSym c t) : ¬ sym c t = true := fun h' => h (symbol_iff.1 h')
theorem kwF {c : Str} {t : Token} (h : ¬ IsKw u c t) : ¬ kw u c t = true := fun h' => h (kw_iff.1 h')
theorem upF {c : Str} {t : Token} (h : ¬ IsUp u c t) : ¬ Pred.upperCase u c t = true := fun h' => h (upper_iff.1 h')

/-- all that is needed of `Go.eat` with `P.next` alone -/
theorem nxt_append {x rest : List Token} {p : Token → Prop} (h : Nxt tl rest p) : Nxt tl (x ++ rest) fun _ => True := by
  cases x with
  | nil => exact h.live
  | cons t x => exact .cons trivial

section
variable (C : CBase u S DTy R tl)
include C

theorem CBase.answers (k : κ) : Answers S.toEnv (.of S.toEnv (R k) (C.roll k)) k := ⟨fun c h => C.get k c h, fun c h => C.member k c h⟩

theorem CBase.of_complete {α : Type} {p : Nat → P κ α} {a : α} {fl : List Leaf} {stops : Token → Prop} {k : κ}
    (h : Complete u S.toEnv (.of S.toEnv (R k) (C.roll k)) tl p a fl stops) {x rest : List Token} (hl : Leaves u fl x)
    (hr : Nxt tl rest stops) : Go R tl p k (x ++ rest) a k rest := by
  intro s hs
  obtain ⟨t, h1, h2⟩ := hr
  have ha : After s rest stops := by
    refine ⟨t, ?_, h2⟩
    obtain ⟨ts, tl', cx⟩ := s
    have := hs.tail
    subst this
    exact h1
  obtain ⟨s', ad, N, hN⟩ := h s x rest ⟨hs.tail, hs.cx, trivial⟩ hs.ts hl ha
  refine ⟨s', ⟨ad.tail.trans hs.tail, ?_, adv_rest hs.ts ad⟩, N, hN⟩
  exact (In.adv (R := (.of S.toEnv (R k) (C.roll k))) (tl := tl) ⟨hs.tail, hs.cx, trivial⟩ ad).cx

theorem CBase.expr {k : κ} {e : Expr δ} {x rest : List Token} (d : DExpr u S True k e x) (hr : Nxt tl rest (StopsExpr u)) :
    Go R tl (parseExpr u S.toEnv) k (x ++ rest) e k rest :=
  C.of_complete (expr_complete (C.answers k) e (d.2 trivial)) d.1 hr

theorem CBase.desig {k : κ} {d : Desig δ} {x rest : List Token} (h : DDesig u S True k d x) (hr : Nxt tl rest StopsDesig) :
    Go R tl (parseDesig u S.toEnv) k (x ++ rest) d k rest :=
  C.of_complete (desig_complete (C.answers k) d (h.2 trivial)) h.1 hr

theorem CBase.qual {k : κ} {q : QualId δ} {x rest : List Token} (h : DQual u S True k q x)
    (hr : Nxt tl rest fun _ => True) :
    Go R tl (fun _ => parseQualId u S.toEnv) k (x ++ rest) q k rest :=
  C.of_complete (qual_runs (C.answers k) (h.2 trivial)) h.1 hr

theorem CBase.exprs {k : κ} {e : Exprs δ} {x rest : List Token} (d : DExprs u S True k e x) (hr : Nxt tl rest (IsSym r!")")) :
    Go R tl (parseExprs u S.toEnv (sym r!")")) k (x ++ rest) e k rest :=
  C.of_complete (exprs_complete (C.answers k) r!")" (by decide) (by decide) e (d.2 trivial)) d.1 hr

theorem CBase.getDecl {β : Type} {k k' : κ} {ts ts' : List Token} {name : Str} {f : Nat → Option δ → P κ β} {b : β}
    (hf : Go R tl (fun n => f n (S.get k name)) k ts b k' ts') :
    Go R tl (fun n => TP.getDecl S.toEnv name >>= f n) k ts b k' ts' :=
  Go.look (fun s hs => by rw [get_run, C.get k s.cx hs.cx]) hf

theorem qualIds_go : ∀ (qs : QualIds δ) {k : κ} {x rest : List Token}, DQualIds u S True k qs x →
    Nxt tl rest (fun t => ¬ IsSym r!"," t) → Go R tl (parseQualIds u S) k (x ++ rest) qs k rest
  | .one q, k, x, rest, h, hr => by
    rw [DQualIds] at h
    refine Go.succ ?_
    simp only [parseQualIds]
    refine Go.bind (C.qual h hr.live) ?_
    obtain ⟨t, h1, h2⟩ := hr
    refine Go.cur? h1 ?_
    simp only [Pred.not, symF h2, Bool.not_false, if_true]
    exact Go.pure
  | .cons q qs, k, x, rest, h, hr => by
    rw [DQualIds] at h
    obtain ⟨x, t, y, rfl, h1, h2, h3⟩ := h
    refine Go.succ ?_
    simp only [parseQualIds, List.append_assoc, List.cons_append]
    refine Go.bind (C.qual h1 (.cons trivial)) (Go.cur? rfl ?_)
    simp only [Pred.not, symbol_iff.2 h2, Bool.not_true, Bool.false_eq_true, if_false, if_true]
    exact Go.next (nxt_append hr) (Go.bind (qualIds_go qs h3 hr) Go.pure)

theorem caseLabel_go (l : CaseLabel δ) {k : κ} {x rest : List Token} (h : DCaseLabel u S True k l x)
    (hr : Nxt tl rest (fun t => StopsExpr u t ∧ ¬ IsSym r!".." t)) : Go R tl (parseCaseLabel u S) k (x ++ rest) l k rest := by
  cases l with
  | single e =>
    simp only [DCaseLabel] at h
    unfold parseCaseLabel
    refine Go.bind (C.expr h (hr.mono fun _ h => h.1)) (Go.isF (hr.mono fun _ h => symF h.2) Go.pure)
  | range lo hi =>
    simp only [DCaseLabel] at h
    obtain ⟨x, t, y, rfl, h1, h2, h3⟩ := h
    unfold parseCaseLabel
    simp only [List.append_assoc, List.cons_append]
    refine Go.bind (C.expr h1 (.cons (stops_of_value (sym_value h2) (by decide)))) (Go.isT (.cons (symbol_iff.2 h2)) ?_)
    exact Go.next (nxt_append hr) (Go.bind (C.expr h3 (hr.mono fun _ h => h.1)) Go.pure)

theorem caseLabels_go : ∀ (ls : CaseLabels δ) {k : κ} {x rest : List Token}, DCaseLabels u S True k ls x →
    Nxt tl rest (IsSym r!":") → Go R tl (parseCaseLabels u S) k (x ++ rest) ls k rest
  | .one l, k, x, rest, h, hr => by
    rw [DCaseLabels] at h
    refine Go.succ ?_
    simp only [parseCaseLabels]
    refine Go.bind (caseLabel_go C l h (hr.mono fun t h => ⟨stops_of_value (sym_value h) (by decide), not_sym h (by decide)⟩)) ?_
    exact Go.isF (hr.mono fun t h => symF (not_sym h (by decide))) Go.pure
  | .cons l ls, k, x, rest, h, hr => by
    rw [DCaseLabels] at h
    obtain ⟨x, t, y, rfl, h1, h2, h3⟩ := h
    refine Go.succ ?_
    simp only [parseCaseLabels, List.append_assoc, List.cons_append]
    refine Go.bind (caseLabel_go C l h1 (.cons ⟨comma_stops h2, not_sym h2 (by decide)⟩)) ?_
    refine Go.isT (.cons (symbol_iff.2 h2)) (Go.next (nxt_append hr) (Go.bind (caseLabels_go ls h3 hr) Go.pure))

theorem raise_go (obj addr : Option (Expr δ)) {k : κ} {x rest : List Token} (h : DRaise u S True k obj addr x)
    (hr : Nxt tl rest (fun t => PlainStop u t ∧ (obj = none → addr = none → IsSym r!";" t))) :
    Go R tl (parseRaise u S : Nat → P κ (Body δ τ)) k (x ++ rest) (.raise obj addr) k rest := by
  obtain ⟨t, x, y, rfl, h1, h2, h3⟩ := h
  unfold parseRaise
  simp only [List.append_assoc, List.cons_append]
  have hlive : Nxt tl (x ++ (y ++ rest)) fun _ => True := nxt_append (nxt_append hr)
  refine Go.eatKw h1 hlive ?_
  have hat : ∀ (obj' : Option (Expr δ)) , obj' = obj → (obj = none → addr = none → False) → 
      Go R tl (fun n => (do
        if ← P.is (Pred.upperCase u r!"AT") then do
          P.next
          let e ← parseExpr u S.toEnv n
          pure (.raise obj' (some e))
        else pure (.raise obj' none) : P κ (Body δ τ))) k (y ++ rest) (.raise obj addr) k rest := by
    rintro _ rfl hno
    cases addr with
    | none =>
      cases h3
      exact Go.isF (hr.mono fun _ h => upF h.1.2.2) Go.pure
    | some e =>
      obtain ⟨t, z, rfl, g1, g2⟩ := h3
      simp only [List.cons_append]
      exact Go.isT (.cons (upper_iff.2 g1)) (Go.next (nxt_append hr) (Go.bind (C.expr g2 (hr.mono fun _ h => h.1.1)) Go.pure))
  cases obj with
  | none =>
    cases h2
    cases addr with
    | none =>
      cases h3
      exact Go.isT (hr.mono fun _ h => symbol_iff.2 (h.2 rfl rfl)) Go.pure
    | some e =>
      have h3' := h3
      obtain ⟨t, z, rfl, g1, g2⟩ := h3'
      simp only [List.nil_append, List.cons_append]
      refine Go.isF (.cons (symF (up_not_sym g1 (by decide) (by decide)))) ?_
      refine Go.bind (a := none) (k1 := k) (ts1 := t :: (z ++ rest)) ?_ (hat none rfl (fun _ h => by (cases h)))
      exact Go.isT (.cons (upper_iff.2 g1)) Go.pure
  | some e =>
    obtain ⟨t, x', rfl, g1, g2⟩ := expr_head e h2.1.1 (h2.1.2 trivial)
    refine Go.isF (.cons (symF g1)) ?_
    refine Go.bind (a := some e) (k1 := k) (ts1 := y ++ rest) ?_ (hat _ rfl (fun h => by (cases h)))
    refine Go.isF (.cons (upF (h2.2 t rfl))) ?_
    refine Go.bind (C.expr h2.1 ?_) Go.pure
    cases addr with
    | none => cases h3; exact hr.mono fun _ h => h.1.1
    | some e =>
      obtain ⟨t, z, rfl, g1, g2⟩ := h3
      exact .cons (stops_of_up g1 (by decide))

omit C in
theorem asm_go {f c t : Token} {body : List Token} {k : κ} {rest : List Token} (ht : IsKw u r!"ASM" t)
    (hb : ∀ x ∈ body, ¬ IsKw u r!"END" x) (hc : IsKw u r!"END" c) (hr : Nxt tl rest fun _ => True) :
    Go R tl (parseAsm u : Nat → P κ (Body δ τ)) k (t :: f :: (body ++ c :: rest)) .asm k rest := by
  unfold parseAsm
  refine Go.eatKw ht (.cons trivial) (Go.bind (a := ()) (k1 := k) (ts1 := rest) ?_ Go.pure)
  induction body generalizing f with
  | nil =>
    refine Go.succ ?_
    simp only [asmLoop, List.nil_append]
    refine Go.next (.cons trivial) (Go.isT (.cons (kw_iff.2 hc)) ?_)
    exact Go.step hr
  | cons b body ih =>
    refine Go.succ ?_
    simp only [asmLoop, List.cons_append]
    refine Go.next (.cons trivial) (Go.isF (.cons (kwF (hb b (by simp)))) ?_)
    exact ih fun x hx => hb x (by simp [hx])

theorem label_none_go {k : κ} {ts : List Token} (h : Nxt tl ts fun t => ¬ IsLabelName S k (t.value u)) :
    Go R tl (fun _ => parseLabel u S) k ts none k ts := by
  obtain ⟨t, h1, h2⟩ := h
  unfold parseLabel
  refine Go.cur h1 (C.getDecl ?_)
  have : (match S.get k (t.value u) with | some d => S.isLabel d | none => false) = false := by
    cases hg : S.get k (t.value u) with
    | none => rfl
    | some d => rw [← Bool.not_eq_true]; exact fun h => h2 ⟨d, hg, h⟩
  cases hg : S.get k (t.value u) with
  | none => exact Go.pure
  | some d =>
    rw [hg] at this
    have this : S.isLabel d = false := this
    simp only [this, Bool.false_eq_true, if_false]
    exact Go.pure

theorem label_some_go {k : κ} {t c : Token} {ts : List Token} (h : IsLabelName S k (t.value u)) (hc : IsSym r!":" c)
    (hl : Nxt tl ts fun _ => True) :
    Go R tl (fun _ => parseLabel u S) k (t :: c :: ts) (some (Ident.ofTok t)) k ts := by
  unfold parseLabel
  refine Go.cur rfl (C.getDecl ?_)
  obtain ⟨d, h1, h2⟩ := h
  simp only [h1, h2, if_true]
  exact Go.nextIs (symbol_iff.2 hc) (Go.next hl Go.pure)

theorem handler_none_go {k : κ} {ts : List Token} (h : Nxt tl ts fun t => IsTypeName S.toEnv k t.raw) :
    Go R tl (fun _ => parseHandlerIdent S) k ts none k ts := by
  obtain ⟨t, h1, d, h2, h3⟩ := h
  unfold parseHandlerIdent
  refine Go.cur h1 (C.getDecl ?_)
  simp only [h2, h3, if_true]
  exact Go.pure

theorem handler_some_go {k : κ} {t c : Token} {ts : List Token} (h : ¬ IsTypeName S.toEnv k t.raw) (hc : IsSym r!":" c)
    (hl : Nxt tl ts fun _ => True) :
    Go R tl (fun _ => parseHandlerIdent S) k (t :: c :: ts) (some (Ident.ofTok t)) k ts := by
  unfold parseHandlerIdent
  refine Go.cur rfl (C.getDecl ?_)
  have go : Go R tl (fun _ => (do let _ ← P.nextIs (sym r!":"); P.next; pure (some (Ident.ofTok t)) : P κ (Option Ident)))
    k (t :: c :: ts) (some (Ident.ofTok t)) k ts := Go.nextIs (symbol_iff.2 hc) (Go.next hl Go.pure)
  cases hg : S.get k t.raw with
  | none => exact go
  | some d =>
    have : S.isType d = false := by rw [← Bool.not_eq_true]; exact fun h' => h ⟨d, hg, h'⟩
    simp only [this, Bool.false_eq_true, if_false]
    exact go

end

/-- the terminators of statement lists -/
structure Ends (u : Uni) (term : Pred) : Prop where
  plain : ∀ t, term t = true → PlainStop u t
  els : ∀ t, term t = true → ¬ IsKw u r!"ELSE" t
  semi : ∀ t, IsSym r!";" t → ¬ term t = true
  head : ∀ t, StmtHead u t → ¬ term t = true

theorem term_kw {c : Str} (hc : c ∈ endWords) : Ends u (kw u c) := by
  have h : ∀ c ∈ endWords, (c ∉ contSyms ++ contWords ∧ c ≠ r!":=" ∧ Asc c ∧ c.map asciiUp ≠ r!"AT") ∧ c ≠ r!"ELSE" := by
    decide
  exact ⟨fun t h' => kw_plain (kw_iff.1 h') (h c hc).1, fun t h' => kw_ne (kw_iff.1 h') (h c hc).2,
    fun t h' h'' => not_sym_kw (kw_iff.1 h'') h', fun t h' h'' => h' c hc (kw_iff.1 h'')⟩

theorem some_two {p q : Pred} {t : Token} : Pred.some [p, q] t = true ↔ p t = true ∨ q t = true := by
  simp [Pred.some]

theorem term_try : Ends u (tryEnd u) := by
  have h1 := term_kw (u := u) (c := r!"EXCEPT") (by decide)
  have h2 := term_kw (u := u) (c := r!"FINALLY") (by decide)
  unfold tryEnd
  exact ⟨fun t h => (some_two.1 h).elim (h1.plain t) (h2.plain t), fun t h => (some_two.1 h).elim (h1.els t) (h2.els t),
    fun t h h' => (some_two.1 h').elim (h1.semi t h) (h2.semi t h), fun t h h' => (some_two.1 h').elim (h1.head t h) (h2.head t h)⟩


section
variable (C : CBase u S DTy R tl)
include C

theorem desigStmt_go (b : Body δ τ) {k k' : κ} {x rest : List Token} (h : DBody u S True DTy k b x k')
    (hb : (∃ d e, b = .assign d e) ∨ (∃ d, b = .call d) ∨ ∃ d e, b = .callArgs d e) (hr : Nxt tl rest (PlainStop u)) :
    Go R tl (parseDesigStmt u S) k (x ++ rest) b k' rest := by
  unfold parseDesigStmt
  rcases hb with ⟨d, e, rfl⟩ | ⟨d, rfl⟩ | ⟨d, e, rfl⟩ <;> rw [DBody] at h
  · obtain ⟨rfl, x, t, y, rfl, h1, h2, h3⟩ := h
    simp only [List.append_assoc, List.cons_append]
    have hs := stopsDesig_of (stops_of_value (u := u) h2 (by decide))
    refine Go.bind (C.desig h1 (.cons hs)) (Go.cur rfl ?_)
    simp only [h2, if_true]
    exact Go.next (nxt_append hr) (Go.bind (C.expr h3 (hr.mono fun _ h => h.1)) Go.pure)
  · obtain ⟨rfl, h⟩ := h
    refine Go.bind (C.desig h (hr.mono fun _ h => stopsDesig_of h.1)) ?_
    obtain ⟨t, h1, h2⟩ := hr
    refine Go.cur h1 ?_
    simp only [h2.2.1, if_false, symF h2.1.1.1.1.2.2.2]
    exact Go.pure
  · obtain ⟨rfl, x, t, y, c, rfl, h1, h2, h3, h4⟩ := h
    simp only [List.append_assoc, List.cons_append, List.nil_append]
    have hs : StopsDesig t := ⟨not_sym h2 (by decide), not_sym h2 (by decide), not_sym h2 (by decide)⟩
    refine Go.bind (C.desig h1 (.cons hs)) (Go.cur rfl ?_)
    have hv : t.value u ≠ r!":=" := by rw [sym_value h2]; decide
    simp only [hv, if_false, symbol_iff.2 h2, if_true]
    refine Go.next (nxt_append (rest := c :: rest) (.cons (p := fun _ => True) trivial)) (Go.bind (C.exprs h3 (.cons h4)) ?_)
    exact Go.eatSym h4 hr.live Go.pure

omit C in
/-- a statement that begins with a reserved word is parsed by the function for this word -/
theorem body_kw {c : Str} {t : Token} {ts ts' : List Token} {k k' : κ} {b : Body δ τ} {p : Nat → P κ (Body δ τ)}
    (ht : IsKw u c t) (hp : ∀ n, (if c = r!"INHERITED" then parseInherited u
      else if c = r!"GOTO" then parseGoto u S
      else if c = r!"BEGIN" then parseCompound u S n
      else if c = r!"IF" then parseIf u S n
      else if c = r!"CASE" then parseCase u S n
      else if c = r!"REPEAT" then parseRepeat u S n
      else if c = r!"WHILE" then parseWhile u S n
      else if c = r!"FOR" then parseFor u S n
      else if c = r!"WITH" then parseWith u S n
      else if c = r!"TRY" then parseTry u S n
      else if c = r!"RAISE" then parseRaise u S n
      else if c = r!"ASM" then parseAsm u n
      else parseDesigStmt u S n) = p n) (h : Go R tl p k (t :: ts) b k' ts') :
    Go R tl (parseBody u S) k (t :: ts) b k' ts' := by
  refine Go.succ ?_
  simp only [parseBody]
  refine Go.cur rfl ?_
  simp only [ht.1, kw_value ht, if_true, hp]
  exact h

/-- what may follow a list of handlers `x` -/
def HFollow (u : Uni) (e : Bool) (x : List Token) (t : Token) : Prop :=
  PlainStop u t ∧ ¬ IsUp u r!"ON" t ∧ (e = false → ¬ IsKw u r!"ELSE" t) ∧ (IsSym r!";" t → ¬ LastNo x)

/-- cannot continue a statement with this body -/
def StopsBody (u : Uni) (b : Body δ τ) (t : Token) : Prop :=
  PlainStop u t ∧ (openIfB b = true → ¬ IsKw u r!"ELSE" t) ∧ (bareRaiseB b = true → IsSym r!";" t)

omit C in
theorem handlers_head (hs : Handlers δ τ) {k k' : κ} {e : Bool} {x : List Token} (h : DHandlers u S True DTy k e hs x k') :
    ∃ t y, x = t :: y ∧ IsUp u r!"ON" t := by
  have one : ∀ (h : Handler δ τ) {k k' : κ} {e : Bool} {x : List Token}, DHandler u S True DTy k e h x k' →
      ∃ t y, x = t :: y ∧ IsUp u r!"ON" t := by
    intro h k k' e x hd
    obtain ⟨i, ty, st⟩ := h
    cases i with
    | none => rw [DHandler] at hd; obtain ⟨t, x, d, y, z, k1, rfl, h, -⟩ := hd; exact ⟨t, _, rfl, h⟩
    | some i => rw [DHandler] at hd; obtain ⟨t, n, c, x, d, y, z, k1, k2, rfl, h, -⟩ := hd; exact ⟨t, _, rfl, h⟩
  cases hs with
  | one h' => rw [DHandlers] at h; exact one h' h
  | cons h' r =>
    rw [DHandlers] at h
    obtain ⟨x, y, k1, rfl, h, -⟩ := h
    obtain ⟨t, y', rfl, g⟩ := one h' h
    exact ⟨t, _, rfl, g⟩

omit C in
theorem caseLabels_head (ls : CaseLabels δ) {k : κ} {x : List Token} (h : DCaseLabels u S True k ls x) :
    ∃ t y, x = t :: y ∧ ExprHead u t := by
  have one : ∀ (l : CaseLabel δ) {x : List Token}, DCaseLabel u S True k l x → ∃ t y, x = t :: y ∧ ExprHead u t := by
    intro l x h
    cases l with
    | single e => rw [DCaseLabel] at h; exact expr_head e h.1 (h.2 trivial)
    | range lo hi =>
      rw [DCaseLabel] at h
      obtain ⟨x, t, y, rfl, h, -⟩ := h
      obtain ⟨t, y', rfl, g⟩ := expr_head lo h.1 (h.2 trivial)
      exact ⟨t, _, rfl, g⟩
  cases ls with
  | one l => rw [DCaseLabels] at h; exact one l h
  | cons l r =>
    rw [DCaseLabels] at h
    obtain ⟨x, t, y, rfl, h, -⟩ := h
    obtain ⟨t, y', rfl, g⟩ := one l h
    exact ⟨t, _, rfl, g⟩

omit C in
theorem sels_head (ss : Sels δ τ) {k k' : κ} {x : List Token} (h : DSels u S True DTy k ss x k') :
    ∃ t y, x = t :: y ∧ ExprHead u t := by
  cases ss with
  | one ls s =>
    rw [DSels] at h
    obtain ⟨x, t, y, c, rfl, h, -⟩ := h
    obtain ⟨t, y', rfl, g⟩ := caseLabels_head ls h
    exact ⟨t, _, rfl, g⟩
  | cons ls s r =>
    rw [DSels] at h
    obtain ⟨x, t, y, c, z, k1, rfl, h, -⟩ := h
    obtain ⟨t, y', rfl, g⟩ := caseLabels_head ls h
    exact ⟨t, _, rfl, g⟩

omit C in
theorem nxt_head {x rest : List Token} {p : Token → Prop} (h : ∃ t y, x = t :: y ∧ p t) : Nxt tl (x ++ rest) p := by
  obtain ⟨t, y, rfl, h⟩ := h
  exact .cons h

omit C in
theorem hsemi_of {e : Bool} {s : Stmt δ τ} {z : List Token}
    (h : (z = [] ∧ bareRaise s = false ∧ (e && openIf s) = false) ∨ ∃ t, z = [t] ∧ IsSym r!";" t) : HSemi e s z := h

mutual
theorem stmt_go : ∀ (st : Stmt δ τ) {k k' : κ} {x rest : List Token}, DStmt u S True DTy k st x k' →
    Nxt tl rest (StopsStmt u st) → Go R tl (parseStmt u S) k (x ++ rest) st k' rest
  | .mk none b, k, k', x, rest, h, hr => by
    rw [DStmt] at h
    obtain ⟨h1, h2⟩ := h
    refine Go.succ ?_
    simp only [parseStmt]
    refine Go.bind (label_none_go C ?_) (Go.bind (body_go b h1 hr) Go.pure)
    obtain ⟨t, y, rfl, -⟩ := body_head b h1
    exact .cons (h2 trivial t rfl)
  | .mk (some i) b, k, k', x, rest, h, hr => by
    rw [DStmt] at h
    obtain ⟨t, c, x, rfl, rfl, h2, h3, h4⟩ := h
    refine Go.succ ?_
    simp only [parseStmt, List.cons_append]
    exact Go.bind (label_some_go C (h3 trivial) h2 (nxt_append hr)) (Go.bind (body_go b h4 hr) Go.pure)
theorem body_go : ∀ (b : Body δ τ) {k k' : κ} {x rest : List Token}, DBody u S True DTy k b x k' →
    Nxt tl rest (StopsBody u b) → Go R tl (parseBody u S) k (x ++ rest) b k' rest
  | .assign d e, k, k', x, rest, h, hr => by
    have g := desigStmt_go C (.assign d e) h (.inl ⟨_, _, rfl⟩) (hr.mono fun _ h => h.1)
    rw [DBody] at h
    obtain ⟨-, x, t, y, rfl, h1, -⟩ := h
    obtain ⟨t, y, rfl, h2⟩ := desig_head h1
    refine Go.succ ?_
    simp only [parseBody]
    refine Go.cur rfl ?_
    simp only [h2, reduceCtorEq, if_false]
    exact g
  | .call d, k, k', x, rest, h, hr => by
    have g := desigStmt_go C (.call d) h (.inr (.inl ⟨_, rfl⟩)) (hr.mono fun _ h => h.1)
    rw [DBody] at h
    obtain ⟨-, h1⟩ := h
    obtain ⟨t, y, rfl, h2⟩ := desig_head h1
    refine Go.succ ?_
    simp only [parseBody]
    refine Go.cur rfl ?_
    simp only [h2, reduceCtorEq, if_false]
    exact g
  | .callArgs d e, k, k', x, rest, h, hr => by
    have g := desigStmt_go C (.callArgs d e) h (.inr (.inr ⟨_, _, rfl⟩)) (hr.mono fun _ h => h.1)
    rw [DBody] at h
    obtain ⟨-, x, t, y, c, rfl, h1, -⟩ := h
    obtain ⟨t, y, rfl, h2⟩ := desig_head h1
    refine Go.succ ?_
    simp only [parseBody]
    refine Go.cur rfl ?_
    simp only [h2, reduceCtorEq, if_false]
    exact g
  | .inherited, k, k', x, rest, h, hr => by
    rw [DBody] at h
    obtain ⟨rfl, t, rfl, h1⟩ := h
    refine body_kw h1 (p := fun _ => parseInherited u) (fun n => rfl) ?_
    unfold parseInherited
    exact Go.eatKw h1 hr.live Go.pure
  | .goto i r, k, k', x, rest, h, hr => by
    rw [DBody] at h
    obtain ⟨rfl, t, l, rfl, h1, h2, rfl, h3⟩ := h
    refine body_kw h1 (p := fun _ => parseGoto u S) (fun n => rfl) ?_
    unfold parseGoto
    refine Go.current rfl (kw_iff.2 h1) (Go.nextIs (by simpa [Pred.typ] using h2) (C.getDecl (Go.next hr.live ?_)))
    rw [h3 trivial, value_of_ne (by rw [h2]; decide)]
    exact Go.pure
  | .compound l, k, k', x, rest, h, hr => by
    rw [DBody] at h
    obtain ⟨t, x, c, rfl, h1, h2, h3⟩ := h
    simp only [List.cons_append, List.append_assoc, List.nil_append]
    refine body_kw h1 (p := parseCompound u S) (fun n => rfl) (Go.succ ?_)
    simp only [parseCompound]
    refine Go.eatKw h1 (nxt_append (rest := c :: rest) (p := fun _ => True) (.cons trivial)) ?_
    refine Go.bind (stmts_go l (term_kw (by decide)) h2 (.cons (kw_iff.2 h3))) ?_
    exact Go.eatKw h3 hr.live Go.pure
  | .ifThen c s, k, k', x, rest, h, hr => by
    rw [DBody] at h
    obtain ⟨t, x, g, y, rfl, h1, h2, h3, h4⟩ := h
    simp only [List.cons_append, List.append_assoc]
    refine body_kw h1 (p := parseIf u S) (fun n => rfl) (Go.succ ?_)
    simp only [parseIf]
    refine Go.eatKw h1 (nxt_append (rest := g :: (y ++ rest)) (p := fun _ => True) (.cons trivial)) ?_
    refine Go.bind (C.expr h2 (.cons (kw_plain h3 (by decide)).1)) ?_
    refine Go.eatKw h3 (nxt_append hr) ?_
    refine Go.bind (stmt_go s h4 (hr.mono fun t h => ⟨h.1, fun _ => h.2.1 rfl, h.2.2⟩)) ?_
    exact Go.isF (hr.mono fun t h => kwF (h.2.1 rfl)) Go.pure
  | .ifElse c s1 s2, k, k', x, rest, h, hr => by
    rw [DBody] at h
    obtain ⟨t, x, g, y, e, z, k1, rfl, h1, h2, h3, h4, h5, h6, h7, h8⟩ := h
    simp only [List.cons_append, List.append_assoc]
    refine body_kw h1 (p := parseIf u S) (fun n => rfl) (Go.succ ?_)
    simp only [parseIf]
    refine Go.eatKw h1 (nxt_append (rest := g :: (y ++ e :: (z ++ rest))) (p := fun _ => True) (.cons trivial)) ?_
    refine Go.bind (C.expr h2 (.cons (kw_plain h3 (by decide)).1)) ?_
    refine Go.eatKw h3 (nxt_append (rest := e :: (z ++ rest)) (p := fun _ => True) (.cons trivial)) ?_
    refine Go.bind (stmt_go s1 h4 (.cons ⟨kw_plain h7 (by decide), fun h => ?_, fun h => ?_⟩)) ?_
    · rw [h5] at h; cases h
    · rw [h6] at h; cases h
    · refine Go.isT (.cons (kw_iff.2 h7)) (Go.next (nxt_append hr) ?_)
      exact Go.bind (stmt_go s2 h8 hr) Go.pure
  | .case e sels els, k, k', x, rest, h, hr => by
    rw [DBody] at h
    obtain ⟨t, x, g, y, z, c, k1, rfl, h1, h2, h3, h4, h5, h6⟩ := h
    simp only [List.cons_append, List.append_assoc, List.nil_append]
    refine body_kw h1 (p := parseCase u S) (fun n => rfl) (Go.succ ?_)
    simp only [parseCase]
    refine Go.eatKw h1 (nxt_append (rest := g :: (y ++ (z ++ c :: rest))) (p := fun _ => True) (.cons trivial)) ?_
    refine Go.bind (C.expr h2 (.cons (kw_plain h3 (by decide)).1)) ?_
    refine Go.eatKw h3 (nxt_append (nxt_append (rest := c :: rest) (p := fun _ => True) (.cons trivial))) ?_
    cases els with
    | none =>
      rw [DElse] at h5
      obtain ⟨rfl, rfl⟩ := h5
      refine Go.bind (sels_go sels h4 (.cons (.inr h6))) ?_
      refine Go.isF (.cons (kwF (kw_ne h6 (by decide)))) ?_
      exact Go.eatKw h6 hr.live Go.pure
    | some l =>
      rw [DElse] at h5
      obtain ⟨t5, x5, rfl, g1, g2⟩ := h5
      refine Go.bind (sels_go sels h4 (.cons (.inl g1))) ?_
      simp only [List.cons_append]
      refine Go.isT (.cons (kw_iff.2 g1)) (Go.next (nxt_append (rest := c :: rest) (p := fun _ => True) (.cons trivial)) ?_)
      refine Go.bind (stmts_go l (term_kw (by decide)) g2 (.cons (kw_iff.2 h6))) ?_
      exact Go.eatKw h6 hr.live Go.pure
  | .repeat l c, k, k', x, rest, h, hr => by
    rw [DBody] at h
    obtain ⟨t, x, g, y, rfl, h1, h2, h3, h4⟩ := h
    simp only [List.cons_append, List.append_assoc]
    refine body_kw h1 (p := parseRepeat u S) (fun n => rfl) (Go.succ ?_)
    simp only [parseRepeat]
    refine Go.eatKw h1 (nxt_append (rest := g :: (y ++ rest)) (p := fun _ => True) (.cons trivial)) ?_
    refine Go.bind (stmts_go l (term_kw (by decide)) h2 (.cons (kw_iff.2 h3))) ?_
    refine Go.eatKw h3 (nxt_append hr) ?_
    exact Go.bind (C.expr h4 (hr.mono fun t h => h.1.1)) Go.pure
  | .while c s, k, k', x, rest, h, hr => by
    rw [DBody] at h
    obtain ⟨t, x, g, y, rfl, h1, h2, h3, h4⟩ := h
    simp only [List.cons_append, List.append_assoc]
    refine body_kw h1 (p := parseWhile u S) (fun n => rfl) (Go.succ ?_)
    simp only [parseWhile]
    refine Go.eatKw h1 (nxt_append (rest := g :: (y ++ rest)) (p := fun _ => True) (.cons trivial)) ?_
    refine Go.bind (C.expr h2 (.cons (kw_plain h3 (by decide)).1)) ?_
    refine Go.eatKw h3 (nxt_append hr) ?_
    exact Go.bind (stmt_go s h4 hr) Go.pure
  | .for q down lo hi s, k, k', x, rest, h, hr => by
    rw [DBody] at h
    obtain ⟨t, x, a, y, o, z, g, w, rfl, h1, h2, h3, h4, h5, h6, h7, h8⟩ := h
    simp only [List.cons_append, List.append_assoc]
    refine body_kw h1 (p := parseFor u S) (fun n => rfl) (Go.succ ?_)
    simp only [parseFor]
    refine Go.eatKw h1 (nxt_append (rest := a :: (y ++ o :: (z ++ g :: (w ++ rest)))) (p := fun _ => True) (.cons trivial)) ?_
    refine Go.bind (C.qual h2 (.cons trivial)) ?_
    refine Go.eatSym h3 (nxt_append (rest := o :: (z ++ g :: (w ++ rest))) (p := fun _ => True) (.cons trivial)) ?_
    refine Go.bind (C.expr h4 (.cons (stops_of_value h5 (by cases down <;> decide)))) ?_
    refine Go.cur rfl ?_
    have hv : o.value u = r!"TO" ∨ o.value u = r!"DOWNTO" := by
      rw [h5]; cases down <;> decide
    have hd : (o.value u == r!"DOWNTO") = down := by
      rw [h5]; cases down <;> decide
    simp only [hv, if_true, hd]
    refine Go.next (nxt_append (rest := g :: (w ++ rest)) (p := fun _ => True) (.cons trivial)) ?_
    refine Go.bind (C.expr h6 (.cons (kw_plain h7 (by decide)).1)) ?_
    refine Go.eatKw h7 (nxt_append hr) ?_
    exact Go.bind (stmt_go s h8 hr) Go.pure
  | .with qs s, k, k', x, rest, h, hr => by
    rw [DBody] at h
    obtain ⟨t, x, g, y, rfl, h1, h2, h3, h4⟩ := h
    simp only [List.cons_append, List.append_assoc]
    refine body_kw h1 (p := parseWith u S) (fun n => rfl) (Go.succ ?_)
    simp only [parseWith]
    refine Go.eatKw h1 (nxt_append (rest := g :: (y ++ rest)) (p := fun _ => True) (.cons trivial)) ?_
    refine Go.bind (qualIds_go C qs h2 (.cons (not_sym_kw h3))) ?_
    refine Go.eatKw h3 (nxt_append hr) ?_
    exact Go.bind (stmt_go s h4 hr) Go.pure
  | .tryExcept l b, k, k', x, rest, h, hr => by
    rw [DBody] at h
    obtain ⟨t, x, g, y, k1, rfl, h1, h2, h3, h4⟩ := h
    simp only [List.cons_append, List.append_assoc]
    refine body_kw h1 (p := parseTry u S) (fun n => rfl) (Go.succ ?_)
    simp only [parseTry]
    refine Go.eatKw h1 (nxt_append (rest := g :: (y ++ rest)) (p := fun _ => True) (.cons trivial)) ?_
    refine Go.bind (stmts_go l term_try h2 (.cons (some_two.2 (.inl (kw_iff.2 h3))))) ?_
    refine Go.isT (.cons (kw_iff.2 h3)) (Go.next (nxt_append hr) ?_)
    exact Go.bind (exc_go b h4 hr.live) Go.pure
  | .tryFinally l1 l2, k, k', x, rest, h, hr => by
    rw [DBody] at h
    obtain ⟨t, x, g, y, c, k1, rfl, h1, h2, h3, h4, h5⟩ := h
    simp only [List.cons_append, List.append_assoc, List.nil_append]
    refine body_kw h1 (p := parseTry u S) (fun n => rfl) (Go.succ ?_)
    simp only [parseTry]
    refine Go.eatKw h1 (nxt_append (rest := g :: (y ++ c :: rest)) (p := fun _ => True) (.cons trivial)) ?_
    refine Go.bind (stmts_go l1 term_try h2 (.cons (some_two.2 (.inr (kw_iff.2 h3))))) ?_
    refine Go.isF (.cons (kwF (kw_ne h3 (by decide)))) ?_
    refine Go.isT (.cons (kw_iff.2 h3)) (Go.next (nxt_append (rest := c :: rest) (p := fun _ => True) (.cons trivial)) ?_)
    refine Go.bind (stmts_go l2 (term_kw (by decide)) h4 (.cons (kw_iff.2 h5))) ?_
    exact Go.next hr.live Go.pure
  | .raise obj addr, k, k', x, rest, h, hr => by
    rw [DBody] at h
    obtain ⟨rfl, h⟩ := h
    have g := raise_go (τ := τ) C obj addr h (hr.mono fun t h => ⟨h.1, fun e1 e2 => h.2.2 (by rw [e1, e2]; rfl)⟩)
    obtain ⟨t, x, y, rfl, h1, -⟩ := h
    exact body_kw h1 (p := parseRaise u S) (fun n => rfl) g
  | .asm, k, k', x, rest, h, hr => by
    rw [DBody] at h
    obtain ⟨rfl, t, f, body, c, rfl, h1, h2, h3⟩ := h
    simp only [List.cons_append, List.append_assoc, List.nil_append]
    exact body_kw h1 (p := parseAsm u) (fun n => rfl) (asm_go h1 h2 h3 hr.live)
theorem stmts_go : ∀ (l : Stmts δ τ) {term : Pred} (_ : Ends u term) {k k' : κ} {x rest : List Token},
    DStmts u S True DTy k l x k' → Nxt tl rest (fun t => term t = true) →
    Go R tl (parseStmts u S term) k (x ++ rest) l k' rest
  | .one s, term, T, k, k', x, rest, h, hr => by
    rw [DStmts] at h
    refine Go.succ ?_
    simp only [parseStmts]
    rcases h with ⟨h1, h2⟩ | ⟨x, t, rfl, h2, h3⟩
    · refine Go.bind (stmt_go s h2 (hr.mono fun t h => ⟨T.plain t h, fun _ => T.els t h, fun h' => ?_⟩)) ?_
      · rw [h1] at h'; cases h'
      · exact Go.isT hr Go.pure
    · simp only [List.append_assoc, List.cons_append, List.nil_append]
      refine Go.bind (stmt_go s h2 (.cons (semi_stops h3 s))) ?_
      refine Go.isF (.cons (T.semi t h3)) (Go.eatSym h3 hr.live ?_)
      exact Go.isT hr Go.pure
  | .cons s r, term, T, k, k', x, rest, h, hr => by
    rw [DStmts] at h
    obtain ⟨x, t, y, k1, rfl, h1, h2, h3⟩ := h
    refine Go.succ ?_
    simp only [parseStmts, List.append_assoc, List.cons_append]
    refine Go.bind (stmt_go s h1 (.cons (semi_stops h2 s))) ?_
    refine Go.isF (.cons (T.semi t h2)) (Go.eatSym h2 (nxt_append hr) ?_)
    refine Go.intro fun c hc => ?_
    refine Go.isF ((nxt_head (stmts_head r (C.word k1 c hc) h3)).mono fun t h => T.head t h) ?_
    exact Go.bind (stmts_go r T h3 hr) Go.pure
theorem sels_go : ∀ (l : Sels δ τ) {k k' : κ} {x rest : List Token}, DSels u S True DTy k l x k' →
    Nxt tl rest (fun t => IsKw u r!"ELSE" t ∨ IsKw u r!"END" t) → Go R tl (parseSels u S) k (x ++ rest) l k' rest
  | .one ls s, k, k', x, rest, h, hr => by
    rw [DSels] at h
    obtain ⟨x, t, y, c, rfl, h1, h2, h3, h4⟩ := h
    refine Go.succ ?_
    simp only [parseSels, List.append_assoc, List.cons_append, List.nil_append]
    refine Go.bind (caseLabels_go C ls h1 (.cons h2)) ?_
    refine Go.eatSym h2 (nxt_append (rest := c :: rest) (p := fun _ => True) (.cons trivial)) ?_
    refine Go.bind (stmt_go s h3 (.cons (semi_stops h4 s))) ?_
    refine Go.eatSym h4 hr.live ?_
    exact Go.isT (hr.mono fun t h => some_two.2 (h.imp kw_iff.2 kw_iff.2)) Go.pure
  | .cons ls s r, k, k', x, rest, h, hr => by
    rw [DSels] at h
    obtain ⟨x, t, y, c, z, k1, rfl, h1, h2, h3, h4, h5⟩ := h
    refine Go.succ ?_
    simp only [parseSels, List.append_assoc, List.cons_append]
    refine Go.bind (caseLabels_go C ls h1 (.cons h2)) ?_
    refine Go.eatSym h2 (nxt_append (rest := c :: (z ++ rest)) (p := fun _ => True) (.cons trivial)) ?_
    refine Go.bind (stmt_go s h3 (.cons (semi_stops h4 s))) ?_
    refine Go.eatSym h4 (nxt_append hr) ?_
    refine Go.isF ((nxt_head (sels_head r h5)).mono fun t h h' => ?_) (Go.bind (sels_go r h5 hr) Go.pure)
    rcases some_two.1 h' with h' | h' <;> rcases h.2 _ (kw_iff.1 h') with h | h <;> revert h <;> decide
theorem exc_go : ∀ (b : ExcBlock δ τ) {k k' : κ} {x rest : List Token}, DExc u S True DTy k b x k' →
    Nxt tl rest (fun _ => True) → Go R tl (parseExcBlock u S) k (x ++ rest) b k' rest
  | .plain l, k, k', x, rest, h, hr => by
    rw [DExc] at h
    obtain ⟨x, c, rfl, h1, h2, h3⟩ := h
    refine Go.succ ?_
    simp only [parseExcBlock, List.append_assoc, List.cons_append, List.nil_append]
    refine Go.intro fun c' hc' => ?_
    have hx := stmts_head l (C.word k c' hc') h1
    refine Go.isF (nxt_head (p := fun t => ¬ Pred.upperCase u r!"ON" t = true) ?_) ?_
    · obtain ⟨t, y, rfl, -⟩ := hx
      exact ⟨t, y, rfl, upF (h3 t rfl)⟩
    · refine Go.bind (stmts_go l (term_kw (by decide)) h1 (.cons (kw_iff.2 h2))) ?_
      exact Go.eatKw h2 hr Go.pure
  | .handlers hs .none, k, k', x, rest, h, hr => by
    rw [DExc] at h
    obtain ⟨x, y, c, rfl, h1, h2, h3⟩ := h
    refine Go.succ ?_
    simp only [parseExcBlock, List.append_assoc, List.cons_append, List.nil_append]
    have hon := handlers_head hs h1
    refine Go.isT ((nxt_head hon).mono fun t h => upper_iff.2 h) ?_
    have hpl : PlainStop u c := kw_plain h3 (by decide)
    rcases h2 with rfl | ⟨t, x', t', rfl, g1, g2, g3⟩
    · refine Go.bind (handlers_go hs h1 (.cons ⟨hpl, value_not_up (kw_value h3) (by decide) (by decide),
        fun _ => kw_ne h3 (by decide), fun h => (not_sym_kw h3 h).elim⟩)) ?_
      refine Go.isT (.cons (kw_iff.2 h3)) (Go.next hr Go.pure)
    · refine Go.bind (handlers_go hs h1 (.cons ⟨semi_plain g1, value_not_up (sym_value g1) (by decide) (by decide),
        fun _ h => not_sym_kw h g1, fun _ h => ?_⟩)) ?_
      · obtain ⟨a, b, e, h⟩ := h
        rw [g2] at e
        have := List.append_inj_right' e rfl
        cases this
        exact h g3
      · refine Go.isF (.cons (kwF fun h => not_sym_kw h g1)) ?_
        refine Go.bind (a := .none) (k1 := k') (ts1 := t :: c :: rest) ?_ ?_
        · refine Go.succ ?_
          simp only [parseExcElse]
          exact Go.isF (.cons (kwF fun h => not_sym_kw h g1)) Go.pure
        · refine Go.isT (.cons (symbol_iff.2 g1)) ?_
          exact Go.next (.cons trivial) (Go.eatKw h3 hr Go.pure)
  | .handlers hs (.some l), k, k', x, rest, h, hr => by
    rw [DExc] at h
    obtain ⟨x, t, y, c, k1, rfl, h1, h2, h3, h4⟩ := h
    refine Go.succ ?_
    simp only [parseExcBlock, List.append_assoc, List.cons_append, List.nil_append]
    have hon := handlers_head hs h1
    refine Go.isT ((nxt_head hon).mono fun t h => upper_iff.2 h) ?_
    refine Go.bind (handlers_go hs h1 (.cons ⟨kw_plain h2 (by decide), value_not_up (kw_value h2) (by decide) (by decide),
      fun h => by (cases h), fun h => (not_sym_kw h2 h).elim⟩)) ?_
    refine Go.isF (.cons (kwF (kw_ne h2 (by decide)))) ?_
    refine Go.bind (a := .some l) (k1 := k') (ts1 := c :: rest) ?_ ?_
    · refine Go.succ ?_
      simp only [parseExcElse]
      refine Go.isT (.cons (kw_iff.2 h2)) (Go.next (nxt_append (rest := c :: rest) (p := fun _ => True) (.cons trivial)) ?_)
      exact Go.bind (stmts_go l (term_kw (by decide)) h3 (.cons (kw_iff.2 h4))) Go.pure
    · refine Go.isF (.cons (symF (not_sym_kw h4))) ?_
      exact Go.eatKw h4 hr Go.pure
theorem handlers_go : ∀ (hs : Handlers δ τ) {k k' : κ} {e : Bool} {x rest : List Token}, DHandlers u S True DTy k e hs x k' →
    Nxt tl rest (HFollow u e x) → Go R tl (parseHandlers u S) k (x ++ rest) hs k' rest
  | .one h, k, k', e, x, rest, hd, hr => by
    rw [DHandlers] at hd
    obtain ⟨y, z, rfl, h1, h2, h3⟩ := handler_go h hd
    refine Go.succ ?_
    simp only [parseHandlers, List.append_assoc]
    rcases h1 with ⟨rfl, g1, g2⟩ | ⟨t, rfl, g⟩
    · rw [List.append_nil] at hr
      refine Go.bind (h3 _ (hr.mono fun t h' => ⟨h'.1, fun ho => ?_, fun hb => ?_⟩)) ?_
      · cases e with
        | false => exact h'.2.2.1 rfl
        | true => rw [ho] at g2; cases g2
      · rw [g1] at hb; cases hb
      · refine Go.isF (hr.mono fun t h' => symF fun h'' => h'.2.2.2 h'' h2) ?_
        exact Go.isF (hr.mono fun t h' => upF h'.2.1) Go.pure
    · refine Go.bind (h3 _ (.cons (semi_stops g _))) ?_
      refine Go.isT (.cons (symbol_iff.2 g)) (Go.next hr.live ?_)
      exact Go.isF (hr.mono fun t h' => upF h'.2.1) Go.pure
  | .cons h r, k, k', e, x, rest, hd, hr => by
    rw [DHandlers] at hd
    obtain ⟨x, w, k1, rfl, hd, hd2⟩ := hd
    obtain ⟨y, z, rfl, h1, h2, h3⟩ := handler_go h hd
    have hw := handlers_head r hd2
    have hnx : Nxt tl (w ++ rest) (IsUp u r!"ON") := nxt_head hw
    have hr' : Nxt tl rest (HFollow u e w) := hr.mono fun t h' => ⟨h'.1, h'.2.1, h'.2.2.1, fun h2 h3 => h'.2.2.2 h2 h3.append⟩
    have hgo := handlers_go r hd2 hr'
    refine Go.succ ?_
    simp only [parseHandlers, List.append_assoc]
    rcases h1 with ⟨rfl, g1, g2⟩ | ⟨t, rfl, g⟩
    · refine Go.bind (h3 _ (hnx.mono fun t h' => ⟨up_plain h' (by decide) (by decide) (by decide),
        fun _ => up_not_kw h' (by decide) (by decide), fun hb => ?_⟩)) ?_
      · rw [g1] at hb; cases hb
      · refine Go.isF (hnx.mono fun t h' => symF (up_not_sym h' (by decide) (by decide))) ?_
        refine Go.isT (hnx.mono fun t h' => upper_iff.2 h') ?_
        exact Go.bind hgo Go.pure
    · refine Go.bind (h3 _ (.cons (semi_stops g _))) ?_
      refine Go.isT (.cons (symbol_iff.2 g)) (Go.next hnx.live ?_)
      refine Go.isT (hnx.mono fun t h' => upper_iff.2 h') ?_
      exact Go.bind hgo Go.pure
theorem handler_go : ∀ (h : Handler δ τ) {k k' : κ} {e : Bool} {x : List Token}, DHandler u S True DTy k e h x k' →
    ∃ y z, x = y ++ z ∧ HSemi e h.stmt z ∧ LastNo y ∧
      ∀ rest, Nxt tl rest (StopsStmt u h.stmt) → Go R tl (parseHandler u S) k (y ++ rest) h k' rest
  | .mk none ty s, k, k', e, x, hd => by
    rw [DHandler] at hd
    obtain ⟨t, x, d, y, z, k1, rfl, h1, h2, h3, h4, h5, h6⟩ := hd
    refine ⟨t :: (x ++ d :: y), z, by simp, h6, (stmt_last s h5).cons.append.cons, fun rest hr => ?_⟩
    refine Go.succ ?_
    simp only [parseHandler, List.append_assoc, List.cons_append]
    refine Go.eat (upper_iff.2 h1) (nxt_append (rest := d :: (y ++ rest)) (p := fun _ => True) (.cons trivial)) ?_
    refine Go.bind (handler_none_go C ?_) ?_
    · cases x with
      | nil => exact .cons (h3 trivial d rfl)
      | cons a x => exact .cons (h3 trivial a rfl)
    · refine Go.bind (C.type k ty x k1 h2 _ (.cons h4)) ?_
      refine Go.bind Go.pure ?_
      refine Go.eat (upper_iff.2 h4) (nxt_append hr) ?_
      exact Go.bind (stmt_go s h5 hr) Go.pure
  | .mk (some i) ty s, k, k', e, x, hd => by
    rw [DHandler] at hd
    obtain ⟨t, n, c, x, d, y, z, k1, k2, rfl, h1, rfl, h3, hc, h2, hset, h4, h5, h6⟩ := hd
    refine ⟨t :: n :: c :: (x ++ d :: y), z, by simp, h6, (stmt_last s h5).cons.append.cons.cons.cons, fun rest hr => ?_⟩
    refine Go.succ ?_
    simp only [parseHandler, List.append_assoc, List.cons_append]
    refine Go.eat (upper_iff.2 h1) (.cons trivial) ?_
    refine Go.bind (handler_some_go C (h3 trivial) hc (nxt_append (rest := d :: (y ++ rest)) (p := fun _ => True) (.cons trivial))) ?_
    refine Go.bind (C.type k ty x k1 h2 _ (.cons h4)) ?_
    refine Go.bind (p := fun _ => setHandler S _ ty) (a := ()) (k1 := k2) (ts1 := d :: (y ++ rest)) ?_ ?_
    · intro s0 hs0
      obtain ⟨c', g1, g2⟩ := C.set k1 s0.cx hs0.cx _ ty k2 (hset trivial)
      refine ⟨{ s0 with cx := c' }, ⟨hs0.tail, g2, hs0.ts⟩, 0, fun _ _ => ?_⟩
      show setHandler S (Ident.ofTok n) ty s0 = _
      unfold setHandler
      have : S.setHandler s0.cx (Ident.ofTok n) ty = .ok c' := g1
      rw [this]
    · refine Go.eat (upper_iff.2 h4) (nxt_append hr) ?_
      exact Go.bind (stmt_go s h5 hr) Go.pure
end

end

end TP
