import Verif.Lemmas.StmtComplete
import Verif.Lemmas.StmtSound
import Verif.Props.C38

/-!
# C39  Statement parsing is complete for its grammar and yields the intended tree

The grammar is `DStmt` (`Verif/Spec/Stmt.lean`): one clause for each rule.  That an `ELSE` belongs to the nearest open
`IF` is part of it: the statement between `THEN` and `ELSE` does not end with an `IF` without `ELSE`.
-/

namespace TP.Props
open TP Spec

section
variable {κ δ τ : Type} (u : Uni) (S : SEnv κ δ τ)

/-- What is assumed of the rest of the parser.  `R k c`: the context `c` answers like `k`.  `DTy k ty ts k'`: the tokens
`ts` are the type `ty`. -/
structure StmtWorld (DTy : κ → τ → List Token → κ → Prop) (R : κ → κ → Prop) (tl : Tail) : Prop where
  /-- a clone answers like the original -/
  roll : ∀ k c, R k c → R k (S.rollback c)
  get : ∀ k c, R k c → ∀ name, S.get c name = S.get k name
  member : ∀ k c, R k c → ∀ d name, S.member c d name = S.member k d name
  /-- declaring the name of a handler does the same in both -/
  set : ∀ k c, R k c → ∀ i ty,
    (∀ k', S.setHandler k i ty = .ok k' → ∃ c', S.setHandler c i ty = .ok c' ∧ R k' c') ∧
    (∀ c', S.setHandler c i ty = .ok c' → ∃ k', S.setHandler k i ty = .ok k' ∧ R k' c')
  /-- no label is called like a reserved word that ends a list of statements -/
  word : ∀ k c, R k c → ∀ w ∈ [r!"END", r!"UNTIL", r!"EXCEPT", r!"FINALLY", r!"FINALIZATION"], ¬ IsLabelName S k w
  /-- the type parser accepts types in front of `DO` -/
  typeComplete : ∀ k c ty x k' rest t, R k c → DTy k ty x k' → PS.tok? ⟨rest, tl, k⟩ = some t → IsUp u r!"DO" t →
    ∃ c', R k' c' ∧ ∃ N, ∀ n, N ≤ n → S.parseType n ⟨x ++ rest, tl, c⟩ = .ok ty ⟨rest, tl, c'⟩
  /-- the type parser accepts only types -/
  typeSound : ∀ n k s ty s', R k s.cx → S.parseType n s = .ok ty s' →
    s'.tail = s.tail ∧ ∃ used k', s.ts = used ++ s'.ts ∧ R k' s'.cx ∧ DTy k ty used k'

variable {S} {DTy : κ → τ → List Token → κ → Prop} {R : κ → κ → Prop} {tl : Tail} {u}

theorem StmtWorld.cbase (W : StmtWorld u S DTy R tl) : CBase u S DTy R tl where
  roll := W.roll
  get := W.get
  member := W.member
  set k c h i ty k' := (W.set k c h i ty).1 k'
  word := W.word
  type := by
    rintro k ty x k' h rest ⟨t, h1, h2⟩ ⟨ts, tl', c⟩ ⟨rfl, hc, rfl⟩
    have : PS.tok? ⟨rest, tl', k⟩ = some t := by rw [← h1]; rfl
    obtain ⟨c', g1, N, g2⟩ := W.typeComplete k c ty x k' rest t hc h this h2
    exact ⟨⟨rest, tl', c'⟩, ⟨rfl, g1, rfl⟩, N, g2⟩

theorem StmtWorld.sbase (W : StmtWorld u S DTy R tl) : SBase u S DTy R (fun _ => True) tl True True True where
  roll := W.roll
  get _ := W.get
  member _ := W.member
  nil _ := trivial
  hang _ := trivial
  ns _ _ _ _ _ _ _ _ _ _ _ _ _ := trivial
  set k c h i ty := by
    have := (W.set k c h i ty).2
    split
    · rename_i c' e
      obtain ⟨k', h1, h2⟩ := this c' e
      exact ⟨k', h2, fun _ => h1⟩
    · trivial
    · trivial
  good _ _ _ := trivial
  asm _ _ _ _ _ := trivial
  type n s k hs hc _ _ := by
    unfold wp
    split
    · rename_i ty s' e
      obtain ⟨h1, used, k', h2, h3, h4⟩ := W.typeSound n k s ty s' hc e
      exact ⟨used, k', ⟨h2, h1⟩, h3, h4⟩
    all_goals trivial

/-- Every statement of the grammar is found again from its tokens, whatever follows, provided the next token cannot
continue the statement.  Nothing of what follows is consumed.  What is missing: the type parser is a parameter, and the
contexts are those of `StmtWorld`. -/
theorem C39_complete_partial (W : StmtWorld u S DTy R tl) (k c k' : κ) (hc : R k c) (st : Stmt δ τ) (ts rest : List Token)
    (h : DStmt u S True DTy k st ts k') (t : Token) (ht : PS.tok? ⟨rest, tl, k⟩ = some t) (hs : StopsStmt u st t) :
    ∃ c', R k' c' ∧ ∃ N, ∀ n, N ≤ n → parseStmt u S n ⟨ts ++ rest, tl, c⟩ = .ok st ⟨rest, tl, c'⟩ := by
  obtain ⟨⟨a, b, c'⟩, ⟨rfl, h2, rfl⟩, N, h3⟩ := stmt_go W.cbase st h (rest := rest) ⟨t, by rw [← ht]; rfl, hs⟩
    ⟨ts ++ rest, tl, c⟩ ⟨rfl, hc, rfl⟩
  exact ⟨c', h2, N, h3⟩

/-- The converse: what the parser returns is derived from what it consumed, in the context in which it stood. -/
theorem C39_sound_partial (W : StmtWorld u S DTy R tl) (k c : κ) (hc : R k c) (st : Stmt δ τ) (ts : List Token) (n : Nat)
    (s' : PS κ) (h : parseStmt u S n ⟨ts, tl, c⟩ = .ok st s') :
    ∃ used k', ts = used ++ s'.ts ∧ s'.tail = tl ∧ R k' s'.cx ∧ DStmt u S True DTy k st used k' ∧
      ∀ t, s'.tok? = some t → (openIf st = true → ¬ IsKw u r!"ELSE" t) ∧ (bareRaise st = true → IsSym r!";" t) := by
  have := (stmt_sound W.sbase n).stmt ⟨ts, tl, c⟩ k ⟨rfl, hc, trivial⟩ (fun _ => trivial)
  unfold wp at this
  rw [h] at this
  obtain ⟨used, k', h1, h2, h3, h4⟩ := this
  exact ⟨used, k', h1.ts, h1.tail, h2.cx, h3, fun t ht => ⟨fun o => h4.els o t ht, fun o => h4.semi o t ht⟩⟩

/-- Acceptance, exactly: what is followed by a token that cannot continue the statement is accepted with a tree if and
only if it is derived from the grammar. -/
theorem C39_iff_partial (W : StmtWorld u S DTy R tl) (k c : κ) (hc : R k c) (st : Stmt δ τ) (ts rest : List Token)
    (t : Token) (ht : PS.tok? ⟨rest, tl, k⟩ = some t) (hs : StopsStmt u st t) :
    (∃ n c', parseStmt u S n ⟨ts ++ rest, tl, c⟩ = .ok st ⟨rest, tl, c'⟩) ↔ ∃ k', DStmt u S True DTy k st ts k' := by
  constructor
  · rintro ⟨n, c', h⟩
    obtain ⟨used, k', h1, -, -, h2, -⟩ := C39_sound_partial W k c hc st _ n _ h
    have := List.append_cancel_right h1
    subst this
    exact ⟨k', h2⟩
  · rintro ⟨k', h⟩
    obtain ⟨c', -, N, h'⟩ := C39_complete_partial W k c k' hc st ts rest h t ht hs
    exact ⟨N, c', h' N (Nat.le_refl _)⟩

/-- The grammar is unambiguous: where a statement ends and what it is are determined by the tokens. -/
theorem C39_unambiguous_partial (W : StmtWorld u S DTy R tl) (k c : κ) (hc : R k c) (st1 st2 : Stmt δ τ)
    (ts1 ts2 rest1 rest2 : List Token) (k1 k2 : κ) (h1 : DStmt u S True DTy k st1 ts1 k1)
    (h2 : DStmt u S True DTy k st2 ts2 k2) (he : ts1 ++ rest1 = ts2 ++ rest2) (t1 t2 : Token)
    (ht1 : PS.tok? ⟨rest1, tl, k⟩ = some t1) (ht2 : PS.tok? ⟨rest2, tl, k⟩ = some t2) (hs1 : StopsStmt u st1 t1)
    (hs2 : StopsStmt u st2 t2) : st1 = st2 ∧ ts1 = ts2 := by
  obtain ⟨c1, -, N1, g1⟩ := C39_complete_partial W k c k1 hc st1 ts1 rest1 h1 t1 ht1 hs1
  obtain ⟨c2, -, N2, g2⟩ := C39_complete_partial W k c k2 hc st2 ts2 rest2 h2 t2 ht2 hs2
  have := (g1 (max N1 N2) (by omega)).symm.trans (he ▸ g2 (max N1 N2) (by omega))
  injection this with e1 e2
  injection e2 with e2
  subst e2
  exact ⟨e1, List.append_cancel_right he⟩

/-- `IF c1 THEN IF c2 THEN s1 ELSE s2`: the `ELSE` belongs to the second `IF`. -/
theorem C39_else_partial (W : StmtWorld u S DTy R tl) (k c k1 k2 : κ) (hc : R k c) (c1 c2 : Expr δ) (s1 s2 : Stmt δ τ)
    (i1 i2 h1 h2 e : Token) (x1 x2 y1 y2 rest : List Token) (hi1 : IsKw u r!"IF" i1) (hi2 : IsKw u r!"IF" i2)
    (hh1 : IsKw u r!"THEN" h1) (hh2 : IsKw u r!"THEN" h2) (he : IsKw u r!"ELSE" e) (hl : ¬ IsLabelName S k r!"IF")
    (hx1 : DExpr u S True k c1 x1) (hx2 : DExpr u S True k c2 x2) (hy1 : DStmt u S True DTy k s1 y1 k1)
    (hy2 : DStmt u S True DTy k1 s2 y2 k2) (ho : openIf s1 = false) (hb : bareRaise s1 = false) (t : Token)
    (ht : PS.tok? ⟨rest, tl, k⟩ = some t) (hs : StopsStmt u s2 t) (hne : ¬ IsKw u r!"ELSE" t) :
    ∃ c', R k2 c' ∧ ∃ N, ∀ n, N ≤ n →
      parseStmt u S n ⟨i1 :: (x1 ++ h1 :: i2 :: (x2 ++ h2 :: (y1 ++ e :: y2))) ++ rest, tl, c⟩ =
      .ok (.mk none (.ifThen c1 (.mk none (.ifElse c2 s1 s2)))) ⟨rest, tl, c'⟩ := by
  have hv : ∀ {t : Token}, IsKw u r!"IF" t → ¬ IsLabelName S k (t.value u) := by
    intro t h; rw [(value_reserved h.1).trans h.2]; exact hl
  refine C39_complete_partial W k c k2 hc (.mk none (.ifThen c1 (.mk none (.ifElse c2 s1 s2)))) _ rest ?_ t ht
    ⟨hs.1, fun _ => hne, hs.2.2⟩
  rw [DStmt, DBody]
  refine ⟨⟨i1, x1, h1, _, rfl, hi1, hx1, hh1, ?_⟩, fun _ t ht => by cases ht; exact hv hi1⟩
  rw [DStmt, DBody]
  exact ⟨⟨i2, x2, h2, y1, e, y2, k1, rfl, hi2, hx2, hh2, hy1, ho, hb, he, hy2⟩, fun _ t ht => by cases ht; exact hv hi2⟩

/-- The other reading of the same tokens is never returned, from whatever tokens: in no tree does an `IF` without `ELSE`
stand directly in front of the `ELSE` of an outer one. -/
theorem C39_no_outer_else_partial (W : StmtWorld u S DTy R tl) (k c : κ) (hc : R k c) (ts : List Token) (n : Nat) (s' : PS κ)
    (l : Option Ident) (c1 : Expr δ) (s1 s2 : Stmt δ τ) (h : parseStmt u S n ⟨ts, tl, c⟩ = .ok (.mk l (.ifElse c1 s1 s2)) s') :
    openIf s1 = false := by
  obtain ⟨used, k', -, -, -, d, -⟩ := C39_sound_partial W k c hc _ ts n s' h
  cases l with
  | none =>
    rw [DStmt, DBody] at d
    obtain ⟨⟨_, _, _, _, _, _, _, -, -, -, -, -, h, -⟩, -⟩ := d
    exact h
  | some i =>
    rw [DStmt] at d
    obtain ⟨_, _, _, -, -, -, -, d⟩ := d
    rw [DBody] at d
    obtain ⟨_, _, _, _, _, _, _, -, -, -, -, -, h, -⟩ := d
    exact h

end

/-! ## Examples -/

/-- the types of `exS` -/
def exTy (k : PCtx NodeKind) (ty : Token) (ts : List Token) (k' : PCtx NodeKind) : Prop := k' = k ∧ ts = [ty] ∧ ty.typ = .ident

/-- the contexts that answer like `exWorld` -/
def exR (k c : PCtx NodeKind) : Prop := k = exWorld ∧ Rolls (worldEnv asciiUni) exWorld c

/-- The hypotheses can be met. -/
theorem exS_world (tl : Tail) : StmtWorld asciiUni exS exTy exR tl where
  roll k c h := ⟨h.1, Rolls.trans h.2 (.step (.refl _))⟩
  get k c h := by rw [h.1]; exact (lawful_world asciiUni exWorld exWorld_plain).get c h.2
  member k c h := by rw [h.1]; exact (lawful_world asciiUni exWorld exWorld_plain).member c h.2
  set k c h i ty := ⟨fun k' e => ⟨c, rfl, by cases e; exact h⟩, fun c' e => ⟨k, rfl, by cases e; exact h⟩⟩
  word k c h w _ := fun ⟨_, _, h⟩ => nomatch h
  typeComplete k c ty x k' rest t hc h h1 _ := by
    obtain ⟨rfl, rfl, h2⟩ := h
    refine ⟨c, hc, 0, fun n _ => ?_⟩
    have e : Pred.typ TType.ident ty = true := by simpa [Pred.typ] using h2
    have e1 : P.current (Pred.typ TType.ident) (⟨ty :: rest, tl, c⟩ : PS (PCtx NodeKind)) = .ok ty ⟨ty :: rest, tl, c⟩ :=
      current_run rfl e
    have e2 : P.next (⟨ty :: rest, tl, c⟩ : PS (PCtx NodeKind)) = .ok () ⟨rest, tl, c⟩ :=
      next_run rfl ⟨t, by rw [← h1]; rfl, trivial⟩
    show P.bind _ _ _ = _
    unfold P.bind
    rw [List.singleton_append, e1]
    show P.bind _ _ _ = _
    unfold P.bind
    rw [e2]
    rfl
  typeSound n k s ty s' hc h := by
    have : wp (exS.parseType n) s (fun ty s' => s'.tail = s.tail ∧ ∃ used k', s.ts = used ++ s'.ts ∧ exR k' s'.cx ∧
        exTy k ty used k') True True := by
      refine wp_current_bind (fun _ => trivial) fun t ht hp => ?_
      have hp' : t.typ = .ident := by simpa [Pred.typ] using hp
      obtain ⟨ts, hts⟩ := tok_cons ht (by rw [hp']; decide)
      refine wp_next_cons hts (fun _ => trivial) fun s' h1 h2 h3 => ?_
      exact ⟨h2, [t], k, by rw [hts, h1]; rfl, by show exR k s'.cx; rw [h3]; exact hc, rfl, rfl, hp'⟩
    unfold wp at this
    rw [h] at this
    exact this

def exStmtTree (l : List (TType × Str)) : Option (Stmt (Decl NodeKind) Token) :=
  treeOf' (parseStmt asciiUni exS 200 ⟨exToks l, .eof [] ⟨1, 1, 0⟩, exWorld⟩)
where
  treeOf' {σ α : Type} : TP.R σ α → Option α
    | .ok a _ => some a
    | _ => none

/-- the variable `v` as an expression, and the call of the routine `v` -/
def exE (v : Str) : Expr (Decl NodeKind) :=
  .mk (.mk none (.mk (.desig (.mk ⟨none, ⟨Ident.ofTok (exTok .ident v), none⟩⟩ .nil)) .nil) .nil) .nil
def exC (v : Str) : Stmt (Decl NodeKind) Token :=
  .mk none (.call (.mk ⟨none, ⟨Ident.ofTok (exTok .ident v), none⟩⟩ .nil))

/-- `if a then if b then c else d` -/
example : exStmtTree [(.reserved, r!"if"), (.ident, r!"a"), (.reserved, r!"then"), (.reserved, r!"if"), (.ident, r!"b"),
      (.reserved, r!"then"), (.ident, r!"c"), (.reserved, r!"else"), (.ident, r!"d")] =
    some (.mk none (.ifThen (exE r!"a") (.mk none (.ifElse (exE r!"b") (exC r!"c") (exC r!"d"))))) := by
  rfl

/-- `if a then begin if b then c end else d` -/
example : exStmtTree [(.reserved, r!"if"), (.ident, r!"a"), (.reserved, r!"then"), (.reserved, r!"begin"), (.reserved, r!"if"),
      (.ident, r!"b"), (.reserved, r!"then"), (.ident, r!"c"), (.reserved, r!"end"), (.reserved, r!"else"), (.ident, r!"d")] =
    some (.mk none (.ifElse (exE r!"a") (.mk none (.compound (.one (.mk none (.ifThen (exE r!"b") (exC r!"c"))))))
      (exC r!"d"))) := by
  rfl

end TP.Props
