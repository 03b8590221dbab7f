import Verif.Lemmas.StmtBase

/-!
# Soundness of the statement parser
-/

namespace TP
open Spec

variable {κ δ τ : Type} {u : Uni} {S : SEnv κ δ τ} {DTy : κ → τ → List Token → κ → Prop} {R : κ → κ → Prop}
  {Good : List Token → Prop} {tl : Tail} {Pp Pw L : Prop}

theorem wp_then {α β : Type} {s : PS κ} {p : P κ β} {f : β → P κ α} {Q1 : β → PS κ → Prop} {Q : α → PS κ → Prop}
    (hp : wp p s Q1 Pp Pw) (h : ∀ a s', Q1 a s' → wp (f a) s' Q Pp Pw) : wp (p >>= f) s Q Pp Pw :=
  wp_bind.2 (wp_mono hp h id id)

theorem wp_ite {α : Type} {c : Prop} [Decidable c] {s : PS κ} {p q : P κ α} {Q : α → PS κ → Prop}
    (h1 : c → wp p s Q Pp Pw) (h2 : ¬ c → wp q s Q Pp Pw) : wp (if c then p else q) s Q Pp Pw := by
  by_cases h : c
  · rw [if_pos h]; exact h1 h
  · rw [if_neg h]; exact h2 h

theorem wp_ite_bind {α β : Type} {c : Prop} [Decidable c] {s : PS κ} {p q : P κ β} {f : β → P κ α}
    {Q : α → PS κ → Prop} (h1 : c → wp (p >>= f) s Q Pp Pw) (h2 : ¬ c → wp (q >>= f) s Q Pp Pw) :
    wp ((if c then p else q) >>= f) s Q Pp Pw := by
  by_cases h : c
  · rw [if_pos h]; exact h1 h
  · rw [if_neg h]; exact h2 h

theorem wp_getDecl {α : Type} {s : PS κ} {name : Str} {f : Option δ → P κ α} {Q : α → PS κ → Prop}
    (h : wp (f (S.get s.cx name)) s Q Pp Pw) : wp (getDecl S.toEnv name >>= f) s Q Pp Pw := h

theorem up_iff_kw {s : Str} {t : Token} : IsKw u s t ↔ t.typ = .reserved ∧ t.value u = s := by
  constructor
  · rintro ⟨h, h'⟩; exact ⟨h, (value_reserved h).trans h'⟩
  · rintro ⟨h, h'⟩; exact ⟨h, (value_reserved h).symm.trans h'⟩

/-- what follows a statement when the parser leaves it -/
structure Follows (u : Uni) (op br : Bool) (s : PS κ) : Prop where
  els : op = true → ∀ t, s.tok? = some t → ¬ IsKw u r!"ELSE" t
  semi : br = true → ∀ t, s.tok? = some t → IsSym r!";" t

theorem Follows.no (s : PS κ) : Follows u false false s := ⟨fun h => by (cases h), fun h => by (cases h)⟩

/-- the statement of a handler -/
def Handler.stmt : Handler δ τ → Stmt δ τ
  | .mk _ _ s => s

/-- the semicolon after a handler -/
def HSemi (e : Bool) (s : Stmt δ τ) (z : List Token) : Prop :=
  (z = [] ∧ bareRaise s = false ∧ (e && openIf s) = false) ∨ ∃ t, z = [t] ∧ IsSym r!";" t

section
variable (u S R Good tl Pp Pw)

/-- the usual shape of a result: the tokens `used` are consumed, and the result is derived from them -/
def Der {α : Type} (s : PS κ) (D : α → List Token → κ → Prop) (F : α → PS κ → Prop) (a : α) (s' : PS κ) : Prop :=
  ∃ used k', Eat s used s' ∧ At R Good tl k' s' ∧ D a used k' ∧ F a s'

/-- `p` consumes the tokens of its result -/
def SSound {α : Type} (p : P κ α) (D : κ → α → List Token → κ → Prop) (F : α → PS κ → Prop) (n r : Nat) : Prop :=
  ∀ s k, At R Good tl k s → (n < 10 * s.ts.length + r → Pw) → wp p s (Der R Good tl s (D k) F) Pp Pw
end

theorem SSound.bind {α β : Type} {p : P κ α} {D : κ → α → List Token → κ → Prop} {F : α → PS κ → Prop} {n r : Nat}
    (hp : SSound R Good tl Pp Pw p D F n r) {s : PS κ} {k : κ} (hs : At R Good tl k s)
    (hf : n < 10 * s.ts.length + r → Pw) {f : α → P κ β} {Q : β → PS κ → Prop}
    (h : ∀ a s' used k', Eat s used s' → At R Good tl k' s' → D k a used k' → F a s' → wp (f a) s' Q Pp Pw) :
    wp (p >>= f) s Q Pp Pw :=
  wp_then (hp s k hs hf) fun a s' ⟨used, k', h1, h2, h3, h4⟩ => h a s' used k' h1 h2 h3 h4

section
variable (B : SBase u S DTy R Good tl Pp Pw L)
include B

theorem qualIds_sound : ∀ n, SSound R Good tl Pp Pw (parseQualIds u S n)
    (fun k a used k' => k' = k ∧ DQualIds u S L k a used) (fun _ _ => True) n 2 := by
  intro n
  induction n with
  | zero => intro s k hs hf; exact hf (by omega)
  | succ n ih =>
    intro s k hs hf
    rw [parseQualIds]
    refine B.qual hs fun q s1 u1 a1 h1 _ d1 => ?_
    have := a1.len
    refine wp_cur?_bind (B.hang' h1) (fun _ _ => trivial) fun t ht => ?_
    by_cases c : sym r!"," t = true
    · simp only [Pred.not, c, Bool.not_true, Bool.false_eq_true, if_false, if_true]
      have c' := symbol_iff.1 c
      obtain ⟨ts, hts⟩ := tok_cons ht (sym_ne_eof c')
      refine B.next h1 hts fun s2 a2 h2 _ _ => ?_
      have := a2.len
      simp only [List.length_cons, List.length_nil] at this
      refine ih.bind h2 (fun h => hf (by omega)) fun rest s3 u3 k3 a3 h3 d3 _ => ?_
      obtain ⟨rfl, d3⟩ := d3
      exact ⟨_, _, a1.trans (a2.cons a3), h3, ⟨rfl, u1, t, u3, rfl, d1, c', d3⟩, trivial⟩
    · simp only [Pred.not, c, Bool.not_false, if_true]
      exact ⟨u1, k, a1, h1, ⟨rfl, d1⟩, trivial⟩

theorem caseLabel_sound (n : Nat) : SSound R Good tl Pp Pw (parseCaseLabel u S n)
    (fun k a used k' => k' = k ∧ DCaseLabel u S L k a used) (fun _ _ => True) n 7 := by
  intro s k hs hf
  unfold parseCaseLabel
  refine B.expr hs (fun h => hf (by omega)) fun e s1 u1 a1 h1 d1 => ?_
  have := a1.len
  refine B.is h1 (fun t ht c => ?_) (fun t ht c => ?_)
  · simp only [if_true]
    have c' := symbol_iff.1 c
    obtain ⟨ts, hts⟩ := tok_cons ht (sym_ne_eof c')
    refine B.next h1 hts fun s2 a2 h2 _ _ => ?_
    have := a2.len
    simp only [List.length_cons, List.length_nil] at this
    refine B.expr h2 (fun h => hf (by omega)) fun e2 s3 u3 a3 h3 d3 => ?_
    exact ⟨_, _, a1.trans (a2.cons a3), h3, ⟨rfl, u1, t, u3, rfl, d1, c', d3⟩, trivial⟩
  · simp only [Bool.false_eq_true, if_false]
    exact ⟨u1, k, a1, h1, ⟨rfl, d1⟩, trivial⟩

theorem caseLabels_sound : ∀ n, SSound R Good tl Pp Pw (parseCaseLabels u S n)
    (fun k a used k' => k' = k ∧ DCaseLabels u S L k a used) (fun _ _ => True) n 8 := by
  intro n
  induction n with
  | zero => intro s k hs hf; exact hf (by omega)
  | succ n ih =>
    intro s k hs hf
    rw [parseCaseLabels]
    refine (caseLabel_sound B n).bind hs (fun h => hf (by omega)) fun l s1 u1 k1 a1 h1 d1 _ => ?_
    obtain ⟨rfl, d1⟩ := d1
    have := a1.len
    refine B.is h1 (fun t ht c => ?_) (fun t ht c => ?_)
    · simp only [if_true]
      have c' := symbol_iff.1 c
      obtain ⟨ts, hts⟩ := tok_cons ht (sym_ne_eof c')
      refine B.next h1 hts fun s2 a2 h2 _ _ => ?_
      have := a2.len
      simp only [List.length_cons, List.length_nil] at this
      refine ih.bind h2 (fun h => hf (by omega)) fun rest s3 u3 k3 a3 h3 d3 _ => ?_
      obtain ⟨rfl, d3⟩ := d3
      exact ⟨_, _, a1.trans (a2.cons a3), h3, ⟨rfl, u1, t, u3, rfl, d1, c', d3⟩, trivial⟩
    · simp only [Bool.false_eq_true, if_false]
      exact ⟨u1, _, a1, h1, ⟨rfl, d1⟩, trivial⟩

theorem raise_sound (n : Nat) : SSound R Good tl Pp Pw (parseRaise u S n : P κ (Body δ τ))
    (DBody u S L DTy) (fun a => Follows u (openIfB a) (bareRaiseB a)) n 7 := by
  intro s k hs hf
  unfold parseRaise
  refine B.eatKw hs fun t s1 ht a1 h1 => ?_
  have := a1.len
  simp only [List.length_cons, List.length_nil] at this
  refine B.is h1 (fun t2 ht2 c => ?_) (fun t2 ht2 c => ?_)
  · simp only [if_true]
    refine ⟨[t], k, a1, h1, ?_, fun h => by (cases h), fun _ t' ht' => ?_⟩
    · rw [DBody]
      exact ⟨rfl, t, [], [], rfl, ht, rfl, rfl⟩
    · rw [ht2] at ht'; cases ht'; exact symbol_iff.1 c
  · simp only [Bool.false_eq_true, if_false]
    refine wp_then (Q1 := fun obj s2 => ∃ x, Eat s1 x s2 ∧ At R Good tl k s2 ∧
      match obj with
      | none => x = [] ∧ s2 = s1 ∧ IsUp u r!"AT" t2
      | some e => DExpr u S L k e x ∧ ∀ t, x.head? = some t → ¬ IsUp u r!"AT" t) ?_ ?_
    · refine B.is h1 (fun t3 ht3 c3 => ?_) (fun t3 ht3 c3 => ?_)
      · simp only [if_true]
        rw [ht2] at ht3; cases ht3
        exact ⟨[], Eat.refl _, h1, rfl, rfl, upper_iff.1 c3⟩
      · simp only [Bool.false_eq_true, if_false]
        refine B.expr h1 (fun h => hf (by omega)) fun e s2 u2 a2 h2 d2 => ?_
        refine ⟨u2, a2, h2, d2, fun t' ht' => ?_⟩
        cases u2 with
        | nil => cases ht'
        | cons y ys =>
          cases ht'
          have e : s1.ts = t' :: (ys ++ s2.ts) := a2.ts
          have : s1.tok? = some t' := by
            obtain ⟨q1, q2, q3⟩ := s1
            cases e; rfl
          rw [ht3] at this; cases this
          exact fun h => c3 (upper_iff.2 h)
    · rintro obj s2 ⟨x, a2, h2, hobj⟩
      have := a2.len
      refine B.is h2 (fun t4 ht4 c4 => ?_) (fun t4 ht4 c4 => ?_)
      · simp only [if_true]
        have c4' := upper_iff.1 c4
        obtain ⟨ts, hts⟩ := tok_cons_raw ht4 (up_raw c4' (by decide))
        refine B.next h2 hts fun s3 a3 h3 _ _ => ?_
        have := a3.len
        simp only [List.length_cons, List.length_nil] at this
        refine B.expr h3 (fun h => hf (by omega)) fun e s4 u4 a4 h4 d4 => ?_
        refine ⟨_, k, a1.cons (a2.trans (a3.cons a4)), h4, ?_, ?_⟩
        · rw [DBody]
          refine ⟨rfl, t, x, t4 :: u4, rfl, ht, ?_, t4, u4, rfl, c4', d4⟩
          cases obj with
          | none => exact hobj.1
          | some e => exact hobj
        · cases obj <;> exact Follows.no _
      · simp only [Bool.false_eq_true, if_false]
        cases obj with
        | none =>
          obtain ⟨rfl, rfl, h⟩ := hobj
          rw [ht2] at ht4; cases ht4
          exact absurd (upper_iff.2 h) c4
        | some e =>
          refine ⟨t :: x, k, a1.cons a2, h2, ?_, Follows.no _⟩
          rw [DBody]
          exact ⟨rfl, t, x, [], by rw [List.append_nil], ht, hobj, rfl⟩

theorem asmLoop_sound : ∀ n s k, At R Good tl k s → ((∀ x ∈ s.ts.tail, ¬ IsKw u r!"END" x) → Pw) →
    (n ≤ s.ts.length → Pw) →
    wp (asmLoop u n) s (fun _ s' => ∃ f body c, Eat s (f :: (body ++ [c])) s' ∧ At R Good tl k s' ∧
      (∀ x ∈ body, ¬ IsKw u r!"END" x) ∧ IsKw u r!"END" c) Pp Pw := by
  intro n
  induction n with
  | zero => intro s k hs he hf; exact hf (Nat.zero_le _)
  | succ n ih =>
    intro s k hs he hf
    rw [asmLoop]
    cases hts : s.ts with
    | nil =>
      have w : Pw := he (by rw [hts]; intro x hx; cases hx)
      refine wp_bind.2 (wp_next ?_ fun _ => w)
      have e : ({ s with ts := s.ts.tail } : PS κ) = s := by
        obtain ⟨q1, q2, q3⟩ := s
        cases hts; rfl
      rw [e]
      refine B.is hs (fun t ht c => ?_) (fun t ht c => ?_)
      · obtain ⟨ts, hts'⟩ := tok_cons ht (kw_ne_eof (kw_iff.1 c))
        rw [hts] at hts'; cases hts'
      · simp only [Bool.false_eq_true, if_false]
        exact ih s k hs he (fun _ => w)
    | cons f rest =>
      refine B.next hs hts fun s1 a1 h1 hs1 _ => ?_
      refine B.is h1 (fun t ht c => ?_) (fun t ht c => ?_)
      · simp only [if_true]
        have c' := kw_iff.1 c
        obtain ⟨ts, hts1⟩ := tok_cons ht (kw_ne_eof c')
        have := B.next h1 hts1 (f := fun _ => (pure () : P κ Unit)) (Q := fun _ s' => ∃ f body c, Eat s (f :: (body ++ [c])) s' ∧
          At R Good tl k s' ∧ (∀ x ∈ body, ¬ IsKw u r!"END" x) ∧ IsKw u r!"END" c)
          (fun s2 a2 h2 _ _ => ⟨f, [], t, a1.cons a2, h2, fun x hx => by (cases hx), c'⟩)
        rw [wp_bind] at this
        exact wp_mono this (fun _ _ h => h) id id
      · simp only [Bool.false_eq_true, if_false]
        have c' := fun h => c (kw_iff.2 h)
        have e1 : s.ts.tail = s1.ts := by rw [hts, hs1]; rfl
        have hd : ∀ x xs, s1.ts = x :: xs → ¬ IsKw u r!"END" x := by
          intro x xs hx
          have : s1.tok? = some x := by
            obtain ⟨q1, q2, q3⟩ := s1
            cases hx; rfl
          rw [ht] at this; cases this; exact c'
        refine wp_mono (ih s1 k h1 (fun h => he ?_) (fun h => hf ?_)) ?_ id id
        · rw [e1]
          intro x hx
          cases hh : s1.ts with
          | nil => rw [hh] at hx; cases hx
          | cons y ys =>
            rw [hh] at hx h
            cases hx with
            | head => exact hd _ _ hh
            | tail _ hx => exact h x hx
        · rw [hts, List.length_cons, ← hs1]; omega
        · rintro _ s2 ⟨f', body, c2, a2, h2, hb, hc⟩
          refine ⟨f, f' :: body, c2, a1.cons a2, h2, ?_, hc⟩
          intro x hx
          cases hx with
          | head => exact hd _ _ a2.ts
          | tail _ hx => exact hb x hx

theorem asm_sound (n : Nat) : SSound R Good tl Pp Pw (parseAsm u n : P κ (Body δ τ))
    (DBody u S L DTy) (fun a => Follows u (openIfB a) (bareRaiseB a)) n 7 := by
  intro s k hs hf
  unfold parseAsm
  refine B.eatKw hs fun t s1 ht a1 h1 => ?_
  have hg : Good (t :: s1.ts) := by
    have := hs.good
    rw [a1.ts] at this; exact this
  have := a1.len
  simp only [List.length_cons, List.length_nil] at this
  refine wp_then (asmLoop_sound B n s1 k h1 (fun h => B.asm t s1.ts hg ht h) (fun h => hf (by omega))) ?_
  rintro _ s2 ⟨f, body, c, a2, h2, hb, hc⟩
  refine ⟨_, k, a1.cons a2, h2, ?_, Follows.no _⟩
  rw [DBody]
  exact ⟨rfl, t, f, body, c, rfl, ht, hb, hc⟩

theorem inherited_sound (n : Nat) : SSound R Good tl Pp Pw (parseInherited u : P κ (Body δ τ))
    (DBody u S L DTy) (fun a => Follows u (openIfB a) (bareRaiseB a)) n 7 := by
  intro s k hs hf
  unfold parseInherited
  refine B.eatKw hs fun t s1 ht a1 h1 => ?_
  refine ⟨_, k, a1, h1, ?_, Follows.no _⟩
  rw [DBody]
  exact ⟨rfl, t, rfl, ht⟩

/-- `Next(pred)` on a known current token -/
theorem SBase.nextIs {α : Type} {Q : α → PS κ → Prop} {s : PS κ} {k : κ} (hs : At R Good tl k s) {t : Token}
    {ts : List Token} (h : s.ts = t :: ts)
    {pred : Pred} {f : Token → P κ α}
    (hf : ∀ t' s', Eat s [t] s' → At R Good tl k s' → s'.cx = s.cx → s'.tok? = some t' → pred t' = true →
      wp (f t') s' Q Pp Pw) : wp (P.nextIs pred >>= f) s Q Pp Pw := by
  unfold P.nextIs
  rw [P.bind_assoc]
  refine B.next hs h fun s1 a1 h1 _ h2 => ?_
  refine wp_current_bind (B.hang' h1) fun t' ht' hp => ?_
  exact hf t' s1 a1 h1 h2 ht' hp

theorem goto_sound (n : Nat) : SSound R Good tl Pp Pw (parseGoto u S : P κ (Body δ τ))
    (DBody u S L DTy) (fun a => Follows u (openIfB a) (bareRaiseB a)) n 7 := by
  intro s k hs hf
  unfold parseGoto
  refine wp_current_bind (B.hang' hs) fun t ht hp => ?_
  have hk := kw_iff.1 hp
  obtain ⟨ts, hts⟩ := tok_cons ht (kw_ne_eof hk)
  refine B.nextIs hs hts fun l s1 a1 h1 e1 hl hid => ?_
  have hid := typ_iff.1 hid
  have hv : l.value u = l.raw := value_of_ne (by rw [hid]; decide)
  obtain ⟨ts1, hts1⟩ := tok_cons hl (by rw [hid]; decide)
  refine wp_getDecl ?_
  refine B.next h1 hts1 fun s2 a2 h2 _ _ => ?_
  refine ⟨_, k, a1.cons a2, h2, ?_, Follows.no _⟩
  rw [DBody]
  exact ⟨rfl, t, l, rfl, hk, hid, rfl, fun w => by rw [hv]; exact B.get w _ _ h1.cx _⟩

theorem desigStmt_sound (n : Nat) : SSound R Good tl Pp Pw (parseDesigStmt u S n : P κ (Body δ τ))
    (DBody u S L DTy) (fun a => Follows u (openIfB a) (bareRaiseB a)) n 7 := by
  intro s k hs hf
  unfold parseDesigStmt
  refine B.desig hs (fun h => hf (by omega)) fun d s1 u1 a1 h1 d1 => ?_
  have := a1.len
  refine wp_cur_bind (B.nil' h1) (B.hang' h1) fun t ht => ?_
  by_cases c : t.value u = r!":="
  · rw [if_pos c]
    obtain ⟨ts, hts⟩ := tok_cons_raw ht (val_raw c (by decide))
    refine B.next h1 hts fun s2 a2 h2 _ _ => ?_
    have := a2.len
    simp only [List.length_cons, List.length_nil] at this
    refine B.expr h2 (fun h => hf (by omega)) fun e s3 u3 a3 h3 d3 => ?_
    refine ⟨_, k, a1.trans (a2.cons a3), h3, ?_, Follows.no _⟩
    rw [DBody]
    exact ⟨rfl, u1, t, u3, rfl, d1, c, d3⟩
  · rw [if_neg c]
    by_cases c2 : sym r!"(" t = true
    · rw [if_pos c2]
      have c2' := symbol_iff.1 c2
      obtain ⟨ts, hts⟩ := tok_cons ht (sym_ne_eof c2')
      refine B.next h1 hts fun s2 a2 h2 _ _ => ?_
      have := a2.len
      simp only [List.length_cons, List.length_nil] at this
      refine B.args h2 (fun h => hf (by omega)) fun es s3 u3 cl a3 h3 hc d3 => ?_
      refine ⟨_, k, a1.trans (a2.cons a3), h3, ?_, Follows.no _⟩
      rw [DBody]
      exact ⟨rfl, u1, t, u3, cl, rfl, d1, c2', d3, hc⟩
    · rw [if_neg c2]
      refine ⟨u1, k, a1, h1, ?_, Follows.no _⟩
      rw [DBody]
      exact ⟨rfl, d1⟩

end

section
variable (u S DTy R Good tl Pp Pw L)

structure StmtSound (n : Nat) : Prop where
  stmt : SSound R Good tl Pp Pw (parseStmt u S n) (DStmt u S L DTy) (fun a => Follows u (openIf a) (bareRaise a)) n 9
  body : SSound R Good tl Pp Pw (parseBody u S n) (DBody u S L DTy) (fun a => Follows u (openIfB a) (bareRaiseB a)) n 8
  stmts : ∀ term : Pred, (∀ t, term t = true → ¬ IsSym r!";" t) → SSound R Good tl Pp Pw (parseStmts u S term n) (DStmts u S L DTy)
    (fun _ s' => ∃ t, s'.tok? = some t ∧ term t = true) n 10
  compound : SSound R Good tl Pp Pw (parseCompound u S n) (DBody u S L DTy) (fun a => Follows u (openIfB a) (bareRaiseB a)) n 7
  ifs : SSound R Good tl Pp Pw (parseIf u S n) (DBody u S L DTy) (fun a => Follows u (openIfB a) (bareRaiseB a)) n 7
  cases : SSound R Good tl Pp Pw (parseCase u S n) (DBody u S L DTy) (fun a => Follows u (openIfB a) (bareRaiseB a)) n 7
  sels : SSound R Good tl Pp Pw (parseSels u S n) (DSels u S L DTy) (fun _ _ => True) n 9
  repeats : SSound R Good tl Pp Pw (parseRepeat u S n) (DBody u S L DTy) (fun a => Follows u (openIfB a) (bareRaiseB a)) n 7
  whiles : SSound R Good tl Pp Pw (parseWhile u S n) (DBody u S L DTy) (fun a => Follows u (openIfB a) (bareRaiseB a)) n 7
  fors : SSound R Good tl Pp Pw (parseFor u S n) (DBody u S L DTy) (fun a => Follows u (openIfB a) (bareRaiseB a)) n 7
  withs : SSound R Good tl Pp Pw (parseWith u S n) (DBody u S L DTy) (fun a => Follows u (openIfB a) (bareRaiseB a)) n 7
  tries : SSound R Good tl Pp Pw (parseTry u S n) (DBody u S L DTy) (fun a => Follows u (openIfB a) (bareRaiseB a)) n 7
  exc : SSound R Good tl Pp Pw (parseExcBlock u S n) (DExc u S L DTy) (fun _ _ => True) n 11
  excElse : SSound R Good tl Pp Pw (parseExcElse u S n) (DElse u S L DTy)
    (fun a s' => ∀ l, a = .some l → ∃ t, s'.tok? = some t ∧ IsKw u r!"END" t) n 1
  handlers : ∀ s k, At R Good tl k s → (n < 10 * s.ts.length + 5 → Pw) →
    wp (parseHandlers u S n) s (fun a s' => ∃ used k', Eat s used s' ∧ At R Good tl k' s' ∧
      (∀ e, (e = true → ∃ t, s'.tok? = some t ∧ IsKw u r!"ELSE" t) → DHandlers u S L DTy k e a used k') ∧
      ∀ t, s'.tok? = some t → IsSym r!";" t → ∃ x t', used = x ++ [t'] ∧ IsSym r!";" t') Pp Pw
  handler : ∀ s k, At R Good tl k s → (n < 10 * s.ts.length + 4 → Pw) →
    wp (parseHandler u S n) s (fun a s' => ∃ used k', Eat s used s' ∧ At R Good tl k' s' ∧
      (∀ e z, HSemi e a.stmt z → DHandler u S L DTy k e a (used ++ z) k') ∧
      Follows u (openIf a.stmt) (bareRaise a.stmt) s' ∧ 1 ≤ used.length) Pp Pw

end

theorem tok_of_ts {s : PS κ} {t : Token} {ts : List Token} (h : s.ts = t :: ts) : s.tok? = some t := by
  obtain ⟨q1, q2, q3⟩ := s
  cases h; rfl

theorem kw_not_semi (c : Str) : ∀ t, kw u c t = true → ¬ IsSym r!";" t := by
  intro t h h'
  have := (kw_iff.1 h).1
  rw [h'.1] at this; cases this

theorem tryEnd_not_semi : ∀ t, tryEnd u t = true → ¬ IsSym r!";" t := by
  intro t h
  unfold tryEnd at h
  rw [some_iff] at h
  simp only [List.mem_cons, List.not_mem_nil, or_false] at h
  rcases h with ⟨p, rfl | rfl, h⟩ <;> exact kw_not_semi _ t h

theorem stmt_sound (B : SBase u S DTy R Good tl Pp Pw L) : ∀ n, StmtSound u S DTy R Good tl Pp Pw L n := by
  intro n
  induction n with
  | zero =>
    constructor <;> first
      | (intro s k hs hf; exact hf (by omega))
      | (intro c _ s k hs hf; exact hf (by omega))
  | succ n ih =>
    constructor
    · -- stmt
      intro s k hs hf
      rw [parseStmt]
      unfold parseLabel
      rw [P.bind_assoc]
      refine wp_cur_bind (B.nil' hs) (B.hang' hs) fun t ht => ?_
      rw [P.bind_assoc]
      refine wp_getDecl ?_
      have hlab : ∀ b : Bool, b = (match S.get s.cx (t.value u) with | some d => S.isLabel d | none => false) →
          (b = true ↔ IsLabelName S s.cx (t.value u)) := by
        rintro _ rfl
        unfold IsLabelName
        cases S.get s.cx (t.value u) with
        | none => simp
        | some d => simp
      refine wp_ite_bind (fun c => ?_) (fun c => ?_)
      · rw [P.bind_assoc]
        have c' := (hlab _ rfl).1 c
        cases hts : s.ts with
        | nil =>
          unfold P.nextIs
          rw [P.bind_assoc]
          refine wp_bind.2 (wp_next ?_ (B.hang' hs))
          refine wp_current_bind (fun e => B.hang' hs e) fun t2 ht2 hp => ?_
          obtain ⟨ts2, hts2⟩ := tok_cons ht2 (sym_ne_eof (symbol_iff.1 hp))
          rw [show s.ts.tail = [] by rw [hts]; rfl] at hts2
          cases hts2
        | cons t0 ts0 =>
          rw [tok_of_ts hts] at ht; cases ht
          refine B.nextIs hs hts fun t2 s1 a1 h1 _ ht2 hp => ?_
          have hp' := symbol_iff.1 hp
          obtain ⟨ts2, hts2⟩ := tok_cons ht2 (sym_ne_eof hp')
          rw [P.bind_assoc]
          refine B.next h1 hts2 fun s2 a2 h2 _ _ => ?_
          have := a1.len
          have := a2.len
          simp only [List.length_cons, List.length_nil] at *
          show wp (parseBody u S n >>= _) s2 _ _ _
          refine ih.body.bind h2 (fun h => hf (by omega)) fun b s3 u3 k3 a3 h3 d3 f3 => ?_
          refine ⟨_, k3, a1.cons (a2.cons a3), h3, ?_, f3⟩
          rw [DStmt]
          refine ⟨t, t2, u3, rfl, rfl, hp', fun w => ?_, d3⟩
          obtain ⟨d, e1, e2⟩ := c'
          exact ⟨d, by rw [← B.get w _ _ hs.cx]; exact e1, e2⟩
      · show wp (parseBody u S n >>= _) s _ _ _
        refine ih.body.bind hs (fun h => hf (by omega)) fun b s3 u3 k3 a3 h3 d3 f3 => ?_
        refine ⟨u3, k3, a3, h3, ?_, f3⟩
        rw [DStmt]
        refine ⟨d3, fun w t' ht' => ?_⟩
        cases u3 with
        | nil => cases ht'
        | cons y ys =>
          cases ht'
          rw [tok_of_ts a3.ts] at ht; cases ht
          rintro ⟨d, e1, e2⟩
          exact c ((hlab _ rfl).2 ⟨d, by rw [B.get w _ _ hs.cx]; exact e1, e2⟩)
    · -- body
      intro s k hs hf
      rw [parseBody]
      refine wp_cur_bind (B.nil' hs) (B.hang' hs) fun t ht => ?_
      have hd := desigStmt_sound B n s k hs (fun h => hf (by omega))
      dsimp only
      by_cases c : t.typ = .reserved
      · rw [if_pos c]
        refine wp_ite (fun _ => inherited_sound B n s k hs (fun h => hf (by omega))) fun _ => ?_
        refine wp_ite (fun _ => goto_sound B n s k hs (fun h => hf (by omega))) fun _ => ?_
        refine wp_ite (fun _ => ih.compound s k hs (fun h => hf (by omega))) fun _ => ?_
        refine wp_ite (fun _ => ih.ifs s k hs (fun h => hf (by omega))) fun _ => ?_
        refine wp_ite (fun _ => ih.cases s k hs (fun h => hf (by omega))) fun _ => ?_
        refine wp_ite (fun _ => ih.repeats s k hs (fun h => hf (by omega))) fun _ => ?_
        refine wp_ite (fun _ => ih.whiles s k hs (fun h => hf (by omega))) fun _ => ?_
        refine wp_ite (fun _ => ih.fors s k hs (fun h => hf (by omega))) fun _ => ?_
        refine wp_ite (fun _ => ih.withs s k hs (fun h => hf (by omega))) fun _ => ?_
        refine wp_ite (fun _ => ih.tries s k hs (fun h => hf (by omega))) fun _ => ?_
        refine wp_ite (fun _ => raise_sound B n s k hs (fun h => hf (by omega))) fun _ => ?_
        refine wp_ite (fun _ => asm_sound B n s k hs (fun h => hf (by omega))) fun _ => ?_
        exact hd
      · rw [if_neg c]; exact hd
    · -- stmts
      intro term hterm s k hs hf
      rw [parseStmts]
      refine ih.stmt.bind hs (fun h => hf (by omega)) fun st s1 u1 k1 a1 h1 d1 f1 => ?_
      have := a1.len
      refine B.is h1 (fun t ht c => ?_) (fun t ht c => ?_)
      · simp only [if_true]
        by_cases hb : bareRaise st = true
        · exact absurd (f1.semi hb t ht) (hterm t c)
        · refine ⟨u1, k1, a1, h1, ?_, t, ht, c⟩
          rw [DStmts]
          exact .inl ⟨by simpa using hb, d1⟩
      · simp only [Bool.false_eq_true, if_false]
        refine B.eatSym h1 fun t2 s2 ht2 a2 h2 => ?_
        have := a2.len
        simp only [List.length_cons, List.length_nil] at this
        refine B.is h2 (fun t3 ht3 c3 => ?_) (fun t3 ht3 c3 => ?_)
        · simp only [if_true]
          refine ⟨_, k1, a1.trans a2, h2, ?_, t3, ht3, c3⟩
          rw [DStmts]
          exact .inr ⟨u1, t2, rfl, d1, ht2⟩
        · simp only [Bool.false_eq_true, if_false]
          refine (ih.stmts term hterm).bind h2 (fun h => hf (by omega)) fun rest s3 u3 k3 a3 h3 d3 f3 => ?_
          refine ⟨_, k3, a1.trans (a2.cons a3), h3, ?_, f3⟩
          rw [DStmts]
          exact ⟨u1, t2, u3, k1, rfl, d1, ht2, d3⟩
    · -- compound
      intro s k hs hf
      rw [parseCompound]
      refine B.eatKw hs fun t s1 ht a1 h1 => ?_
      have := a1.len
      simp only [List.length_cons, List.length_nil] at this
      refine (ih.stmts _ (kw_not_semi _)).bind h1 (fun h => hf (by omega)) fun l s2 u2 k2 a2 h2 d2 f2 => ?_
      refine B.eatKw h2 fun c s3 hc a3 h3 => ?_
      refine ⟨_, k2, a1.cons (a2.trans a3), h3, ?_, Follows.no _⟩
      rw [DBody]
      exact ⟨t, u2, c, rfl, ht, d2, hc⟩
    · -- if
      intro s k hs hf
      rw [parseIf]
      refine B.eatKw hs fun t s1 ht a1 h1 => ?_
      have := a1.len
      simp only [List.length_cons, List.length_nil] at this
      refine B.expr h1 (fun h => hf (by omega)) fun e s2 u2 a2 h2 d2 => ?_
      have := a2.len
      refine B.eatKw h2 fun th s3 hth a3 h3 => ?_
      have := a3.len
      simp only [List.length_cons, List.length_nil] at this
      refine ih.stmt.bind h3 (fun h => hf (by omega)) fun st s4 u4 k4 a4 h4 d4 f4 => ?_
      have := a4.len
      refine B.is h4 (fun t5 ht5 c5 => ?_) (fun t5 ht5 c5 => ?_)
      · simp only [if_true]
        have c5' := kw_iff.1 c5
        obtain ⟨ts, hts⟩ := tok_cons ht5 (kw_ne_eof c5')
        refine B.next h4 hts fun s5 a5 h5 _ _ => ?_
        have := a5.len
        simp only [List.length_cons, List.length_nil] at this
        refine ih.stmt.bind h5 (fun h => hf (by omega)) fun st2 s6 u6 k6 a6 h6 d6 f6 => ?_
        refine ⟨_, k6, a1.cons (a2.trans (a3.cons (a4.trans (a5.cons a6)))), h6, ?_, ?_⟩
        · rw [DBody]
          refine ⟨t, u2, th, u4, t5, u6, k4, rfl, ht, d2, hth, d4, ?_, ?_, c5', d6⟩
          · by_cases o : openIf st = true
            · exact absurd c5' (f4.els o t5 ht5)
            · simpa using o
          · by_cases o : bareRaise st = true
            · exact absurd (f4.semi o t5 ht5) (kw_not_semi _ _ c5)
            · simpa using o
        · exact f6
      · simp only [Bool.false_eq_true, if_false]
        refine ⟨_, k4, a1.cons (a2.trans (a3.cons a4)), h4, ?_, ?_⟩
        · rw [DBody]
          exact ⟨t, u2, th, u4, rfl, ht, d2, hth, d4⟩
        · refine ⟨fun _ t' ht' => ?_, fun h => f4.semi (by rw [bareRaiseB] at h; exact h)⟩
          rw [ht5] at ht'; cases ht'
          exact fun h => c5 (kw_iff.2 h)
    · -- case
      intro s k hs hf
      rw [parseCase]
      refine B.eatKw hs fun t s1 ht a1 h1 => ?_
      have := a1.len
      simp only [List.length_cons, List.length_nil] at this
      refine B.expr h1 (fun h => hf (by omega)) fun e s2 u2 a2 h2 d2 => ?_
      have := a2.len
      refine B.eatKw h2 fun th s3 hth a3 h3 => ?_
      have := a3.len
      simp only [List.length_cons, List.length_nil] at this
      refine ih.sels.bind h3 (fun h => hf (by omega)) fun sels s4 u4 k4 a4 h4 d4 _ => ?_
      have := a4.len
      refine B.is h4 (fun t5 ht5 c5 => ?_) (fun t5 ht5 c5 => ?_)
      · simp only [if_true]
        have c5' := kw_iff.1 c5
        obtain ⟨ts, hts⟩ := tok_cons ht5 (kw_ne_eof c5')
        refine B.next h4 hts fun s5 a5 h5 _ _ => ?_
        have := a5.len
        simp only [List.length_cons, List.length_nil] at this
        refine (ih.stmts _ (kw_not_semi _)).bind h5 (fun h => hf (by omega)) fun l s6 u6 k6 a6 h6 d6 f6 => ?_
        refine B.eatKw h6 fun c s7 hc a7 h7 => ?_
        refine ⟨_, k6, a1.cons (a2.trans (a3.cons (a4.trans ((a5.cons a6).trans a7)))), h7, ?_, Follows.no _⟩
        rw [DBody]
        refine ⟨t, u2, th, u4, t5 :: u6, c, k4, rfl, ht, d2, hth, d4, ?_, hc⟩
        rw [DElse]
        exact ⟨t5, u6, rfl, c5', d6⟩
      · simp only [Bool.false_eq_true, if_false]
        refine B.eatKw h4 fun c s7 hc a7 h7 => ?_
        refine ⟨_, k4, a1.cons (a2.trans (a3.cons (a4.trans a7))), h7, ?_, Follows.no _⟩
        rw [DBody]
        refine ⟨t, u2, th, u4, [], c, k4, rfl, ht, d2, hth, d4, ?_, hc⟩
        rw [DElse]
        exact ⟨rfl, rfl⟩
    · -- sels
      intro s k hs hf
      rw [parseSels]
      refine (caseLabels_sound B n).bind hs (fun h => hf (by omega)) fun ls s1 u1 k1 a1 h1 d1 _ => ?_
      obtain ⟨rfl, d1⟩ := d1
      have := a1.len
      refine B.eatSym h1 fun t s2 ht a2 h2 => ?_
      have := a2.len
      simp only [List.length_cons, List.length_nil] at this
      refine ih.stmt.bind h2 (fun h => hf (by omega)) fun st s3 u3 k3 a3 h3 d3 f3 => ?_
      have := a3.len
      refine B.eatSym h3 fun c s4 hc a4 h4 => ?_
      have := a4.len
      simp only [List.length_cons, List.length_nil] at this
      refine B.is h4 (fun t5 ht5 c5 => ?_) (fun t5 ht5 c5 => ?_)
      · simp only [if_true]
        refine ⟨_, k3, a1.trans (a2.cons (a3.trans a4)), h4, ?_, trivial⟩
        rw [DSels]
        exact ⟨u1, t, u3, c, rfl, d1, ht, d3, hc⟩
      · simp only [Bool.false_eq_true, if_false]
        refine ih.sels.bind h4 (fun h => hf (by omega)) fun rest s5 u5 k5 a5 h5 d5 _ => ?_
        refine ⟨_, k5, a1.trans (a2.cons (a3.trans (a4.cons a5))), h5, ?_, trivial⟩
        rw [DSels]
        exact ⟨u1, t, u3, c, u5, k3, rfl, d1, ht, d3, hc, d5⟩
    · -- repeat
      intro s k hs hf
      rw [parseRepeat]
      refine B.eatKw hs fun t s1 ht a1 h1 => ?_
      have := a1.len
      simp only [List.length_cons, List.length_nil] at this
      refine (ih.stmts _ (kw_not_semi _)).bind h1 (fun h => hf (by omega)) fun l s2 u2 k2 a2 h2 d2 f2 => ?_
      have := a2.len
      refine B.eatKw h2 fun c s3 hc a3 h3 => ?_
      have := a3.len
      simp only [List.length_cons, List.length_nil] at this
      refine B.expr h3 (fun h => hf (by omega)) fun e s4 u4 a4 h4 d4 => ?_
      refine ⟨_, k2, a1.cons (a2.trans (a3.cons a4)), h4, ?_, Follows.no _⟩
      rw [DBody]
      exact ⟨t, u2, c, u4, rfl, ht, d2, hc, d4⟩
    · -- while
      intro s k hs hf
      rw [parseWhile]
      refine B.eatKw hs fun t s1 ht a1 h1 => ?_
      have := a1.len
      simp only [List.length_cons, List.length_nil] at this
      refine B.expr h1 (fun h => hf (by omega)) fun e s2 u2 a2 h2 d2 => ?_
      have := a2.len
      refine B.eatKw h2 fun c s3 hc a3 h3 => ?_
      have := a3.len
      simp only [List.length_cons, List.length_nil] at this
      refine ih.stmt.bind h3 (fun h => hf (by omega)) fun st s4 u4 k4 a4 h4 d4 f4 => ?_
      refine ⟨_, k4, a1.cons (a2.trans (a3.cons a4)), h4, ?_, ?_⟩
      · rw [DBody]
        exact ⟨t, u2, c, u4, rfl, ht, d2, hc, d4⟩
      · exact f4
    · -- for
      intro s k hs hf
      rw [parseFor]
      refine B.eatKw hs fun t s1 ht a1 h1 => ?_
      have := a1.len
      simp only [List.length_cons, List.length_nil] at this
      refine B.qual h1 fun q s2 u2 a2 h2 _ d2 => ?_
      have := a2.len
      refine B.eatSym h2 fun as s3 has a3 h3 => ?_
      have := a3.len
      simp only [List.length_cons, List.length_nil] at this
      refine B.expr h3 (fun h => hf (by omega)) fun lo s4 u4 a4 h4 d4 => ?_
      have := a4.len
      refine wp_cur_bind (B.nil' h4) (B.hang' h4) fun o ho => ?_
      refine wp_ite (fun c => ?_) (fun c => trivial)
      have hv : o.value u = (if (o.value u == r!"DOWNTO") = true then r!"DOWNTO" else r!"TO") := by
        rcases c with c | c <;> rw [c] <;> decide
      obtain ⟨ts, hts⟩ := tok_cons_raw ho (by rcases c with c | c <;> exact val_raw c (by decide))
      refine B.next h4 hts fun s5 a5 h5 _ _ => ?_
      have := a5.len
      simp only [List.length_cons, List.length_nil] at this
      refine B.expr h5 (fun h => hf (by omega)) fun hi s6 u6 a6 h6 d6 => ?_
      have := a6.len
      refine B.eatKw h6 fun d s7 hd a7 h7 => ?_
      have := a7.len
      simp only [List.length_cons, List.length_nil] at this
      refine ih.stmt.bind h7 (fun h => hf (by omega)) fun st s8 u8 k8 a8 h8 d8 f8 => ?_
      refine ⟨_, k8, a1.cons (a2.trans (a3.cons (a4.trans (a5.cons (a6.trans (a7.cons a8)))))), h8, ?_, ?_⟩
      · rw [DBody]
        exact ⟨t, u2, as, u4, o, u6, d, u8, rfl, ht, d2, has, d4, hv, d6, hd, d8⟩
      · exact f8
    · -- with
      intro s k hs hf
      rw [parseWith]
      refine B.eatKw hs fun t s1 ht a1 h1 => ?_
      have := a1.len
      simp only [List.length_cons, List.length_nil] at this
      refine (qualIds_sound B n).bind h1 (fun h => hf (by omega)) fun qs s2 u2 k2 a2 h2 d2 _ => ?_
      obtain ⟨rfl, d2⟩ := d2
      have := a2.len
      refine B.eatKw h2 fun c s3 hc a3 h3 => ?_
      have := a3.len
      simp only [List.length_cons, List.length_nil] at this
      refine ih.stmt.bind h3 (fun h => hf (by omega)) fun st s4 u4 k4 a4 h4 d4 f4 => ?_
      refine ⟨_, k4, a1.cons (a2.trans (a3.cons a4)), h4, ?_, ?_⟩
      · rw [DBody]
        exact ⟨t, u2, c, u4, rfl, ht, d2, hc, d4⟩
      · exact f4
    · -- try
      intro s k hs hf
      rw [parseTry]
      refine B.eatKw hs fun t s1 ht a1 h1 => ?_
      have := a1.len
      simp only [List.length_cons, List.length_nil] at this
      refine (ih.stmts _ tryEnd_not_semi).bind h1 (fun h => hf (by omega)) fun l s2 u2 k2 a2 h2 d2 f2 => ?_
      have := a2.len
      refine B.is h2 (fun t3 ht3 c3 => ?_) (fun t3 ht3 c3 => ?_)
      · simp only [if_true]
        have c3' := kw_iff.1 c3
        obtain ⟨ts, hts⟩ := tok_cons ht3 (kw_ne_eof c3')
        refine B.next h2 hts fun s3 a3 h3 _ _ => ?_
        have := a3.len
        simp only [List.length_cons, List.length_nil] at this
        refine ih.exc.bind h3 (fun h => hf (by omega)) fun b s4 u4 k4 a4 h4 d4 _ => ?_
        refine ⟨_, k4, a1.cons (a2.trans (a3.cons a4)), h4, ?_, Follows.no _⟩
        rw [DBody]
        exact ⟨t, u2, t3, u4, k2, rfl, ht, d2, c3', d4⟩
      · simp only [Bool.false_eq_true, if_false]
        refine B.is h2 (fun t4 ht4 c4 => ?_) (fun t4 ht4 c4 => ?_)
        · simp only [if_true]
          have c4' := kw_iff.1 c4
          obtain ⟨ts, hts⟩ := tok_cons ht4 (kw_ne_eof c4')
          refine B.next h2 hts fun s3 a3 h3 _ _ => ?_
          have := a3.len
          simp only [List.length_cons, List.length_nil] at this
          refine (ih.stmts _ (kw_not_semi _)).bind h3 (fun h => hf (by omega)) fun l2 s4 u4 k4 a4 h4 d4 f4 => ?_
          obtain ⟨c, hc, hc'⟩ := f4
          have hc' := kw_iff.1 hc'
          obtain ⟨ts, hts⟩ := tok_cons hc (kw_ne_eof hc')
          refine B.next h4 hts fun s5 a5 h5 _ _ => ?_
          refine ⟨_, k4, a1.cons (a2.trans (a3.cons (a4.trans a5))), h5, ?_, Follows.no _⟩
          rw [DBody]
          exact ⟨t, u2, t4, u4, c, k2, rfl, ht, d2, c4', d4, hc'⟩
        · simp only [Bool.false_eq_true, if_false]
          trivial
    · -- exc
      intro s k hs hf
      rw [parseExcBlock]
      refine B.is hs (fun t ht c => ?_) (fun t ht c => ?_)
      · simp only [if_true]
        refine wp_then (ih.handlers s k hs (fun h => hf (by omega))) ?_
        rintro hd s1 ⟨u1, k1, a1, h1, d1, l1⟩
        have := a1.len
        refine B.is h1 (fun t2 ht2 c2 => ?_) (fun t2 ht2 c2 => ?_)
        · simp only [if_true]
          have c2' := kw_iff.1 c2
          obtain ⟨ts, hts⟩ := tok_cons ht2 (kw_ne_eof c2')
          refine B.next h1 hts fun s2 a2 h2 _ _ => ?_
          refine ⟨_, k1, a1.trans a2, h2, ?_, trivial⟩
          rw [DExc]
          exact ⟨u1, [], t2, rfl, d1 false (fun h => by (cases h)), .inl rfl, c2'⟩
        · simp only [Bool.false_eq_true, if_false]
          refine ih.excElse.bind h1 (fun h => hf (by omega)) fun els s2 u2 k2 a2 h2 d2 f2 => ?_
          cases els with
          | some l =>
            obtain ⟨e, he, he'⟩ := f2 l rfl
            rw [DElse] at d2
            obtain ⟨t3, x3, rfl, ht3, d3⟩ := d2
            refine B.is h2 (fun t4 ht4 c4 => ?_) (fun t4 ht4 c4 => ?_)
            · rw [he] at ht4; cases ht4
              exact absurd (symbol_iff.1 c4) (kw_not_semi _ _ (kw_iff.2 he'))
            · simp only [Bool.false_eq_true, if_false]
              refine B.eatKw h2 fun c s5 hc a5 h5 => ?_
              refine ⟨_, k2, a1.trans (a2.trans a5), h5, ?_, trivial⟩
              rw [DExc]
              exact ⟨u1, t3, x3, c, k1, rfl, d1 true (fun _ => ⟨t3, tok_of_ts a2.ts, ht3⟩), ht3, d3, hc⟩
          | none =>
            rw [DElse] at d2
            obtain ⟨rfl, rfl⟩ := d2
            refine B.is h2 (fun t4 ht4 c4 => ?_) (fun t4 ht4 c4 => ?_)
            · simp only [if_true]
              have c4' := symbol_iff.1 c4
              obtain ⟨ts, hts⟩ := tok_cons ht4 (sym_ne_eof c4')
              refine B.next h2 hts fun s4 a4 h4 _ _ => ?_
              refine B.eatKw h4 fun c s5 hc a5 h5 => ?_
              refine ⟨_, k2, a1.trans (a2.trans (a4.trans a5)), h5, ?_, trivial⟩
              rw [DExc]
              have a2' : s1.tok? = some t4 := tok_of_ts ((a2.trans a4).ts)
              obtain ⟨x', t', e', h'⟩ := l1 t4 a2' c4'
              exact ⟨u1, [t4], c, rfl, d1 false (fun h => by (cases h)), .inr ⟨t4, x', t', rfl, c4', e', h'⟩, hc⟩
            · simp only [Bool.false_eq_true, if_false]
              refine B.eatKw h2 fun c s5 hc a5 h5 => ?_
              refine ⟨_, k2, a1.trans (a2.trans a5), h5, ?_, trivial⟩
              rw [DExc]
              exact ⟨u1, [], c, rfl, d1 false (fun h => by (cases h)), .inl rfl, hc⟩
      · simp only [Bool.false_eq_true, if_false]
        refine (ih.stmts _ (kw_not_semi _)).bind hs (fun h => hf (by omega)) fun l s1 u1 k1 a1 h1 d1 f1 => ?_
        refine B.eatKw h1 fun e s2 he a2 h2 => ?_
        refine ⟨_, k1, a1.trans a2, h2, ?_, trivial⟩
        rw [DExc]
        refine ⟨u1, e, rfl, d1, he, fun t' ht' => ?_⟩
        cases u1 with
        | nil => cases ht'
        | cons y ys =>
          cases ht'
          rw [tok_of_ts a1.ts] at ht; cases ht
          exact fun h => c (upper_iff.2 h)
    · -- excElse
      intro s k hs hf
      rw [parseExcElse]
      refine B.is hs (fun t ht c => ?_) (fun t ht c => ?_)
      · simp only [if_true]
        have c' := kw_iff.1 c
        obtain ⟨ts, hts⟩ := tok_cons ht (kw_ne_eof c')
        refine B.next hs hts fun s1 a1 h1 _ _ => ?_
        have := a1.len
        simp only [List.length_cons, List.length_nil] at this
        refine (ih.stmts _ (kw_not_semi _)).bind h1 (fun h => hf (by omega)) fun l s2 u2 k2 a2 h2 d2 f2 => ?_
        refine ⟨_, k2, a1.cons a2, h2, ?_, fun _ _ => ?_⟩
        · rw [DElse]
          exact ⟨t, u2, rfl, c', d2⟩
        · obtain ⟨e, he, he'⟩ := f2
          exact ⟨e, he, kw_iff.1 he'⟩
      · simp only [Bool.false_eq_true, if_false]
        refine ⟨[], k, Eat.refl _, hs, ?_, fun _ h => by (cases h)⟩
        rw [DElse]
        exact ⟨rfl, rfl⟩
    · -- handlers
      intro s k hs hf
      rw [parseHandlers]
      refine wp_then (ih.handler s k hs (fun h => hf (by omega))) ?_
      rintro h s1 ⟨u1, k1, a1, h1, d1, f1, p1⟩
      have := a1.len
      have rest : ∀ s2 z, Eat s1 z s2 → At R Good tl k1 s2 →
          (∀ e, (e = true → ∃ t, s2.tok? = some t ∧ IsKw u r!"ELSE" t) → HSemi e h.stmt z) →
          (∀ t, s2.tok? = some t → IsSym r!";" t → ∃ t', z = [t'] ∧ IsSym r!";" t') →
          wp (do
            if ← P.is (Pred.upperCase u r!"ON") then do
              let rest ← parseHandlers u S n
              pure (.cons h rest)
            else pure (.one h) : P κ (Handlers δ τ)) s2
            (fun a s' => ∃ used k', Eat s used s' ∧ At R Good tl k' s' ∧
              (∀ e, (e = true → ∃ t, s'.tok? = some t ∧ IsKw u r!"ELSE" t) → DHandlers u S L DTy k e a used k') ∧
              ∀ t, s'.tok? = some t → IsSym r!";" t → ∃ x t', used = x ++ [t'] ∧ IsSym r!";" t') Pp Pw := by
        intro s2 z a2 h2 hz hl
        have := a2.len
        refine B.is h2 (fun t3 ht3 c3 => ?_) (fun t3 ht3 c3 => ?_)
        · simp only [if_true]
          refine wp_then (ih.handlers s2 k1 h2 (fun h => hf (by omega))) ?_
          rintro rest s3 ⟨u3, k3, a3, h3, d3, l3⟩
          refine ⟨_, k3, (a1.trans a2).trans a3, h3, fun e he => ?_, fun t' ht' hs' => ?_⟩
          · rw [DHandlers]
            exact ⟨u1 ++ z, u3, k1, rfl, d1 false z (hz false (fun h => by (cases h))), d3 e he⟩
          · obtain ⟨x, t'', rfl, h''⟩ := l3 t' ht' hs'
            exact ⟨_, t'', (List.append_assoc _ _ _).symm, h''⟩
        · simp only [Bool.false_eq_true, if_false]
          refine ⟨_, k1, a1.trans a2, h2, fun e he => ?_, fun t' ht' hs' => ?_⟩
          · rw [DHandlers]
            exact d1 e z (hz e he)
          · obtain ⟨t'', rfl, h''⟩ := hl t' ht' hs'
            exact ⟨u1, t'', rfl, h''⟩
      refine B.is h1 (fun t2 ht2 c2 => ?_) (fun t2 ht2 c2 => ?_)
      · simp only [if_true]
        have c2' := symbol_iff.1 c2
        obtain ⟨ts, hts⟩ := tok_cons ht2 (sym_ne_eof c2')
        refine B.next h1 hts fun s2 a2 h2 _ _ => ?_
        exact rest s2 [t2] a2 h2 (fun e _ => .inr ⟨t2, rfl, c2'⟩) fun _ _ _ => ⟨t2, rfl, c2'⟩
      · simp only [Bool.false_eq_true, if_false]
        refine rest s1 [] (Eat.refl _) h1 (fun e he => .inl ⟨rfl, ?_, ?_⟩) fun t' ht' hs' => ?_
        · by_cases o : bareRaise h.stmt = true
          · exact absurd (symbol_iff.2 (f1.semi o t2 ht2)) c2
          · simpa using o
        · cases e with
          | false => rfl
          | true =>
            obtain ⟨t3, ht3, he3⟩ := he rfl
            by_cases o : openIf h.stmt = true
            · exact absurd he3 (f1.els o t3 ht3)
            · simpa using o
        · rw [ht2] at ht'; cases ht'
          exact absurd (symbol_iff.2 hs') c2
    · -- handler
      intro s k hs hf
      rw [parseHandler]
      refine B.eatUp hs (by decide) fun t s1 ht a1 h1 => ?_
      have := a1.len
      simp only [List.length_cons, List.length_nil] at this
      -- from the type on
      have rest : ∀ (i : Option Ident) s2 x2, Eat s1 x2 s2 → At R Good tl k s2 →
          (∀ e ty y x d z k1 k2 k' st, DTy k ty y k1 → s2.ts.head? = (y ++ [d]).head? → (∀ j, i = some j → L → S.setHandler k1 j ty = .ok k2) →
            (i = none → k2 = k1) → IsUp u r!"DO" d → DStmt u S L DTy k2 st x k' → HSemi e st z →
            DHandler u S L DTy k e (.mk i ty st) (t :: (x2 ++ (y ++ d :: (x ++ z)))) k') →
          wp (do
            let ty ← S.parseType n
            (match i with
            | some i => setHandler S i ty
            | none => pure ())
            let _ ← P.current (Pred.upperCase u r!"DO")
            P.next
            let s ← parseStmt u S n
            pure (Handler.mk i ty s) : P κ (Handler δ τ)) s2
            (fun a s' => ∃ used k', Eat s used s' ∧ At R Good tl k' s' ∧
              (∀ e z, HSemi e a.stmt z → DHandler u S L DTy k e a (used ++ z) k') ∧
              Follows u (openIf a.stmt) (bareRaise a.stmt) s' ∧ 1 ≤ used.length) Pp Pw := by
        intro i s2 x2 a2 h2 hd
        have := a2.len
        refine wp_then (B.type n s2 k h2.tail h2.cx h2.good (fun h => hf (by omega))) ?_
        rintro ty s3 ⟨u3, k3, a3, r3, d3⟩
        have h3 := B.at h2 a3 r3
        have := a3.len
        refine wp_then (Q1 := fun _ s4 => ∃ k4, Eat s3 [] s4 ∧ At R Good tl k4 s4 ∧
          (∀ j, i = some j → L → S.setHandler k3 j ty = .ok k4) ∧ (i = none → k4 = k3)) ?_ ?_
        · cases i with
          | none => exact ⟨k3, Eat.refl _, h3, fun j h => by (cases h), fun _ => rfl⟩
          | some i =>
            have := B.set k3 s3.cx h3.cx i ty
            unfold wp setHandler
            simp only
            cases hc : S.setHandler s3.cx i ty with
            | ok c =>
              rw [hc] at this
              obtain ⟨k4, h4, l4⟩ := this
              exact ⟨k4, ⟨rfl, rfl⟩, ⟨h3.tail, h4, h3.good⟩, fun j hj w => by (cases hj; exact l4 w), fun h => by (cases h)⟩
            | err => trivial
            | panic => rw [hc] at this; exact this
        rintro _ s4 ⟨k4, a4, h4, l4, l4'⟩
        have := a4.len
        refine B.eatUp h4 (by decide) fun d s5 hdo a5 h5 => ?_
        have := a5.len
        simp only [List.length_cons, List.length_nil] at *
        refine ih.stmt.bind h5 (fun h => hf (by omega)) fun st s6 u6 k6 a6 h6 d6 f6 => ?_
        refine ⟨_, k6, a1.cons (a2.trans (a3.trans (a4.trans (a5.cons a6)))), h6, fun e z hz => ?_, f6, by simp⟩
        have := hd e ty u3 u6 d z k3 k4 k6 st d3 ?_ l4 l4' hdo d6 hz
        · simpa using this
        · rw [a3.ts, show s3.ts = d :: s5.ts by simpa using (a4.trans a5).ts]
          cases u3 <;> rfl
      unfold parseHandlerIdent
      rw [P.bind_assoc]
      refine wp_cur_bind (B.nil' h1) (B.hang' h1) fun t2 ht2 => ?_
      rw [P.bind_assoc]
      refine wp_getDecl ?_
      have hty : ∀ b : Bool, b = (match S.get s1.cx t2.raw with | some d => S.isType d | none => false) →
          (b = true ↔ IsTypeName S.toEnv s1.cx t2.raw) := by
        rintro _ rfl
        unfold IsTypeName
        cases S.get s1.cx t2.raw with
        | none => simp
        | some d => simp
      refine wp_ite_bind (fun c => ?_) (fun c => ?_)
      · have c' := (hty _ rfl).1 c
        refine rest none s1 [] (Eat.refl _) h1 ?_
        intro e ty y x d z k1 k2 k' st dty hh hset hk hdo dst hz
        obtain rfl := hk rfl
        rw [DHandler]
        refine ⟨t, y, d, x, z, k2, rfl, ht, dty, fun w t' ht' => ?_, hdo, dst, hz⟩
        rw [← hh] at ht'
        have : s1.tok? = some t' := by
          cases hq : s1.ts with
          | nil => rw [hq] at ht'; cases ht'
          | cons q qs => rw [hq] at ht'; cases ht'; exact tok_of_ts hq
        rw [ht2] at this; cases this
        obtain ⟨d', e1, e2⟩ := c'
        exact ⟨d', by rw [← B.get w _ _ h1.cx]; exact e1, e2⟩
      · have c' := fun h => c ((hty _ rfl).2 h)
        rw [P.bind_assoc]
        cases hts : s1.ts with
        | nil =>
          unfold P.nextIs
          rw [P.bind_assoc]
          refine wp_bind.2 (wp_next ?_ (B.hang' h1))
          refine wp_current_bind (fun e => B.hang' h1 e) fun t3 ht3 hp => ?_
          obtain ⟨ts3, hts3⟩ := tok_cons ht3 (sym_ne_eof (symbol_iff.1 hp))
          rw [show s1.ts.tail = [] by rw [hts]; rfl] at hts3
          cases hts3
        | cons t0 ts0 =>
          rw [tok_of_ts hts] at ht2; cases ht2
          refine B.nextIs h1 hts fun t3 s2 a2 h2 _ ht3 hp => ?_
          have hp' := symbol_iff.1 hp
          obtain ⟨ts3, hts3⟩ := tok_cons ht3 (sym_ne_eof hp')
          rw [P.bind_assoc]
          refine B.next h2 hts3 fun s3 a3 h3 _ _ => ?_
          refine rest (some (Ident.ofTok t2)) s3 [t2, t3] (a2.cons a3) h3 ?_
          intro e ty y x d z k1 k2 k' st dty hh hset hk hdo dst hz
          rw [DHandler]
          refine ⟨t, t2, t3, y, d, x, z, k1, k2, rfl, ht, rfl, fun w h => c' ?_, hp', dty, hset _ rfl, hdo, dst, hz⟩
          obtain ⟨d', e1, e2⟩ := h
          exact ⟨d', by rw [B.get w _ _ h1.cx]; exact e1, e2⟩

end TP
