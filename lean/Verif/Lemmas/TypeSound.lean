import Verif.Lemmas.TypeBase

/-!
# Soundness of the parser of types: the parts that are not recursive
-/

namespace TP
open Spec

variable {κ δ : Type} {u : Uni} {D : DEnv κ δ} {I : κ → Prop} {Good : List Token → Prop} {tl : Tail} {Pp Pw : Prop}

/-- the token is not the end of the text -/
def NotEof (pred : Pred) : Prop := ∀ t, pred t = true → t.typ ≠ .eof ∨ t.raw ≠ []

theorem notEof_kw {s : Str} : NotEof (kw u s) := fun _ h => .inl (kw_ne_eof (kw_iff.1 h))
theorem notEof_sym {s : Str} : NotEof (sym s) := fun _ h => .inl (sym_ne_eof (symbol_iff.1 h))
theorem notEof_up {s : Str} (hs : s ≠ []) : NotEof (Pred.upperCase u s) := fun _ h => .inr (up_raw (upper_iff.1 h) hs)
theorem notEof_ident : NotEof (Pred.typ .ident) := fun _ h => .inl (by rw [typ_iff.1 h]; decide)
theorem value_iff {s : Str} {t : Token} : Pred.value u s t = true ↔ t.value u = s := by simp [Pred.value]
theorem notEof_val {s : Str} (hs : s ≠ []) : NotEof (Pred.value u s) := fun _ h => .inr (val_raw (value_iff.1 h) hs)

theorem tok_cons' {pred : Pred} (hne : NotEof pred) {s : PS κ} {t : Token} (ht : s.tok? = some t) (hp : pred t = true) :
    ∃ ts, s.ts = t :: ts := by
  rcases hne t hp with h | h
  · exact tok_cons ht h
  · exact tok_cons_raw ht h

theorem tok_of_cons {s : PS κ} {t : Token} {ts : List Token} (h : s.ts = t :: ts) : s.tok? = some t := by
  obtain ⟨q1, q2, q3⟩ := s
  cases h; rfl

theorem anyAt_tok {s : PS κ} {t : Token} (h : s.tok? = some t) : anyAt (Ident.ofTok t) s.ts s.ts.tail := by
  obtain ⟨ts, tl, cx⟩ := s
  cases ts with
  | cons a ts =>
    simp only [PS.tok?, Option.some.injEq] at h
    subst h; exact .inl ⟨a, rfl, rfl⟩
  | nil =>
    cases tl with
    | eof x p =>
      simp only [PS.tok?, Option.some.injEq] at h
      subst h; exact .inr ⟨rfl, rfl, eofTok_raw x p⟩
    | nil => cases h
    | hang => cases h

theorem tail_le (l : List Token) : l.tail.length ≤ l.length := by cases l <;> simp

section
variable (B : DBase u D I Good tl Pp Pw)
include B

section
variable {s : PS κ} (hs : In' I Good tl s) {α : Type} {Q : α → PS κ → Prop}
include hs

/-- `if p.CurrentToken().Is(pred) { p.NextToken(); … } else { … }` -/
theorem DBase.opt {pred : Pred} (hne : NotEof pred) {f : Unit → P κ α} {g : P κ α}
    (h1 : ∀ t s', pred t = true → In' I Good tl s' → s.ts = t :: s'.ts → wp (f ()) s' Q Pp Pw)
    (h2 : ∀ t, s.tok? = some t → ¬ pred t = true → wp g s Q Pp Pw) :
    wp (P.is pred >>= fun b => if b = true then P.next >>= f else g) s Q Pp Pw := by
  refine B.is hs (fun t ht c => ?_) (fun t ht c => ?_)
  · simp only [if_true]
    obtain ⟨ts, hts⟩ := tok_cons' hne ht c
    exact B.next hs hts fun s' h e => h1 t s' c h (by rw [e]; exact hts)
  · simp only [Bool.false_eq_true, if_false]; exact h2 t ht c

/-- the same without consuming -/
theorem DBase.isL {pred : Pred} (hne : NotEof pred) {f g : P κ α}
    (h1 : ∀ t ts, pred t = true → s.ts = t :: ts → wp f s Q Pp Pw)
    (h2 : ∀ t, s.tok? = some t → ¬ pred t = true → wp g s Q Pp Pw) :
    wp (P.is pred >>= fun b => if b = true then f else g) s Q Pp Pw := by
  refine B.is hs (fun t ht c => ?_) (fun t ht c => ?_)
  · simp only [if_true]
    obtain ⟨ts, hts⟩ := tok_cons' hne ht c
    exact h1 t ts c hts
  · simp only [Bool.false_eq_true, if_false]; exact h2 t ht c

theorem DBase.point {f : PS κ → P κ α} (h : wp (f s) s Q Pp Pw) : wp (rollbackPoint >>= f) s Q Pp Pw := by
  rw [wp_bind]
  refine wp_mono (p := rollbackPoint) (Q := fun s0 s1 => s0 = s ∧ s1 = s) ?_ ?_ id id
  · unfold wp rollbackPoint P.cur
    have h1 := B.nil' hs
    have h2 := B.hang' hs
    obtain ⟨ts, tl, cx⟩ := s
    cases ts with
    | cons t ts => exact ⟨rfl, rfl⟩
    | nil =>
      cases tl with
      | eof x p => exact ⟨rfl, rfl⟩
      | nil => exact h1 rfl
      | hang => exact h2 rfl
  · rintro s0 s1 ⟨rfl, rfl⟩; exact h

/-- any token is read -/
theorem DBase.any {f : Token → Unit → P κ α}
    (hf : ∀ t s', In' I Good tl s' → s'.ts.length ≤ s.ts.length → anyAt (Ident.ofTok t) s.ts s'.ts → wp (f t ()) s' Q Pp Pw) :
    wp (P.cur >>= fun t => P.next >>= f t) s Q Pp Pw := by
  refine B.cur hs fun t ht => ?_
  refine B.skip hs fun s' h e => ?_
  exact hf t s' h (by rw [e]; exact tail_le _) (by rw [e]; exact anyAt_tok ht)
end

theorem idents_sound {term : Pred} (hterm : NotEof term) : ∀ n, TSound I Good tl Pp Pw (parseIdents term n)
    (fun is => gIdents u is ▹ look fun t => term t = true) n 1 := by
  intro n
  induction n with
  | zero => intro s hs hf; exact hf (by omega)
  | succ n ih =>
    intro s hs hf
    rw [parseIdents]
    refine B.eatIdent hs fun t s1 ht h1 e1 => ?_
    have l1 : s.ts.length = s1.ts.length + 1 := by rw [e1]; rfl
    refine B.cur? h1 trivial fun t2 ht2 => ?_
    refine wp_ite (fun c => ?_) (fun c => wp_ite (fun c2 => ?_) (fun _ => trivial))
    · obtain ⟨ts, hts⟩ := tok_cons' hterm ht2 c
      exact ⟨h1, by omega, s1.ts, ⟨t, e1, ht, rfl⟩, rfl, t2, ts, hts, c⟩
    · obtain ⟨ts, hts⟩ := tok_cons' notEof_sym ht2 c2
      refine B.next h1 hts fun s2 h2 e2 => ?_
      have l2 : s1.ts.length = s2.ts.length + 1 := by rw [hts, e2]; rfl
      refine ih.bind h2 (fun h => hf (by omega)) fun rest s3 h3 l3 ⟨y, g3, g4⟩ => ?_
      refine ⟨h3, by omega, y, ?_, g4⟩
      cases rest with
      | nil => exact g3.elim
      | cons r rs => exact ⟨s1.ts, ⟨t, e1, ht, rfl⟩, s2.ts, ⟨t2, by rw [hts, e2], symbol_iff.1 c2⟩, g3⟩

theorem typeIdWithUnit_sound (n : Nat) : TSound I Good tl Pp Pw (parseTypeIdWithUnit u D)
    (fun r x y => match r with
      | some t => t.unit ≠ none ∧ gTypeId u t x y
      | none => x = y) n 0 := by
  intro s hs hf
  unfold parseTypeIdWithUnit
  refine B.cur hs fun t ht => ?_
  refine wp_declOf ?_
  generalize D.get s.cx (t.value u) = d?
  refine wp_ite (fun c => ?_) (fun c => ?_)
  · refine B.nextIs hs (fun t h => sym_ne_eof (symbol_iff.1 h)) fun t0 t1 s1 ts1 c1 h1 e1 e1' => ?_
    refine B.nextIs h1 (fun t h => by rw [typ_iff.1 h]; decide) fun t1' t2 s2 ts2 c2 h2 e2 e2' => ?_
    have : t0 = t := by
      have := tok_of_cons e1; rw [ht] at this; cases this; rfl
    subst this
    have : t1' = t1 := by rw [e1'] at e2; cases e2; rfl
    subst this
    refine ⟨h2, by rw [e1, e2]; simp; omega, by simp, ?_⟩
    exact ⟨s1.ts, ⟨t0, e1, rfl⟩, s2.ts, ⟨t1', e2, symbol_iff.1 c1⟩, rfl, t2, ts2, e2', typ_iff.1 c2, rfl⟩
  · exact ⟨hs, Nat.le_refl _, rfl⟩

theorem typeIdWithoutUnit_sound (n : Nat) : TSound I Good tl Pp Pw (parseTypeIdWithoutUnit D)
    (fun t x y => t.unit = none ∧ anyAt t.ident x y) n 0 := by
  intro s hs hf
  unfold parseTypeIdWithoutUnit
  refine B.any hs fun t s1 h1 l1 g1 => ?_
  refine wp_declOf ?_
  cases D.get s1.cx t.raw with
  | some d => exact ⟨h1, l1, rfl, g1⟩
  | none =>
    refine B.newRef' h1 fun i s2 h2 e2 => ?_
    exact ⟨h2, by rw [e2]; exact l1, rfl, by rw [e2]; exact g1⟩

theorem typeId_sound (n : Nat) : TSound I Good tl Pp Pw (parseTypeId u D) (gTypeId u) n 0 := by
  intro s hs hf
  unfold parseTypeId
  refine (typeIdWithUnit_sound B n).bind hs hf fun r s1 h1 l1 g1 => ?_
  cases r with
  | some t => exact ⟨h1, l1, g1.2⟩
  | none =>
    refine wp_mono ((typeIdWithoutUnit_sound B n) s1 h1 (fun h => hf (by omega))) ?_ id id
    rintro t s2 ⟨h2, l2, g2, g3⟩
    refine ⟨h2, by omega, ?_⟩
    unfold gTypeId
    rw [g2, show s.ts = s1.ts from g1]; exact g3

theorem pointer_sound (n : Nat) : TSound I Good tl Pp Pw (parsePointer u D) (gType u) n 1 := by
  intro s hs hf
  unfold parsePointer
  refine B.eatSym hs fun t s1 ht h1 e1 => ?_
  have l1 : s.ts.length = s1.ts.length + 1 := by rw [e1]; rfl
  refine (typeId_sound B n).bind h1 (fun h => hf (by omega)) fun r s2 h2 l2 g2 => ?_
  refine ⟨h2, by omega, ?_⟩
  rw [gType]
  exact ⟨s1.ts, ⟨t, e1, ht⟩, g2⟩

/-- the current token is an identifier or a reserved word -/
theorem emb_sound (k : EmbKind) {s : PS κ} (hs : In' I Good tl s) {w : Token} {z : List Token} (hw : s.ts = w :: z)
    (hty : w.typ = .ident ∨ w.typ = .reserved) {α : Type} {Q : α → PS κ → Prop} {f : Option (PType δ) → P κ α}
    (h1 : ∀ ty s', In' I Good tl s' → s'.ts.length ≤ s.ts.length → gType u ty s.ts s'.ts → wp (f (some ty)) s' Q Pp Pw)
    (h2 : wp (f none) s Q Pp Pw) : wp (parseEmb u D k >>= f) s Q Pp Pw := by
  unfold parseEmb
  rw [P.bind_assoc]
  refine B.cur hs fun t ht => ?_
  cases D.emb k (t.value u) with
  | some d =>
    have hts := hw
    have : w = t := by have := tok_of_cons hw; rw [ht] at this; cases this; rfl
    subst this
    show wp ((P.next >>= _) >>= f) s Q Pp Pw
    rw [P.bind_assoc]
    refine B.next hs hts fun s1 h e => ?_
    refine h1 _ s1 h (by rw [hts, e]; simp) ?_
    rw [gType]
    exact ⟨.inl ⟨w, by rw [hts, e], rfl⟩, w, z, hts, hty⟩
  | none => exact h2

theorem wp_rollback {s0 s : PS κ} {α : Type} {Q : α → PS κ → Prop} (h0 : In' I Good tl s0) {f : Unit → P κ α}
    (h : ∀ s', In' I Good tl s' → s'.ts = s0.ts → wp (f ()) s' Q Pp Pw) : wp (rollbackTo D.toEnv s0 >>= f) s Q Pp Pw := by
  rw [wp_bind]
  exact h _ ⟨h0.tail, B.roll _ h0.cx, h0.good⟩ rfl

theorem subrangeIdent_sound (n : Nat) {s : PS κ} (hs : In' I Good tl s) {w : Token} {z : List Token} (hw : s.ts = w :: z)
    (hty : w.typ = .ident) (hf : n < 20 * s.ts.length + 7 → Pw) {α : Type} {Q : α → PS κ → Prop} {f : Option (PType δ) → P κ α}
    (h1 : ∀ ty s', In' I Good tl s' → s'.ts.length ≤ s.ts.length → gType u ty s.ts s'.ts → wp (f (some ty)) s' Q Pp Pw)
    (h2 : ∀ s', In' I Good tl s' → s'.ts = s.ts → wp (f none) s' Q Pp Pw) :
    wp (parseSubrangeIdent u D n >>= f) s Q Pp Pw := by
  unfold parseSubrangeIdent
  rw [P.bind_assoc]
  refine B.point hs ?_
  rw [P.bind_assoc]
  refine B.cur hs fun t ht => ?_
  have : w = t := by have := tok_of_cons hw; rw [ht] at this; cases this; rfl
  subst this
  rw [P.bind_assoc]
  refine B.next hs hw fun s1 k1 e1 => ?_
  have l1 : s.ts.length = s1.ts.length + 1 := by rw [hw, e1]; rfl
  rw [P.bind_assoc]
  refine B.is k1 (fun t2 ht2 c => ?_) (fun t2 ht2 c => ?_)
  · simp only [if_true]
    obtain ⟨ts, hts⟩ := tok_cons' (notEof_val (by decide)) ht2 c
    rw [P.bind_assoc]
    refine B.next k1 hts fun s2 k2 e2 => ?_
    have l2 : s1.ts.length = s2.ts.length + 1 := by rw [hts, e2]; rfl
    rw [P.bind_assoc]
    refine B.expr k2 (fun h => hf (by omega)) fun e s3 k3 l3 g3 => ?_
    show wp (f _) s3 Q Pp Pw
    refine h1 _ s3 k3 (by omega) ?_
    rw [gType]
    refine ⟨s1.ts, ⟨[w], by rw [hw, e1]; rfl, ?_⟩, s2.ts, ⟨t2, by rw [hts, e2], value_iff.1 c⟩, g3⟩
    exact leaves_one ⟨hty, rfl⟩
  · simp only [Bool.false_eq_true, if_false]
    rw [P.bind_assoc]
    exact wp_rollback B hs fun s' h e => h2 s' h e

theorem typeForIdent_sound (n : Nat) {s : PS κ} (hs : In' I Good tl s) {w : Token} {z : List Token} (hw : s.ts = w :: z)
    (hty : w.typ = .ident) (hf : n < 20 * s.ts.length + 7 → Pw) :
    wp (parseTypeForIdent u D n) s (fun a s' => In' I Good tl s' ∧ s'.ts.length ≤ s.ts.length ∧ gType u a s.ts s'.ts) Pp Pw := by
  unfold parseTypeForIdent
  refine (typeIdWithUnit_sound B n).bind hs (fun h => hf (by omega)) fun r s1 h1 l1 g1 => ?_
  cases r with
  | some t =>
    refine ⟨h1, l1, ?_⟩
    rw [gType]
    exact ⟨g1.2, w, z, hw, .inl hty⟩
  | none =>
    have g1 : s.ts = s1.ts := g1
    rw [g1] at hw hf ⊢
    refine emb_sound B _ h1 hw (.inl hty) (fun ty s' h l g => ⟨h, l, g⟩) ?_
    refine emb_sound B _ h1 hw (.inl hty) (fun ty s' h l g => ⟨h, l, g⟩) ?_
    refine emb_sound B _ h1 hw (.inl hty) (fun ty s' h l g => ⟨h, l, g⟩) ?_
    refine subrangeIdent_sound B n h1 hw hty hf (fun ty s' h l g => ⟨h, l, g⟩) ?_
    intro s2 h2 e2
    refine (typeIdWithoutUnit_sound B n).bind h2 (fun h => hf (by rw [e2] at h; omega)) fun t s3 h3 l3 ⟨g3, g4⟩ => ?_
    refine ⟨h3, by rw [e2] at l3; omega, ?_⟩
    rw [gType]
    refine ⟨?_, w, z, hw, .inl hty⟩
    unfold gTypeId
    rw [g3, ← e2]; exact g4

theorem constSubrange_sound (n : Nat) : TSound I Good tl Pp Pw (parseConstSubrange u D n) (gType u) n 7 := by
  intro s hs hf
  unfold parseConstSubrange
  refine B.expr hs (fun h => hf (by omega)) fun lo s1 h1 l1 g1 => ?_
  refine B.eat h1 (notEof_val (by decide)) fun t s2 ht h2 e2 => ?_
  have l2 : s1.ts.length = s2.ts.length + 1 := by rw [e2]; rfl
  refine B.expr h2 (fun h => hf (by omega)) fun hi s3 h3 l3 g3 => ?_
  refine ⟨h3, by omega, ?_⟩
  rw [gType]
  exact ⟨s1.ts, g1, s2.ts, ⟨t, e2, value_iff.1 ht⟩, g3⟩

theorem enumElem_sound (n : Nat) : ∀ s, In' I Good tl s → (n < 20 * s.ts.length → Pw) →
    wp (parseEnumElem u D n) s (fun e s' => ∃ t z, s.ts = t :: z ∧ In' I Good tl s' ∧ s'.ts.length + 1 ≤ z.length ∧
      gElem u e z s'.ts) Pp Pw := by
  intro s hs hf
  unfold parseEnumElem
  refine B.nextIs hs (fun t h => by rw [typ_iff.1 h]; decide) fun t0 t s1 ts1 ct h1 e1 e1' => ?_
  have ct := typ_iff.1 ct
  refine B.next h1 e1' fun s2 h2 e2 => ?_
  have l1 : s.ts.length = s1.ts.length + 1 := by rw [e1]; rfl
  have l2 : s1.ts.length = s2.ts.length + 1 := by rw [e1', e2]; rfl
  refine wp_then (Q1 := fun e s' => In' I Good tl s' ∧ s'.ts.length ≤ s2.ts.length ∧
    (match e with | none => eps | some x => symR u r!"=" ▹ gExpr u x) s2.ts s'.ts) ?_ ?_
  · refine B.opt h2 notEof_sym (fun t3 s3 c3 h3 e3 => ?_) (fun t3 ht3 c3 => ⟨h2, Nat.le_refl _, rfl⟩)
    have l3 : s2.ts.length = s3.ts.length + 1 := by rw [e3]; rfl
    refine B.expr h3 (fun h => hf (by omega)) fun e s4 h4 l4 g4 => ?_
    exact ⟨h4, by omega, s3.ts, ⟨t3, e3, symbol_iff.1 c3⟩, g4⟩
  · rintro e s3 ⟨h3, l3, g3⟩
    refine B.setDecl h3 fun s4 h4 e4 => ?_
    refine ⟨t0, s1.ts, e1, h4, by rw [e4]; omega, s2.ts, ⟨t, by rw [e1', e2], ct, rfl⟩, ?_⟩
    rw [e4]; exact g3

theorem enumElems_sound : ∀ n s, In' I Good tl s → (n < 20 * s.ts.length + 1 → Pw) →
    wp (parseEnumElems u D n) s (fun es s' => ∃ t z, s.ts = t :: z ∧ In' I Good tl s' ∧ s'.ts.length ≤ z.length ∧
      gElems u es z s'.ts ∧ ∃ c r, s'.ts = c :: r ∧ IsSym r!")" c) Pp Pw := by
  intro n
  induction n with
  | zero => intro s hs hf; exact hf (by omega)
  | succ n ih =>
    intro s hs hf
    rw [parseEnumElems]
    refine wp_then (enumElem_sound B n s hs (fun h => hf (by omega))) ?_
    rintro e s1 ⟨t, z, e1, h1, l1, g1⟩
    have l0 : s.ts.length = z.length + 1 := by rw [e1]; rfl
    refine B.cur h1 fun t2 ht2 => ?_
    refine wp_ite (fun c => ?_) (fun c => wp_ite (fun c2 => ?_) (fun _ => trivial))
    · obtain ⟨ts, hts⟩ := tok_cons' notEof_sym ht2 c
      have c' := symbol_iff.1 c
      exact ⟨t, z, e1, h1, by omega, ⟨s1.ts, g1, rfl, t2, ts, hts, c'⟩, t2, ts, hts, c'⟩
    · obtain ⟨ts, hts⟩ := tok_cons' notEof_sym ht2 c2
      refine wp_then (ih s1 h1 (fun h => hf (by omega))) ?_
      rintro rest s2 ⟨t3, z2, e3, h3, l3, g3, he⟩
      rw [hts] at e3; cases e3
      have : s1.ts.length = ts.length + 1 := by rw [hts]; rfl
      refine ⟨t, z, e1, h3, by omega, ?_, he⟩
      cases rest with
      | nil => exact g3.elim
      | cons r rs => exact ⟨s1.ts, g1, ts, ⟨t2, hts, symbol_iff.1 c2⟩, g3⟩

theorem enum_sound (n : Nat) {s : PS κ} (hs : In' I Good tl s) {w : Token} {z : List Token} (hw : s.ts = w :: z)
    (hsym : IsSym r!"(" w) (hf : n < 20 * s.ts.length + 1 → Pw) :
    wp (parseEnum u D n) s (fun a s' => In' I Good tl s' ∧ s'.ts.length ≤ s.ts.length ∧ gType u a s.ts s'.ts) Pp Pw := by
  unfold parseEnum
  refine wp_then (enumElems_sound B n s hs hf) ?_
  rintro es s1 ⟨t, z, e1, h1, l1, g1, c, r, e2, hc⟩
  rw [hw] at e1; cases e1
  refine B.next h1 e2 fun s2 h2 e3 => ?_
  refine ⟨h2, by rw [hw, e3]; rw [e2] at l1; simp at l1 ⊢; omega, ?_⟩
  rw [gType]
  exact ⟨z, ⟨w, hw, hsym⟩, s1.ts, g1, c, by rw [e2, e3], hc⟩

theorem stringType_sound (n : Nat) {s : PS κ} (hs : In' I Good tl s) {w : Token} {z : List Token} (hw : s.ts = w :: z)
    (hty : w.typ = .reserved) (hf : n < 20 * s.ts.length + 1 → Pw) :
    wp (parseStringType u D n) s (fun a s' => In' I Good tl s' ∧ s'.ts.length ≤ s.ts.length ∧ gType u a s.ts s'.ts) Pp Pw := by
  unfold parseStringType
  refine B.cur hs fun t ht => ?_
  have : w = t := by have := tok_of_cons hw; rw [ht] at this; cases this; rfl
  subst this
  cases D.emb .string (w.value u) with
  | none =>
    refine ⟨hs, Nat.le_refl _, ?_⟩
    rw [gType]
    exact ⟨rfl, w, z, hw, hty⟩
  | some d =>
    refine B.next hs hw fun s1 h1 e1 => ?_
    have l1 : s.ts.length = s1.ts.length + 1 := by rw [hw, e1]; rfl
    refine B.opt h1 notEof_sym (fun t2 s2 c2 h2 e2 => ?_) (fun t2 ht2 c2 => ?_)
    · have l2 : s1.ts.length = s2.ts.length + 1 := by rw [e2]; rfl
      refine B.expr h2 (fun h => hf (by omega)) fun e s3 h3 l3 g3 => ?_
      refine B.eatSym h3 fun t4 s4 c4 h4 e4 => ?_
      have l4 : s3.ts.length = s4.ts.length + 1 := by rw [e4]; rfl
      refine ⟨h4, by omega, ?_⟩
      rw [gType]
      exact ⟨s1.ts, ⟨w, by rw [hw, e1], rfl⟩, s2.ts, ⟨t2, e2, symbol_iff.1 c2⟩, s3.ts, g3, t4, e4, c4⟩
    · refine ⟨h1, by omega, ?_⟩
      rw [gType]
      exact ⟨.inl ⟨w, by rw [hw, e1], rfl⟩, w, z, hw, .inr hty⟩

theorem file_sound (packed : Bool) (n : Nat) : TSound I Good tl Pp Pw (parseFile u D packed)
    (fun a x y => ∃ t, a = .file packed t ∧ (kwR u r!"FILE" ▹ kwR u r!"OF" ▹ gTypeId u t) x y) n 1 := by
  intro s hs hf
  unfold parseFile
  refine B.eatKwP hs fun t1 s1 c1 h1 e1 => ?_
  refine B.eatKwP h1 fun t2 s2 c2 h2 e2 => ?_
  have l1 : s.ts.length = s1.ts.length + 1 := by rw [e1]; rfl
  have l2 : s1.ts.length = s2.ts.length + 1 := by rw [e2]; rfl
  refine (typeId_sound B n).bind h2 (fun h => hf (by omega)) fun t s3 h3 l3 g3 => ?_
  exact ⟨h3, by omega, t, rfl, s1.ts, ⟨t1, e1, c1⟩, s2.ts, ⟨t2, e2, c2⟩, g3⟩

theorem typeIds_sound : ∀ n, TSound I Good tl Pp Pw (parseTypeIds u D n)
    (fun l x y => gTypeIds u l x y ∧ ∃ c r, y = c :: r ∧ IsSym r!")" c) n 1 := by
  intro n
  induction n with
  | zero => intro s hs hf; exact hf (by omega)
  | succ n ih =>
    intro s hs hf
    rw [parseTypeIds]
    refine (typeId_sound B n).bind hs (fun h => hf (by omega)) fun t s1 h1 l1 g1 => ?_
    refine B.cur? h1 trivial fun t2 ht2 => ?_
    refine wp_ite (fun c => ?_) (fun c => wp_ite (fun c2 => ?_) (fun _ => trivial))
    · obtain ⟨ts, hts⟩ := tok_cons' notEof_sym ht2 c
      have c' := symbol_iff.1 c
      exact ⟨h1, l1, ⟨s1.ts, g1, rfl, t2, ts, hts, c'⟩, t2, ts, hts, c'⟩
    · obtain ⟨ts, hts⟩ := tok_cons' notEof_sym ht2 c2
      refine B.next h1 hts fun s2 h2 e2 => ?_
      have l2 : s1.ts.length = s2.ts.length + 1 := by rw [hts, e2]; rfl
      refine ih.bind h2 (fun h => hf (by omega)) fun rest s3 h3 l3 ⟨g3, he⟩ => ?_
      refine ⟨h3, by omega, ?_, he⟩
      cases rest with
      | nil => exact g3.elim
      | cons r rs => exact ⟨s1.ts, g1, s2.ts, ⟨t2, by rw [hts, e2], symbol_iff.1 c2⟩, g3⟩

theorem heritage_sound (n : Nat) : TSound I Good tl Pp Pw (parseHeritage u D n) (gHeritage u) n 1 := by
  unfold parseHeritage
  refine traced_sound B ?_
  intro s hs hf
  refine B.opt hs notEof_sym (fun t1 s1 c1 h1 e1 => ?_) (fun _ _ _ => ⟨hs, Nat.le_refl _, .inl ⟨rfl, rfl⟩⟩)
  have l1 : s.ts.length = s1.ts.length + 1 := by rw [e1]; rfl
  refine (typeIds_sound B n).bind h1 (fun h => hf (by omega)) fun l s2 h2 l2 ⟨g2, c, r, e2, hc⟩ => ?_
  refine B.next h2 e2 fun s3 h3 e3 => ?_
  have l3 : s2.ts.length = s3.ts.length + 1 := by rw [e2, e3]; rfl
  exact ⟨h3, by omega, .inr ⟨s1.ts, ⟨t1, e1, symbol_iff.1 c1⟩, s2.ts, g2, c, by rw [e2, e3], hc⟩⟩

omit B in
theorem visibility_iff {t : Token} : visibilityBreak u t = true ↔ IsVisibilityWord u t := by
  unfold visibilityBreak IsVisibilityWord
  rw [some_iff]; simp [upper_iff]
omit B in
theorem propertyBreak_iff {t : Token} : propertyBreak u t = true ↔ EndsProps u t := by
  unfold propertyBreak EndsProps
  rw [some_iff]; simp [visibility_iff, kw_iff]
omit B in
theorem methodBreak_iff {t : Token} : methodBreak u t = true ↔ EndsMethods u t := by
  unfold methodBreak EndsMethods
  rw [some_iff]; simp [propertyBreak_iff, kw_iff]
omit B in
theorem fieldListBreak_iff {t : Token} : fieldListBreak u t = true ↔ EndsFields u t := by
  unfold fieldListBreak EndsFields
  rw [some_iff]; simp [methodBreak_iff, kw_iff]

omit B in
theorem notEof_vis : NotEof (visibilityBreak u) := by
  intro t h
  rcases visibility_iff.1 h with h | h | h | h <;> exact .inr (up_raw h (by decide))
omit B in
theorem notEof_props : NotEof (propertyBreak u) := by
  intro t h
  rcases propertyBreak_iff.1 h with h | h
  · exact notEof_vis t (visibility_iff.2 h)
  · exact .inl (kw_ne_eof h)
omit B in
theorem notEof_methods : NotEof (methodBreak u) := by
  intro t h
  rcases methodBreak_iff.1 h with h | h
  · exact .inl (kw_ne_eof h)
  · exact notEof_props t (propertyBreak_iff.2 h)
omit B in
theorem notEof_fields : NotEof (fieldListBreak u) := by
  intro t h
  rcases fieldListBreak_iff.1 h with h | h | h | h | h
  · exact .inl (kw_ne_eof h)
  · exact .inl (kw_ne_eof h)
  · exact .inl (kw_ne_eof h)
  · exact .inl (kw_ne_eof h)
  · exact notEof_methods t (methodBreak_iff.2 h)

theorem methodDirectives_sound : ∀ n, TSound I Good tl Pp Pw (parseMethodDirectives u n : P κ _) (gDirectives u) n 1 := by
  intro n
  induction n with
  | zero => intro s hs hf; exact hf (by omega)
  | succ n ih =>
    intro s hs hf
    rw [parseMethodDirectives]
    refine B.cur hs fun t ht => ?_
    refine wp_ite (fun c => ?_) (fun _ => ⟨hs, Nat.le_refl _, rfl⟩)
    have cm : u.toUpper (u.toUpper (t.value u)) ∈ methodDirectives := by simpa using c
    have hne : t.raw ≠ [] := by
      intro e
      rw [value_ne_nil e, show u.toUpper (u.toUpper []) = [] from rfl] at cm
      exact absurd cm (by decide)
    obtain ⟨ts, hts⟩ := tok_cons_raw ht hne
    refine B.next hs hts fun s1 h1 e1 => ?_
    have l1 : s.ts.length = s1.ts.length + 1 := by rw [hts, e1]; rfl
    refine B.cur? h1 trivial fun t2 ht2 => ?_
    refine wp_ite (fun c => ?_) (fun c => wp_ite (fun c2 => ?_) (fun _ => trivial))
    · obtain ⟨ts2, hts2⟩ := tok_cons' notEof_methods ht2 c
      exact ⟨h1, by omega, cm, s1.ts, ⟨t, by rw [hts, e1], rfl⟩, .inl ⟨rfl, rfl, t2, ts2, hts2, methodBreak_iff.1 c⟩⟩
    · obtain ⟨ts2, hts2⟩ := tok_cons' notEof_sym ht2 c2
      refine B.next h1 hts2 fun s2 h2 e2 => ?_
      have l2 : s1.ts.length = s2.ts.length + 1 := by rw [hts2, e2]; rfl
      refine ih.bind h2 (fun h => hf (by omega)) fun rest s3 h3 l3 g3 => ?_
      exact ⟨h3, by omega, cm, s1.ts, ⟨t, by rw [hts, e1], rfl⟩,
        .inr ⟨s2.ts, ⟨t2, by rw [hts2, e2], symbol_iff.1 c2⟩, g3⟩⟩

theorem optSemi_sound (n : Nat) : TSound I Good tl Pp Pw (optSemi : P κ Unit) (fun _ => optSemiR u) n 0 := by
  intro s hs hf
  unfold optSemi
  have := B.opt hs (pred := sym r!";") notEof_sym (f := fun _ => (pure () : P κ Unit)) (g := pure ())
    (Q := fun _ s' => In' I Good tl s' ∧ s'.ts.length ≤ s.ts.length ∧ optSemiR u s.ts s'.ts)
    (fun t1 s1 c1 h1 e1 => ⟨h1, by rw [e1]; simp, .inl ⟨t1, e1, symbol_iff.1 c1⟩⟩)
    (fun _ _ _ => ⟨hs, Nat.le_refl _, .inr rfl⟩)
  rw [wp_bind] at this ⊢
  refine wp_mono this (fun b s' h => ?_) id id
  cases b with
  | false => exact h
  | true =>
    simp only [if_true] at h ⊢
    rw [wp_bind] at h
    exact wp_mono h (fun _ _ h => h) id id

theorem methodDirectiveList_sound (n : Nat) : TSound I Good tl Pp Pw (parseMethodDirectiveList u n : P κ _)
    (fun ds => optSemiR u ▹ gDirectives u ds) n 1 := by
  intro s hs hf
  unfold parseMethodDirectiveList
  refine (optSemi_sound B n).bind hs (fun h => hf (by omega)) fun _ s1 h1 l1 g1 => ?_
  refine wp_mono (traced_sound B (methodDirectives_sound B n) s1 h1 (fun h => hf (by omega))) ?_ id id
  rintro ds s2 ⟨h2, l2, g2⟩
  exact ⟨h2, by omega, s1.ts, g1, g2⟩

theorem visibility_sound (n : Nat) : TSound I Good tl Pp Pw (parseVisibility u : P κ _)
    (fun v x y => gVisibility u v x y ∧ (v ≠ .dflt → y.length < x.length) ∧ (v = .dflt → ∀ t z, x = t :: z → ¬ IsVisibilityWord u t)) n 1 := by
  intro s hs hf
  unfold parseVisibility
  refine B.current hs fun t ht hp => ?_
  obtain ⟨ts, hts⟩ := tok_cons' notEof_ident ht hp
  have hp := typ_iff.1 hp
  have key : ∀ (v : Visibility), v ≠ .dflt → (∀ x y, x = t :: y → gVisibility u v x y) →
      wp (P.next >>= fun _ => (pure v : P κ _)) s (fun v s' => In' I Good tl s' ∧ s'.ts.length ≤ s.ts.length ∧ (gVisibility u v s.ts s'.ts ∧
        (v ≠ .dflt → s'.ts.length < s.ts.length) ∧ (v = .dflt → ∀ t z, s.ts = t :: z → ¬ IsVisibilityWord u t))) Pp Pw := by
    intro v hv hg
    refine B.next hs hts fun s1 h1 e1 => ?_
    exact ⟨h1, by rw [hts, e1]; simp, hg _ _ (by rw [hts, e1]), fun _ => by rw [hts, e1]; simp, fun h => absurd h hv⟩
  refine wp_ite (fun c1 => ?_) (fun c1 => ?_)
  · exact key _ (by decide) fun x y h => ⟨t, h, hp, c1⟩
  refine wp_ite (fun c2 => ?_) (fun c2 => ?_)
  · exact key _ (by decide) fun x y h => ⟨t, h, hp, c2⟩
  refine wp_ite (fun c3 => ?_) (fun c3 => ?_)
  · exact key _ (by decide) fun x y h => ⟨t, h, hp, c3⟩
  refine wp_ite (fun c4 => ?_) (fun c4 => ?_)
  · exact key _ (by decide) fun x y h => ⟨t, h, hp, c4⟩
  have hv : ¬ IsVisibilityWord u t := by
    rintro (h | h | h | h)
    · exact c1 h
    · exact c2 h
    · exact c3 h
    · exact c4 h
  refine ⟨hs, Nat.le_refl _, ⟨rfl, t, ts, hts, hp, hv⟩, fun h => absurd rfl h, fun _ t' z e => ?_⟩
  rw [hts] at e; cases e
  exact hv

theorem destructor_sound (n : Nat) : TSound I Good tl Pp Pw (parseDestructor u : P κ (Heading δ)) (gHeading u) n 1 := by
  unfold parseDestructor
  refine traced_sound B ?_
  intro s hs hf
  refine B.eatKw hs fun t s1 ht h1 e1 => ?_
  have l1 : s.ts.length = s1.ts.length + 1 := by rw [e1]; rfl
  refine B.any h1 fun t2 s2 h2 l2 g2 => ?_
  refine ⟨h2, by omega, ?_⟩
  rw [gHeading]
  exact ⟨s1.ts, ⟨t, e1, ht⟩, g2⟩

theorem accessor_sound (h : List (TypeId δ)) (ms : Sects δ) {word : Str} (hw : word ≠ []) (n : Nat) :
    TSound I Good tl Pp Pw (parseAccessor u D h ms word) (gAccessor u word) n 1 := by
  intro s hs hf
  unfold parseAccessor
  refine B.opt hs (notEof_up hw) (fun t1 s1 c1 h1 e1 => ?_) (fun _ _ _ => ⟨hs, Nat.le_refl _, rfl⟩)
  have l1 : s.ts.length = s1.ts.length + 1 := by rw [e1]; rfl
  refine B.cur h1 fun t ht => ?_
  refine B.member' h1 fun d => ?_
  refine B.skip h1 fun s2 h2 e2 => ?_
  have := tail_le s1.ts
  exact ⟨h2, by rw [e2]; omega, s1.ts, ⟨t1, e1, upper_iff.1 c1⟩, by rw [e2]; exact anyAt_tok ht⟩

theorem propIndex_sound (n : Nat) : TSound I Good tl Pp Pw (parsePropIndex u D n) (gPropIndex u) n 1 := by
  intro s hs hf
  unfold parsePropIndex
  refine B.opt hs (notEof_up (by decide)) (fun t1 s1 c1 h1 e1 => ?_) (fun _ _ _ => ⟨hs, Nat.le_refl _, rfl⟩)
  have l1 : s.ts.length = s1.ts.length + 1 := by rw [e1]; rfl
  refine B.expr h1 (fun h => hf (by omega)) fun e s2 h2 l2 g2 => ?_
  exact ⟨h2, by omega, s1.ts, ⟨t1, e1, upper_iff.1 c1⟩, g2⟩

theorem stored_sound (h : List (TypeId δ)) (ms : Sects δ) (n : Nat) :
    TSound I Good tl Pp Pw (parseStored u D h ms) (gStored u) n 1 := by
  intro s hs hf
  unfold parseStored
  refine B.opt hs (notEof_up (by decide)) (fun t1 s1 c1 h1 e1 => ?_) (fun _ _ _ => ⟨hs, Nat.le_refl _, rfl⟩)
  have l1 : s.ts.length = s1.ts.length + 1 := by rw [e1]; rfl
  refine B.cur h1 fun t ht => ?_
  have hlow : ∀ v, v ≠ [] → u.toLower (t.value u) = v → t.raw ≠ [] := by
    intro v hv he hr
    rw [value_ne_nil hr] at he
    exact hv he.symm
  refine wp_ite (fun c => ?_) (fun c => wp_ite (fun c2 => ?_) (fun c2 => ?_))
  · obtain ⟨ts, hts⟩ := tok_cons_raw ht (hlow _ (by decide) c)
    refine B.next h1 hts fun s2 h2 e2 => ?_
    exact ⟨h2, by rw [e1, hts, e2]; simp; omega, s1.ts, ⟨t1, e1, upper_iff.1 c1⟩, t, by rw [hts, e2], c⟩
  · obtain ⟨ts, hts⟩ := tok_cons_raw ht (hlow _ (by decide) c2)
    refine B.next h1 hts fun s2 h2 e2 => ?_
    exact ⟨h2, by rw [e1, hts, e2]; simp; omega, s1.ts, ⟨t1, e1, upper_iff.1 c1⟩, t, by rw [hts, e2], c2⟩
  · refine B.member' h1 fun d => ?_
    refine B.skip h1 fun s2 h2 e2 => ?_
    have := tail_le s1.ts
    exact ⟨h2, by rw [e2]; omega, s1.ts, ⟨t1, e1, upper_iff.1 c1⟩, by rw [e2]; exact anyAt_tok ht⟩

theorem propDefault_sound (n : Nat) : TSound I Good tl Pp Pw (parseDefault u D n) (gPropDefault u) n 1 := by
  intro s hs hf
  unfold parseDefault
  refine B.opt hs (notEof_up (by decide)) (fun t1 s1 c1 h1 e1 => ?_) (fun _ _ _ => ?_)
  · have l1 : s.ts.length = s1.ts.length + 1 := by rw [e1]; rfl
    refine B.expr h1 (fun h => hf (by omega)) fun e s2 h2 l2 g2 => ?_
    exact ⟨h2, by omega, s1.ts, ⟨t1, e1, upper_iff.1 c1⟩, g2⟩
  · refine B.isL hs (notEof_up (by decide)) (fun t1 ts c1 e1 => ?_) (fun _ _ _ => ⟨hs, Nat.le_refl _, rfl⟩)
    exact ⟨hs, Nat.le_refl _, rfl, t1, ts, e1, upper_iff.1 c1⟩

theorem implements_sound (n : Nat) : TSound I Good tl Pp Pw (parseImplements u D) (gImplements u) n 1 := by
  intro s hs hf
  unfold parseImplements
  refine B.isL hs (notEof_up (by decide)) (fun t1 ts c1 e1 => ?_) (fun _ _ _ => ⟨hs, Nat.le_refl _, rfl⟩)
  refine (typeId_sound B n).bind hs (fun h => hf (by omega)) fun t s2 h2 l2 g2 => ?_
  exact ⟨h2, by omega, g2, t1, ts, e1, upper_iff.1 c1⟩

theorem parmOpt_sound (n : Nat) : TSound I Good tl Pp Pw (parseParmOpt u : P κ _) (gParmOpt u) n 0 := by
  intro s hs hf
  unfold parseParmOpt
  refine B.cur hs fun t ht => ?_
  refine wp_ite (fun cr => ?_) (fun _ => ⟨hs, Nat.le_refl _, rfl⟩)
  obtain ⟨ts, hts⟩ := tok_cons ht (by rw [cr]; decide)
  have key : ∀ (o : ParmOpt) (w : Str), (gParmOpt u (some o) = kwR u w) → t.value u = w →
      wp (P.next >>= fun _ => (pure (some o) : P κ _)) s (fun v s' => In' I Good tl s' ∧ s'.ts.length ≤ s.ts.length ∧
        gParmOpt u v s.ts s'.ts) Pp Pw := by
    intro o w hg hv
    refine B.next hs hts fun s1 h1 e1 => ?_
    refine ⟨h1, by rw [hts, e1]; simp, ?_⟩
    rw [hg]
    exact ⟨t, by rw [hts, e1], up_iff_kw.2 ⟨cr, hv⟩⟩
  refine wp_ite (fun c => key _ _ rfl c) (fun _ => ?_)
  refine wp_ite (fun c => key _ _ rfl c) (fun _ => ?_)
  exact wp_ite (fun c => key _ _ rfl c) (fun _ => trivial)

theorem parmDefault_sound (n : Nat) : TSound I Good tl Pp Pw (parseParmDefault u D n) (gDefault u) n 7 := by
  intro s hs hf
  unfold parseParmDefault
  refine B.opt hs notEof_sym (fun t1 s1 c1 h1 e1 => ?_) (fun _ _ _ => ⟨hs, Nat.le_refl _, rfl⟩)
  have l1 : s.ts.length = s1.ts.length + 1 := by rw [e1]; rfl
  refine B.expr h1 (fun h => hf (by omega)) fun e s2 h2 l2 g2 => ?_
  exact ⟨h2, by omega, s1.ts, ⟨t1, e1, symbol_iff.1 c1⟩, g2⟩

theorem return_sound (fn : Bool) (n : Nat) : TSound I Good tl Pp Pw (parseReturn u D fn) (gReturn u fn) n 0 := by
  intro s hs hf
  unfold parseReturn
  cases fn with
  | false => exact ⟨hs, Nat.le_refl _, rfl⟩
  | true =>
    simp only [if_true]
    refine B.eatSym hs fun t s1 ht h1 e1 => ?_
    have l1 : s.ts.length = s1.ts.length + 1 := by rw [e1]; rfl
    refine (typeId_sound B n).bind h1 (fun h => hf (by omega)) fun r s2 h2 l2 g2 => ?_
    exact ⟨h2, by omega, s1.ts, ⟨t, e1, ht⟩, g2⟩

theorem funcWord_sound {s : PS κ} (hs : In' I Good tl s) {α : Type} {Q : α → PS κ → Prop} {f : Bool → P κ α}
    (h : ∀ fn t ts, s.ts = t :: ts → (Leaf.val (if fn then r!"FUNCTION" else r!"PROCEDURE")).Is u t → wp (f fn) s Q Pp Pw) :
    wp (parseFuncWord u >>= f) s Q Pp Pw := by
  unfold parseFuncWord
  rw [P.bind_assoc]
  refine B.cur hs fun t ht => ?_
  refine wp_ite_bind (fun c => ?_) (fun _ => wp_ite_bind (fun c => ?_) (fun _ => trivial))
  · obtain ⟨ts, hts⟩ := tok_cons_raw ht (val_raw c (by decide))
    exact h true t ts hts c
  · obtain ⟨ts, hts⟩ := tok_cons_raw ht (val_raw c (by decide))
    exact h false t ts hts c

theorem ofObject_sound (n : Nat) : TSound I Good tl Pp Pw (parseOfObject u : P κ _) (gOfObject u) n 0 := by
  intro s hs hf
  unfold parseOfObject
  refine B.opt hs notEof_kw (fun t1 s1 c1 h1 e1 => ?_) (fun _ _ _ => ⟨hs, Nat.le_refl _, rfl⟩)
  refine B.eatKw h1 fun t2 s2 c2 h2 e2 => ?_
  exact ⟨h2, by rw [e1, e2]; simp; omega, s1.ts, ⟨t1, e1, kw_iff.1 c1⟩, t2, e2, c2⟩

theorem variantIdent_sound (n : Nat) : TSound I Good tl Pp Pw (parseVariantIdent D) (gVariantIdent u) n 0 := by
  intro s hs hf
  unfold parseVariantIdent
  refine B.point hs ?_
  refine B.eatIdent hs fun t s1 ht h1 e1 => ?_
  refine B.opt h1 notEof_sym (fun t2 s2 c2 h2 e2 => ?_) (fun _ _ _ => ?_)
  · exact ⟨h2, by rw [e1, e2]; simp; omega, s1.ts, ⟨t, e1, ht, rfl⟩, t2, e2, symbol_iff.1 c2⟩
  · refine wp_rollback B hs fun s' h e => ?_
    exact ⟨h, by rw [e]; omega, e.symm⟩

theorem constExprs_sound : ∀ n, TSound I Good tl Pp Pw (parseConstExprs u D n)
    (fun es x y => leaves u (flatExprs es) x y ∧ ∃ c r, y = c :: r ∧ IsSym r!":" c) n 8 := by
  intro n
  induction n with
  | zero => intro s hs hf; exact hf (by omega)
  | succ n ih =>
    intro s hs hf
    rw [parseConstExprs]
    refine B.expr hs (fun h => hf (by omega)) fun e s1 h1 l1 g1 => ?_
    refine B.cur? h1 trivial fun t2 ht2 => ?_
    refine wp_ite (fun c => ?_) (fun c => wp_ite (fun c2 => ?_) (fun _ => trivial))
    · obtain ⟨ts, hts⟩ := tok_cons' notEof_sym ht2 c
      exact ⟨h1, l1, g1, t2, ts, hts, symbol_iff.1 c⟩
    · obtain ⟨ts, hts⟩ := tok_cons' notEof_sym ht2 c2
      refine B.next h1 hts fun s2 h2 e2 => ?_
      have l2 : s1.ts.length = s2.ts.length + 1 := by rw [hts, e2]; rfl
      refine ih.bind h2 (fun h => hf (by omega)) fun rest s3 h3 l3 ⟨g3, he⟩ => ?_
      refine ⟨h3, by omega, ?_, he⟩
      obtain ⟨x, hx, lx⟩ := g1
      obtain ⟨y, hy, ly⟩ := g3
      refine ⟨x ++ t2 :: y, ?_, ?_⟩
      · rw [hx, hts, ← e2, hy]; simp
      · rw [flatExprs]
        exact leaves_append lx ⟨symbol_iff.1 c2, ly⟩

end

end TP
