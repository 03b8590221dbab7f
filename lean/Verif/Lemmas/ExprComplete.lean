import Verif.Lemmas.ExprSound

/-!
# Completeness of the expression parser

Every tree whose names fit the context is found again from its leaves, provided the next token cannot continue it.
-/

namespace TP
open Spec

variable {κ δ : Type}

/-- With enough fuel `p` started in `s` returns `a`, having consumed exactly `used`. -/
def Runs {α : Type} (E : Env κ δ) (p : Nat → P κ α) (s : PS κ) (used : List Token) (a : α) : Prop :=
  ∃ s', Adv E s used s' ∧ ∃ N, ∀ n, N ≤ n → p n s = .ok a s'

/-- the token that follows when the list is `rest` -/
def After (s : PS κ) (rest : List Token) (stops : Token → Prop) : Prop :=
  ∃ t, PS.tok? { s with ts := rest } = some t ∧ stops t

section
variable {α β : Type} {E : Env κ δ} {s : PS κ}

theorem Runs.pure {a : α} : Runs E (fun _ => (Pure.pure a : P κ α)) s [] a :=
  ⟨s, Adv.refl s, 0, fun _ _ => rfl⟩

theorem Runs.succ {p : Nat → P κ α} {used : List Token} {a : α} (h : Runs E (fun n => p (n + 1)) s used a) :
    Runs E p s used a := by
  obtain ⟨s', h1, N, h2⟩ := h
  refine ⟨s', h1, N + 1, fun n hn => ?_⟩
  obtain ⟨m, rfl⟩ : ∃ m, n = m + 1 := ⟨n - 1, by omega⟩
  exact h2 m (by omega)

theorem Runs.bind {p : Nat → P κ α} {f : Nat → α → P κ β} {u1 u2 : List Token} {a : α} {b : β}
    (h : Runs E p s u1 a) (hf : ∀ s1, Adv E s u1 s1 → Runs E (fun n => f n a) s1 u2 b) :
    Runs E (fun n => p n >>= f n) s (u1 ++ u2) b := by
  obtain ⟨s1, a1, N1, h1⟩ := h
  obtain ⟨s2, a2, N2, h2⟩ := hf s1 a1
  refine ⟨s2, a1.trans a2, max N1 N2, fun n hn => ?_⟩
  show P.bind (p n) (f n) s = _
  unfold P.bind
  rw [h1 n (by omega)]
  exact h2 n (by omega)

/-- a step that changes nothing -/
theorem Runs.look {q : P κ α} {f : Nat → α → P κ β} {used : List Token} {a : α} {b : β}
    (h : q s = .ok a s) (hf : Runs E (fun n => f n a) s used b) : Runs E (fun n => q >>= f n) s used b := by
  obtain ⟨s1, a1, N1, h1⟩ := hf
  refine ⟨s1, a1, N1, fun n hn => ?_⟩
  show P.bind q (f n) s = _
  unfold P.bind
  rw [h]
  exact h1 n hn

theorem cur?_run {t : Token} (h : s.tok? = some t) : P.cur? s = .ok (some t) s := by
  obtain ⟨ts, tl, cx⟩ := s
  cases ts with
  | cons => injection h with h; subst h; rfl
  | nil => cases tl <;> simp only [PS.tok?] at h <;> cases h; rfl

theorem cur_run {t : Token} (h : s.tok? = some t) : P.cur s = .ok t s := by
  obtain ⟨ts, tl, cx⟩ := s
  cases ts with
  | cons => injection h with h; subst h; rfl
  | nil => cases tl <;> simp only [PS.tok?] at h <;> cases h; rfl

theorem is_run {pred : Pred} {t : Token} (h : s.tok? = some t) : P.is pred s = .ok (pred t) s := by
  show P.bind P.cur _ s = _
  unfold P.bind
  rw [cur_run h]; rfl

theorem current_run {pred : Pred} {t : Token} (h : s.tok? = some t) (hp : pred t = true) :
    P.current pred s = .ok t s := by
  show P.bind P.cur? _ s = _
  unfold P.bind
  rw [cur?_run h]
  simp only [hp, if_true]; rfl

theorem next_run {t : Token} {ts : List Token} (h : s.ts = t :: ts) (hl : After s ts (fun _ => True)) :
    P.next s = .ok () { s with ts := ts } := by
  obtain ⟨ts', tl, cx⟩ := s
  cases h
  obtain ⟨t', h', -⟩ := hl
  cases ts with
  | cons => rfl
  | nil => cases tl <;> first | rfl | (simp [PS.tok?] at h')

theorem Runs.next {f : Nat → Unit → P κ β} {used : List Token} {b : β} {t : Token} {ts : List Token}
    (h : s.ts = t :: ts) (hl : After s ts (fun _ => True))
    (hf : ∀ s1, Adv E s [t] s1 → s1.ts = ts → s1.cx = s.cx → Runs E (fun n => f n ()) s1 used b) :
    Runs E (fun n => P.next >>= f n) s (t :: used) b := by
  have h0 := next_run h hl
  have a0 : Adv E s [t] { s with ts := ts } := ⟨h, rfl, .refl _⟩
  obtain ⟨s1, a1, N1, h1⟩ := hf _ a0 rfl rfl
  refine ⟨s1, a0.cons a1, N1, fun n hn => ?_⟩
  show P.bind _ (f n) s = _
  unfold P.bind
  rw [h0]
  exact h1 n hn

theorem After.mono {rest : List Token} {p q : Token → Prop} (h : After s rest p) (hpq : ∀ t, p t → q t) :
    After s rest q := h.imp fun _ h => ⟨h.1, hpq _ h.2⟩

theorem After.live {rest : List Token} {p : Token → Prop} (h : After s rest p) (x : List Token) :
    After s (x ++ rest) (fun _ => True) := by
  cases x with
  | nil => exact h.mono fun _ _ => trivial
  | cons t x => exact ⟨t, rfl, trivial⟩

theorem After.cons {t : Token} {ts : List Token} {p : Token → Prop} (h : p t) : After s (t :: ts) p := ⟨t, rfl, h⟩

theorem After.adv {s' : PS κ} {used rest : List Token} {p : Token → Prop} (h : After s rest p)
    (a : Adv E s used s') : After s' rest p := by
  obtain ⟨t, h1, h2⟩ := h
  refine ⟨t, ?_, h2⟩
  rw [← h1]
  unfold PS.tok?
  simp only [a.tail]

theorem After.tok {rest : List Token} {p : Token → Prop} (h : After s rest p) (e : s.ts = rest) :
    ∃ t, s.tok? = some t ∧ p t := by
  subst e; exact h

theorem adv_rest {s s' : PS κ} {x y : List Token} (e : s.ts = x ++ y) (a : Adv E s x s') : s'.ts = y := by
  have := a.ts
  rw [e] at this
  exact (List.append_cancel_left this).symm

end

/-- `p` finds `a` from its leaves `fl` if the token that follows satisfies `stops`. -/
def Complete {α : Type} (u : Uni) (E : Env κ δ) (R : Keep E) (tl : Tail) (p : Nat → P κ α) (a : α) (fl : List Leaf)
    (stops : Token → Prop) : Prop :=
  ∀ s used rest, In E R tl s → s.ts = used ++ rest → Leaves u fl used → After s rest stops → Runs E p s used a

/-! ## Which token follows -/

section
variable {u : Uni} {E : Env κ δ} {R : Keep E} {k0 : κ} {tl : Tail}

theorem not_op {syms words : List Str} {c : Str} {t : Token} (h : IsSym c t) (hc : c ∉ syms) :
    ¬ IsOp u syms words t := by
  rintro (⟨s, hs, h1⟩ | ⟨s, hs, h1⟩)
  · rw [← h.2, h1.2] at hc; exact hc hs
  · have := h1.1; rw [h.1] at this; cases this

theorem not_op_kw {syms words : List Str} {c : Str} {t : Token} (h : IsKw u c t) (hc : c ∉ words) :
    ¬ IsOp u syms words t := by
  rintro (⟨s, hs, h1⟩ | ⟨s, hs, h1⟩)
  · have := h.1; rw [h1.1] at this; cases this
  · rw [← h.2, h1.2] at hc; exact hc hs

theorem not_sym {c d : Str} {t : Token} (h : IsSym c t) (hc : c ≠ d) : ¬ IsSym d t := by
  intro h'; exact hc (h.2.symm.trans h'.2)

theorem not_sym_kw {c d : Str} {t : Token} (h : IsKw u c t) : ¬ IsSym d t := by
  intro h'; have := h.1; rw [h'.1] at this; cases this

theorem kw_stopsFactor {c : Str} {t : Token} (h : IsKw u c t) : StopsFactor t :=
  ⟨not_sym_kw h, not_sym_kw h, not_sym_kw h, not_sym_kw h⟩

theorem kw_stopsExpr {c : Str} {t : Token} (h : IsKw u c t) (h1 : c ∉ mulWords) (h2 : c ∉ addWords)
    (h3 : c ∉ relWords) : StopsExpr u t :=
  ⟨⟨⟨kw_stopsFactor h, not_op_kw h h1⟩, not_op_kw h h2⟩, not_op_kw h h3⟩

theorem sym_stopsFactor {c : Str} {t : Token} (h : IsSym c t) (hc : c ∉ [r!".", r!"[", r!"^", r!"("]) :
    StopsFactor t := by
  simp only [List.mem_cons, not_or] at hc
  exact ⟨not_sym h hc.1, not_sym h hc.2.1, not_sym h hc.2.2.1, not_sym h hc.2.2.2.1⟩

theorem sym_stopsExpr {c : Str} {t : Token} (h : IsSym c t) (hc : c ∉ [r!".", r!"[", r!"^", r!"("])
    (h1 : c ∉ mulSyms) (h2 : c ∉ addSyms) (h3 : c ∉ relSyms) : StopsExpr u t :=
  ⟨⟨⟨sym_stopsFactor h hc, not_op h h1⟩, not_op h h2⟩, not_op h h3⟩

theorem comma_stops {t : Token} (h : IsSym r!"," t) : StopsExpr u t :=
  sym_stopsExpr h (by decide) (by decide) (by decide) (by decide)

theorem rel_stops {t : Token} (h : IsOp u relSyms relWords t) : StopsSExpr u t := by
  rcases h with ⟨s, hs, h⟩ | ⟨s, hs, h⟩
  · have : ∀ s ∈ relSyms, s ∉ [r!".", r!"[", r!"^", r!"("] ∧ s ∉ mulSyms ∧ s ∉ addSyms := by decide
    obtain ⟨h1, h2, h3⟩ := this s hs
    exact ⟨⟨sym_stopsFactor h h1, not_op h h2⟩, not_op h h3⟩
  · have : ∀ s ∈ relWords, s ∉ mulWords ∧ s ∉ addWords := by decide
    obtain ⟨h1, h2⟩ := this s hs
    exact ⟨⟨kw_stopsFactor h, not_op_kw h h1⟩, not_op_kw h h2⟩

theorem add_stops {t : Token} (h : IsOp u addSyms addWords t) : StopsTerm u t := by
  rcases h with ⟨s, hs, h⟩ | ⟨s, hs, h⟩
  · have : ∀ s ∈ addSyms, s ∉ [r!".", r!"[", r!"^", r!"("] ∧ s ∉ mulSyms := by decide
    obtain ⟨h1, h2⟩ := this s hs
    exact ⟨sym_stopsFactor h h1, not_op h h2⟩
  · have : ∀ s ∈ addWords, s ∉ mulWords := by decide
    exact ⟨kw_stopsFactor h, not_op_kw h (this s hs)⟩

theorem mul_stops {t : Token} (h : IsOp u mulSyms mulWords t) : StopsFactor t := by
  rcases h with ⟨s, hs, h⟩ | ⟨s, hs, h⟩
  · have : ∀ s ∈ mulSyms, s ∉ [r!".", r!"[", r!"^", r!"("] := by decide
    exact sym_stopsFactor h (this s hs)
  · exact kw_stopsFactor h

theorem opLeaf_isOp {syms words : List Str} {op : Str} {t : Token} (h : op ∈ syms ∨ op ∈ words)
    (ht : (opLeaf op).Is u t) (hs : ∀ s ∈ syms, opLeaf s = .sym s) (hw : ∀ s ∈ words, opLeaf s = .kw s) :
    IsOp u syms words t ∧ t.value u = op := by
  rcases h with h | h
  · rw [hs op h] at ht
    exact ⟨.inl ⟨op, h, ht⟩, by rw [value_of_ne (by rw [ht.1]; decide), ht.2]⟩
  · rw [hw op h] at ht
    exact ⟨.inr ⟨op, h, ht⟩, by rw [value_reserved ht.1, ht.2]⟩

theorem rel_op {op : Str} {t : Token} (h : op ∈ relSyms ∨ op ∈ relWords) (ht : (opLeaf op).Is u t) :
    IsOp u relSyms relWords t ∧ t.value u = op := opLeaf_isOp h ht (by decide) (by decide)
theorem add_op {op : Str} {t : Token} (h : op ∈ addSyms ∨ op ∈ addWords) (ht : (opLeaf op).Is u t) :
    IsOp u addSyms addWords t ∧ t.value u = op := opLeaf_isOp h ht (by decide) (by decide)
theorem mul_op {op : Str} {t : Token} (h : op ∈ mulSyms ∨ op ∈ mulWords) (ht : (opLeaf op).Is u t) :
    IsOp u mulSyms mulWords t ∧ t.value u = op := opLeaf_isOp h ht (by decide) (by decide)

theorem follow_rel {r : RelTail δ} {y rest : List Token} {s : PS κ} (h : Leaves u (flatRel r) y)
    (f : FitsRel u E k0 r) (a : After s rest (StopsExpr u)) : After s (y ++ rest) (StopsSExpr u) := by
  cases r with
  | nil =>
    cases y with
    | nil => exact a.mono fun _ h => h.1
    | cons => exact h.elim
  | cons op se r =>
    obtain ⟨t, y, rfl, h1, -⟩ := leaves_uncons h
    exact .cons (rel_stops (rel_op f.1 h1).1)

theorem follow_add {r : AddTail δ} {y rest : List Token} {s : PS κ} (h : Leaves u (flatAdd r) y)
    (f : FitsAdd u E k0 r) (a : After s rest (StopsSExpr u)) : After s (y ++ rest) (StopsTerm u) := by
  cases r with
  | nil =>
    cases y with
    | nil => exact a.mono fun _ h => h.1
    | cons => exact h.elim
  | cons op se r =>
    obtain ⟨t, y, rfl, h1, -⟩ := leaves_uncons h
    exact .cons (add_stops (add_op f.1 h1).1)

theorem follow_mul {r : MulTail δ} {y rest : List Token} {s : PS κ} (h : Leaves u (flatMul r) y)
    (f : FitsMul u E k0 r) (a : After s rest (StopsTerm u)) : After s (y ++ rest) StopsFactor := by
  cases r with
  | nil =>
    cases y with
    | nil => exact a.mono fun _ h => h.1
    | cons => exact h.elim
  | cons op se r =>
    obtain ⟨t, y, rfl, h1, -⟩ := leaves_uncons h
    exact .cons (mul_stops (mul_op f.1 h1).1)

/-- the first token of a factor is no sign -/
theorem factor_head (f : Factor δ) {y : List Token} (h : Leaves u (flatFactor f) y) :
    ∃ t y', y = t :: y' ∧ ¬ ∃ s ∈ addSyms, IsSym s t := by
  have ident : ∀ i t, (Leaf.ident i).Is u t → ¬ ∃ s ∈ addSyms, IsSym s t := by
    rintro i t h ⟨s, -, h'⟩; have := h'.1; rw [h.1] at this; cases this
  have desig : ∀ (d : Desig δ) ls, Leaves u (flatDesig d ++ ls) y →
      ∃ t y', y = t :: y' ∧ ¬ ∃ s ∈ addSyms, IsSym s t := by
    intro d ls h
    obtain ⟨i, l, e, -⟩ := flatDesig_head d
    rw [e] at h
    obtain ⟨t, y', rfl, h1, -⟩ := leaves_uncons h
    exact ⟨t, y', rfl, ident i t h1⟩
  have sy : ∀ c ls, c ∉ addSyms → Leaves u (.sym c :: ls) y →
      ∃ t y', y = t :: y' ∧ ¬ ∃ s ∈ addSyms, IsSym s t := by
    intro c ls hc h
    obtain ⟨t, y', rfl, h1, -⟩ := leaves_uncons h
    refine ⟨t, y', rfl, ?_⟩
    rintro ⟨s, hs, h'⟩
    have : c = s := h1.2.symm.trans h'.2
    rw [this] at hc; exact hc hs
  have other : ∀ l ls, (∀ t, l.Is u t → t.typ ≠ .symbol) → Leaves u (l :: ls) y →
      ∃ t y', y = t :: y' ∧ ¬ ∃ s ∈ addSyms, IsSym s t := by
    intro l ls hl h
    obtain ⟨t, y', rfl, h1, -⟩ := leaves_uncons h
    refine ⟨t, y', rfl, ?_⟩
    rintro ⟨s, hs, h'⟩
    exact hl t h1 h'.1
  cases f with
  | desig d => exact desig d [] (by rw [List.append_nil]; exact h)
  | call d args => exact desig d _ h
  | addr d => exact sy _ _ (by decide) h
  | paren e => exact sy _ _ (by decide) h
  | set es => exact sy _ _ (by decide) h
  | value v => exact other (.word v) _ (fun t h => h.1) h
  | str v => exact other (.str v) _ (fun t h => by rw [h.1]; decide) h
  | num v => exact other (.num v) _ (fun t h => by rcases h.1 with h | h <;> rw [h] <;> decide) h
  | nil => exact other (.kw _) _ (fun t h => by rw [h.1]; decide) h
  | not f => exact other (.kw _) _ (fun t h => by rw [h.1]; decide) h
  | cast t e => exact other (.ident _) _ (fun t h => by rw [h.1]; decide) h

theorem tok_of {s : PS κ} {t : Token} {ts : List Token} (h : s.ts = t :: ts) : s.tok? = some t := by
  obtain ⟨a, b, c⟩ := s
  cases h; rfl


theorem get_run {s : PS κ} (name : Str) : getDecl E name s = .ok (E.get s.cx name) s := rfl

theorem qual_runs (L : Answers E R k0) {q : QualId δ} (hq : FitsQual E k0 q) :
    Complete u E R tl (fun _ => parseQualId u E) q (flatQual q) (fun _ => True) := by
  intro s used rest hs hts hl ha
  have hg : ∀ name, E.get s.cx name = E.get k0 name := L.get _ hs.cx
  have hmem : ∀ d name, E.member s.cx d name = E.member k0 d name := L.member _ hs.cx
  obtain ⟨ns, id, ref⟩ := q
  cases ns with
  | none =>
    obtain ⟨t, y, rfl, ⟨h1, h2⟩, hy⟩ := leaves_uncons hl
    cases y with
    | cons => exact hy.elim
    | nil =>
      simp only at h2
      subst h2
      obtain ⟨q1, q2⟩ := hq
      simp only at q1 q2
      subst q2
      unfold parseQualId
      refine Runs.look (current_run (tok_of hts) (identP_iff.2 h1)) ?_
      refine Runs.look (get_run _) ?_
      have hv : t.value u = t.raw := value_of_ne (by rw [h1]; decide)
      have fin : Runs E (fun _ => (do P.next; let r ← getDecl E t.raw; pure ⟨none, ⟨Ident.ofTok t, r⟩⟩ : P κ (QualId δ)))
          s [t] ⟨none, ⟨Ident.ofTok t, E.get k0 t.raw⟩⟩ := by
        refine Runs.next hts (ha.live []) fun s1 a1 e1 c1 => ?_
        refine Runs.look (get_run _) ?_
        rw [c1, hg]
        exact Runs.pure
      rw [hv, hg]
      cases hd : E.get k0 t.raw with
      | none => rw [hd] at fin; exact fin
      | some d =>
        rw [hd] at fin
        have : ¬ ((E.isNamespace d || E.isUses d) = true) := fun h => q1 ⟨d, hd, h⟩
        simp only [if_neg this]
        exact fin
  | some n =>
    obtain ⟨t, y, rfl, ⟨h1, h2⟩, hy⟩ := leaves_uncons hl
    obtain ⟨t2, y, rfl, h3, hy⟩ := leaves_uncons hy
    obtain ⟨t3, y, rfl, ⟨h4, h5⟩, hy⟩ := leaves_uncons hy
    cases y with
    | cons => exact hy.elim
    | nil =>
      obtain ⟨ni, nr⟩ := n
      simp only at h2 h5
      subst h2 h5
      obtain ⟨d, m, q1, q2, q3, q4, q5⟩ := hq
      simp only at q1 q3 q4 q5
      subst q3 q5
      unfold parseQualId
      refine Runs.look (current_run (tok_of hts) (identP_iff.2 h1)) ?_
      refine Runs.look (get_run _) ?_
      have hv : t.value u = t.raw := value_of_ne (by rw [h1]; decide)
      rw [hv, hg, q1]
      simp only [if_pos q2]
      unfold P.nextIs
      have e1 : (P.next >>= fun _ => P.current (sym r!".")) s = .ok t2 { s with ts := t2 :: ([t3] ++ rest) } := by
        show P.bind P.next _ s = _
        unfold P.bind
        rw [next_run hts (ha.live [t2, t3])]
        exact current_run rfl (symbol_iff.2 h3)
      have e2 : (P.next >>= fun _ => P.current (Pred.typ .ident)) { s with ts := t2 :: ([t3] ++ rest) } =
          .ok t3 { s with ts := [t3] ++ rest } := by
        show P.bind P.next _ _ = _
        unfold P.bind
        rw [next_run rfl ⟨t3, rfl, trivial⟩]
        exact current_run rfl (typ_iff.2 h4)
      have e3 : P.next { s with ts := [t3] ++ rest } = .ok () { s with ts := rest } := next_run rfl (ha.live [])
      refine ⟨{ s with ts := rest }, ⟨by rw [hts], rfl, .refl _⟩, 0, fun _ _ => ?_⟩
      show P.bind _ _ s = _
      unfold P.bind
      rw [e1]
      show P.bind _ _ _ = _
      unfold P.bind
      rw [e2]
      have hv3 : t3.value u = t3.raw := value_of_ne (by rw [h4]; decide)
      simp only [hv3, hmem, q4]
      show P.bind _ _ _ = _
      unfold P.bind
      rw [e3]
      rfl


theorem tok_append {s : PS κ} {x : List Token} {t : Token} {y : List Token} (h : s.ts = x ++ t :: y) :
    PS.tok? { s with ts := x ++ t :: y } = some ((x ++ t :: y).head (by simp)) := by
  cases x <;> rfl

theorem rollback_run {s : PS κ} {t : Token} (h : s.tok? = some t) : rollbackPoint s = .ok s s := by
  unfold rollbackPoint
  rw [cur_run h]

/-- `ParseFactor` on the tokens of a designator reaches the designator branch. -/
theorem desig_factor (L : Answers E R k0) (d : Desig δ) {a : Factor δ} {s : PS κ} {x x' rest : List Token}
    (f1 : FitsDesig u E k0 d) (f2 : ¬ Manifest u (headName d)) (hs : In E R tl s) (hts : s.ts = x ++ rest)
    (hl : Leaves u (flatDesig d) x) (ha : After s (x ++ rest) (fun _ => True))
    (hcast : IsBare d → IsTypeName E k0 (headName d) → After s rest (fun t => ¬ IsSym r!"(" t))
    (hr : ∀ s', In E R tl s' → s'.ts = x ++ rest → s'.tail = s.tail → Runs E (parseDesigFactor u E) s' x' a) :
    Runs E (parseFactor u E) s x' a := by
  obtain ⟨i, fl, hfl, hi⟩ := flatDesig_head d
  have hl' := hl
  rw [hfl] at hl'
  obtain ⟨t, y, rfl, ⟨h1, h2⟩, hy⟩ := leaves_uncons hl'
  have hname : headName d = t.raw := by rw [← hi, h2]
  rw [hname] at f2 hcast
  refine Runs.succ ?_
  simp only [parseFactor]
  refine Runs.look (cur_run (tok_of hts)) ?_
  have n1 : t.typ ≠ .symbol := by rw [h1]; decide
  have n2 : t.typ ≠ .reserved := by rw [h1]; decide
  have n3 : t.typ ≠ .charString := by rw [h1]; decide
  have n4 : ¬ (t.typ = .numInt ∨ t.typ = .numReal) := by rw [h1]; decide
  have hv : t.value u = t.raw := value_of_ne n2
  have hm : ¬ isManifest u t.raw = true := by rw [manifest_iff]; exact f2
  simp only [if_neg n1, if_neg n2, hv, if_neg hm, if_neg n3, if_neg n4, if_pos h1]
  refine Runs.look (get_run _) ?_
  rw [L.get _ hs.cx]
  cases hd : E.get k0 t.raw with
  | none => exact hr s hs hts rfl
  | some e =>
    by_cases hty : E.isType e = true
    · simp only [if_pos hty]
      refine Runs.look (rollback_run (tok_of hts)) ?_
      -- the token after the name
      have hnext : After s (y ++ rest) (fun t => ¬ IsSym r!"(" t) := by
        by_cases hb : IsBare d
        · have := leaves_length hl
          rw [flatDesig_bare d hb] at this
          have hy0 : y = [] := by cases y with | nil => rfl | cons => simp at this
          subst hy0
          exact hcast hb ⟨e, hd, hty⟩
        · obtain ⟨⟨ns, id⟩, items⟩ := d
          cases ns with
          | some n =>
            obtain ⟨t2, y2, hy2, l2, -⟩ := leaves_uncons hl.2
            rw [hy2]
            exact .cons (not_sym l2 (by decide))
          | none =>
            have l2 : Leaves u (flatItems items) y := hl.2
            cases items with
            | nil => exact absurd ⟨rfl, rfl⟩ hb
            | ident i r =>
              obtain ⟨t2, y2, rfl, l2, -⟩ := leaves_uncons l2
              exact .cons (not_sym l2 (by decide))
            | index i r =>
              obtain ⟨t2, y2, rfl, l2, -⟩ := leaves_uncons l2
              exact .cons (not_sym l2 (by decide))
            | deref r =>
              obtain ⟨t2, y2, rfl, l2, -⟩ := leaves_uncons l2
              exact .cons (not_sym l2 (by decide))
      obtain ⟨t2, h3, h4⟩ := hnext
      have e1 : P.next s = .ok () { s with ts := y ++ rest } := next_run hts ⟨t2, h3, trivial⟩
      have hs' : In E R tl { s with cx := E.rollback s.cx } := ⟨hs.tail, R.roll _ hs.cx, hs.good⟩
      obtain ⟨s1, a1, N, hN⟩ := hr { s with cx := E.rollback s.cx } hs' hts rfl
      refine ⟨s1, ⟨a1.ts, a1.tail, .step a1.cx⟩, N, fun n hn => ?_⟩
      show P.bind P.next _ s = _
      unfold P.bind
      rw [e1]
      show P.bind (P.is _) _ _ = _
      unfold P.bind
      rw [is_run h3]
      rw [← symbol_iff] at h4
      simp only [h4]
      exact hN n hn
    · simp only [if_neg hty]
      exact hr s hs hts rfl

end

/-! ## Trees -/

section
variable {u : Uni} {E : Env κ δ} {R : Keep E} {k0 : κ} {tl : Tail} (L : Answers E R k0)

set_option linter.unusedSectionVars false
include L

/-- cannot continue a designator -/
def StopsDesig (t : Token) : Prop := ¬ IsSym r!"." t ∧ ¬ IsSym r!"[" t ∧ ¬ IsSym r!"^" t

/-- cannot continue an element of a set -/
def StopsElem (u : Uni) (t : Token) : Prop := StopsExpr u t ∧ ¬ IsSym r!".." t

mutual
theorem expr_complete : ∀ e : Expr δ, FitsExpr u E k0 e →
    Complete u E R tl (parseExpr u E) e (flatExpr e) (StopsExpr u)
  | .mk se r, hf => by
    intro s used rest hs hts hl ha
    obtain ⟨f1, f2⟩ := hf
    obtain ⟨x, y, rfl, l1, l2⟩ := leaves_split hl
    rw [List.append_assoc] at hts
    refine Runs.succ ?_
    simp only [parseExpr]
    refine Runs.bind (sexpr_complete se f1 s x _ hs hts l1 (follow_rel l2 f2 ha)) fun s1 a1 => ?_
    have e1 := adv_rest hts a1
    rw [← List.append_nil y]
    refine Runs.bind (rel_complete r f2 s1 y _ (hs.adv a1) e1 l2 (ha.adv a1)) fun s2 a2 => ?_
    exact Runs.pure

theorem rel_complete : ∀ r : RelTail δ, FitsRel u E k0 r →
    Complete u E R tl (parseRelTail u E) r (flatRel r) (StopsExpr u)
  | .nil, hf => by
    intro s used rest hs hts hl ha
    cases used with
    | cons => exact hl.elim
    | nil =>
      obtain ⟨t, ht, hst⟩ := ha.tok hts
      refine Runs.succ ?_
      simp only [parseRelTail]
      refine Runs.look (is_run ht) ?_
      have : ¬ relOp u t = true := by rw [relOp_iff]; exact hst.2
      simp only [if_neg this]
      exact Runs.pure
  | .cons op se r, hf => by
    intro s used rest hs hts hl ha
    obtain ⟨f0, f1, f2⟩ := hf
    obtain ⟨t, y, rfl, l0, hl⟩ := leaves_uncons hl
    obtain ⟨x, y, rfl, l1, l2⟩ := leaves_split hl
    obtain ⟨o1, o2⟩ := rel_op f0 l0
    refine Runs.succ ?_
    simp only [parseRelTail]
    refine Runs.look (is_run (tok_of hts)) ?_
    simp only [if_pos (relOp_iff.2 o1)]
    refine Runs.look (cur_run (tok_of hts)) ?_
    refine Runs.next hts (ha.live _) fun s1 a1 e1 _ => ?_
    replace e1 : s1.ts = x ++ (y ++ rest) := e1.trans (List.append_assoc ..)
    have ha1 := ha.adv a1
    refine Runs.bind (sexpr_complete se f1 s1 x _ (hs.adv a1) e1 l1 (follow_rel l2 f2 ha1)) fun s2 a2 => ?_
    have e2 := adv_rest e1 a2
    rw [← List.append_nil y]
    refine Runs.bind (rel_complete r f2 s2 y _ ((hs.adv a1).adv a2) e2 l2 (ha1.adv a2)) fun s3 a3 => ?_
    rw [o2]
    exact Runs.pure

theorem sexpr_complete : ∀ e : SExpr δ, FitsSExpr u E k0 e →
    Complete u E R tl (parseSExpr u E) e (flatSExpr e) (StopsSExpr u)
  | .mk none tm r, hf => by
    intro s used rest hs hts hl ha
    obtain ⟨f0, f1, f2⟩ := hf
    obtain ⟨x, y, rfl, l1, l2⟩ := leaves_split hl
    rw [List.append_assoc] at hts
    have hd : ∃ t x', x = t :: x' ∧ ¬ ∃ s ∈ addSyms, IsSym s t := by
      obtain ⟨f, m⟩ := tm
      obtain ⟨x1, x2, rfl, l3, -⟩ := leaves_split l1
      obtain ⟨t, x', rfl, h⟩ := factor_head f l3
      exact ⟨t, x' ++ x2, rfl, h⟩
    obtain ⟨t, x', rfl, hd⟩ := hd
    refine Runs.succ ?_
    simp only [parseSExpr]
    refine Runs.look (is_run (tok_of hts)) ?_
    rw [← unaryOp_iff] at hd
    simp only [if_neg hd]
    refine Runs.bind (term_complete tm f1 s _ _ hs hts l1 (follow_add l2 f2 ha)) fun s1 a1 => ?_
    have e1 := adv_rest hts a1
    rw [← List.append_nil y]
    refine Runs.bind (add_complete r f2 s1 y _ (hs.adv a1) e1 l2 (ha.adv a1)) fun s2 a2 => ?_
    exact Runs.pure
  | .mk (some op) tm r, hf => by
    intro s used rest hs hts hl ha
    obtain ⟨f0, f1, f2⟩ := hf
    obtain ⟨t, y, rfl, l0, hl⟩ := leaves_uncons hl
    obtain ⟨x, y, rfl, l1, l2⟩ := leaves_split hl
    refine Runs.succ ?_
    simp only [parseSExpr]
    refine Runs.look (is_run (tok_of hts)) ?_
    have h : unaryOp t = true := unaryOp_iff.2 ⟨op, f0 op rfl, l0⟩
    simp only [if_pos h]
    refine Runs.look (cur_run (tok_of hts)) ?_
    refine Runs.next hts (ha.live _) fun s1 a1 e1 _ => ?_
    replace e1 : s1.ts = x ++ (y ++ rest) := e1.trans (List.append_assoc ..)
    have ha1 := ha.adv a1
    refine Runs.bind (term_complete tm f1 s1 x _ (hs.adv a1) e1 l1 (follow_add l2 f2 ha1)) fun s2 a2 => ?_
    have e2 := adv_rest e1 a2
    rw [← List.append_nil y]
    refine Runs.bind (add_complete r f2 s2 y _ ((hs.adv a1).adv a2) e2 l2 (ha1.adv a2)) fun s3 a3 => ?_
    rw [value_of_ne (by rw [l0.1]; decide), l0.2]
    exact Runs.pure

theorem add_complete : ∀ r : AddTail δ, FitsAdd u E k0 r →
    Complete u E R tl (parseAddTail u E) r (flatAdd r) (StopsSExpr u)
  | .nil, hf => by
    intro s used rest hs hts hl ha
    cases used with
    | cons => exact hl.elim
    | nil =>
      obtain ⟨t, ht, hst⟩ := ha.tok hts
      refine Runs.succ ?_
      simp only [parseAddTail]
      refine Runs.look (is_run ht) ?_
      have : ¬ addOp u t = true := by rw [addOp_iff]; exact hst.2
      simp only [if_neg this]
      exact Runs.pure
  | .cons op tm r, hf => by
    intro s used rest hs hts hl ha
    obtain ⟨f0, f1, f2⟩ := hf
    obtain ⟨t, y, rfl, l0, hl⟩ := leaves_uncons hl
    obtain ⟨x, y, rfl, l1, l2⟩ := leaves_split hl
    obtain ⟨o1, o2⟩ := add_op f0 l0
    refine Runs.succ ?_
    simp only [parseAddTail]
    refine Runs.look (is_run (tok_of hts)) ?_
    simp only [if_pos (addOp_iff.2 o1)]
    refine Runs.look (cur_run (tok_of hts)) ?_
    refine Runs.next hts (ha.live _) fun s1 a1 e1 _ => ?_
    replace e1 : s1.ts = x ++ (y ++ rest) := e1.trans (List.append_assoc ..)
    have ha1 := ha.adv a1
    refine Runs.bind (term_complete tm f1 s1 x _ (hs.adv a1) e1 l1 (follow_add l2 f2 ha1)) fun s2 a2 => ?_
    have e2 := adv_rest e1 a2
    rw [← List.append_nil y]
    refine Runs.bind (add_complete r f2 s2 y _ ((hs.adv a1).adv a2) e2 l2 (ha1.adv a2)) fun s3 a3 => ?_
    rw [o2]
    exact Runs.pure

theorem term_complete : ∀ e : Term δ, FitsTerm u E k0 e →
    Complete u E R tl (parseTerm u E) e (flatTerm e) (StopsTerm u)
  | .mk f r, hf => by
    intro s used rest hs hts hl ha
    obtain ⟨f1, f2⟩ := hf
    obtain ⟨x, y, rfl, l1, l2⟩ := leaves_split hl
    rw [List.append_assoc] at hts
    refine Runs.succ ?_
    simp only [parseTerm]
    refine Runs.bind (factor_complete f f1 s x _ hs hts l1 (follow_mul l2 f2 ha)) fun s1 a1 => ?_
    have e1 := adv_rest hts a1
    rw [← List.append_nil y]
    refine Runs.bind (mul_complete r f2 s1 y _ (hs.adv a1) e1 l2 (ha.adv a1)) fun s2 a2 => ?_
    exact Runs.pure

theorem mul_complete : ∀ r : MulTail δ, FitsMul u E k0 r →
    Complete u E R tl (parseMulTail u E) r (flatMul r) (StopsTerm u)
  | .nil, hf => by
    intro s used rest hs hts hl ha
    cases used with
    | cons => exact hl.elim
    | nil =>
      obtain ⟨t, ht, hst⟩ := ha.tok hts
      refine Runs.succ ?_
      simp only [parseMulTail]
      refine Runs.look (is_run ht) ?_
      have : ¬ mulOp u t = true := by rw [mulOp_iff]; exact hst.2
      simp only [if_neg this]
      exact Runs.pure
  | .cons op f r, hf => by
    intro s used rest hs hts hl ha
    obtain ⟨f0, f1, f2⟩ := hf
    obtain ⟨t, y, rfl, l0, hl⟩ := leaves_uncons hl
    obtain ⟨x, y, rfl, l1, l2⟩ := leaves_split hl
    obtain ⟨o1, o2⟩ := mul_op f0 l0
    refine Runs.succ ?_
    simp only [parseMulTail]
    refine Runs.look (is_run (tok_of hts)) ?_
    simp only [if_pos (mulOp_iff.2 o1)]
    refine Runs.look (cur_run (tok_of hts)) ?_
    refine Runs.next hts (ha.live _) fun s1 a1 e1 _ => ?_
    replace e1 : s1.ts = x ++ (y ++ rest) := e1.trans (List.append_assoc ..)
    have ha1 := ha.adv a1
    refine Runs.bind (factor_complete f f1 s1 x _ (hs.adv a1) e1 l1 (follow_mul l2 f2 ha1)) fun s2 a2 => ?_
    have e2 := adv_rest e1 a2
    rw [← List.append_nil y]
    refine Runs.bind (mul_complete r f2 s2 y _ ((hs.adv a1).adv a2) e2 l2 (ha1.adv a2)) fun s3 a3 => ?_
    rw [o2]
    exact Runs.pure

theorem factor_complete : ∀ f : Factor δ, FitsFactor u E k0 f →
    Complete u E R tl (parseFactor u E) f (flatFactor f) StopsFactor
  | .desig d, hf => by
    intro s used rest hs hts hl ha
    obtain ⟨f1, f2⟩ := hf
    refine desig_factor L d f1 f2 hs hts hl (ha.live _) ?_ ?_
    · intro hb hty
      obtain ⟨t, h1, h2⟩ := ha
      exact ⟨t, h1, h2.2.2.2⟩
    · intro s' hs' hts' tl'
      have ha' : After s' rest StopsFactor := by
        obtain ⟨t, h1, h2⟩ := ha
        refine ⟨t, ?_, h2⟩
        rw [← h1]; unfold PS.tok?; simp only [tl']
      refine Runs.succ ?_
      simp only [parseDesigFactor]
      rw [← List.append_nil used]
      refine Runs.bind (desig_complete d f1 s' _ _ hs' hts' hl (ha'.mono fun _ h => ⟨h.1, h.2.1, h.2.2.1⟩)) fun s1 a1 => ?_
      obtain ⟨t, ht, hst⟩ := (ha'.adv a1).tok (adv_rest hts' a1)
      refine Runs.look (is_run ht) ?_
      have : ¬ sym r!"(" t = true := by rw [symbol_iff]; exact hst.2.2.2
      simp only [if_neg this]
      exact Runs.pure
  | .call d args, hf => by
    intro s used rest hs hts hl ha
    obtain ⟨f1, f2, f3, f4⟩ := hf
    obtain ⟨x, y, rfl, l1, hl⟩ := leaves_split hl
    obtain ⟨p, y, rfl, l2, hl⟩ := leaves_uncons hl
    obtain ⟨y, z, rfl, l3, hl⟩ := leaves_split hl
    obtain ⟨c, z, rfl, l4, hl⟩ := leaves_uncons hl
    cases z with
    | cons => exact hl.elim
    | nil =>
    have hts : s.ts = x ++ (p :: (y ++ c :: rest)) := by rw [hts]; simp
    refine desig_factor L d f1 f2 hs hts l1 ⟨_, tok_append hts, trivial⟩ ?_ ?_
    · intro hb hty
      exact absurd ⟨hb, hty⟩ f3
    · intro s' hs' hts' tl'
      have ha' : After s' rest StopsFactor := by
        obtain ⟨t, h1, h2⟩ := ha
        refine ⟨t, ?_, h2⟩
        rw [← h1]; unfold PS.tok?; simp only [tl']
      refine Runs.succ ?_
      simp only [parseDesigFactor]
      refine Runs.bind (desig_complete d f1 s' _ _ hs' hts' l1 (.cons ?_)) fun s1 a1 => ?_
      · exact ⟨not_sym l2 (by decide), not_sym l2 (by decide), not_sym l2 (by decide)⟩
      have e1 := adv_rest hts' a1
      refine Runs.look (is_run (tok_of e1)) ?_
      simp only [if_pos (symbol_iff.2 l2)]
      have ha1 := ha'.adv a1
      refine Runs.next e1 (by simpa using ha1.live (y ++ [c])) fun s2 a2 e2 _ => ?_
      have ha2 := ha1.adv a2
      refine Runs.bind (exprs_complete r!")" (by decide) (by decide) args f4 s2 _ _ ((hs'.adv a1).adv a2) e2 l3
        (.cons l4)) fun s3 a3 => ?_
      refine Runs.next (adv_rest e2 a3) ((ha2.adv a3).live []) fun s4 a4 e4 _ => ?_
      exact Runs.pure
  | .addr d, hf => by
    intro s used rest hs hts hl ha
    obtain ⟨t, y, rfl, l0, hl⟩ := leaves_uncons hl
    refine Runs.succ ?_
    simp only [parseFactor]
    refine Runs.look (cur_run (tok_of hts)) ?_
    simp only [if_pos l0.1]
    have hv : t.value u = r!"@" := by rw [value_of_ne (by rw [l0.1]; decide), l0.2]
    simp only [if_pos hv]
    refine Runs.next hts (ha.live _) fun s1 a1 e1 _ => ?_
    rw [← List.append_nil y]
    refine Runs.bind (desig_complete d hf s1 y _ (hs.adv a1) e1 hl
      ((ha.adv a1).mono fun _ h => ⟨h.1, h.2.1, h.2.2.1⟩)) fun s2 a2 => ?_
    exact Runs.pure
  | .value v, hf => by
    intro s used rest hs hts hl ha
    obtain ⟨t, y, rfl, l0, hl⟩ := leaves_uncons hl
    cases y with
    | cons => exact hl.elim
    | nil =>
    obtain ⟨h1, h2, h3⟩ := l0
    subst h3
    refine Runs.succ ?_
    simp only [parseFactor]
    refine Runs.look (cur_run (tok_of hts)) ?_
    have hv : t.value u = t.raw := value_of_ne h2
    simp only [if_neg h1, if_neg h2, hv]
    simp only [if_pos (manifest_iff.2 hf)]
    refine Runs.next hts (ha.live []) fun s1 a1 e1 _ => ?_
    exact Runs.pure
  | .str v, hf => by
    intro s used rest hs hts hl ha
    obtain ⟨t, y, rfl, l0, hl⟩ := leaves_uncons hl
    cases y with
    | cons => exact hl.elim
    | nil =>
    obtain ⟨h1, h3⟩ := l0
    subst h3
    refine Runs.succ ?_
    simp only [parseFactor]
    refine Runs.look (cur_run (tok_of hts)) ?_
    have hs1 : t.typ ≠ .symbol := by rw [h1]; decide
    have h2 : t.typ ≠ .reserved := by rw [h1]; decide
    have hv : t.value u = t.raw := value_of_ne h2
    have hm : ¬ isManifest u t.raw = true := by rw [manifest_iff]; exact hf
    simp only [if_neg hs1, if_neg h2, hv, if_neg hm, if_pos h1]
    refine Runs.next hts (ha.live []) fun s1 a1 e1 _ => ?_
    exact Runs.pure
  | .num v, hf => by
    intro s used rest hs hts hl ha
    obtain ⟨t, y, rfl, l0, hl⟩ := leaves_uncons hl
    cases y with
    | cons => exact hl.elim
    | nil =>
    obtain ⟨h1, h3⟩ := l0
    subst h3
    refine Runs.succ ?_
    simp only [parseFactor]
    refine Runs.look (cur_run (tok_of hts)) ?_
    have hs1 : t.typ ≠ .symbol := by rcases h1 with h | h <;> rw [h] <;> decide
    have h2 : t.typ ≠ .reserved := by rcases h1 with h | h <;> rw [h] <;> decide
    have h4 : t.typ ≠ .charString := by rcases h1 with h | h <;> rw [h] <;> decide
    have hv : t.value u = t.raw := value_of_ne h2
    have hm : ¬ isManifest u t.raw = true := by rw [manifest_iff]; exact hf
    simp only [if_neg hs1, if_neg h2, hv, if_neg hm, if_neg h4, if_pos h1]
    refine Runs.next hts (ha.live []) fun s1 a1 e1 _ => ?_
    exact Runs.pure
  | .nil, hf => by
    intro s used rest hs hts hl ha
    obtain ⟨t, y, rfl, l0, hl⟩ := leaves_uncons hl
    cases y with
    | cons => exact hl.elim
    | nil =>
    obtain ⟨h1, h3⟩ := l0
    refine Runs.succ ?_
    simp only [parseFactor]
    refine Runs.look (cur_run (tok_of hts)) ?_
    have hs1 : t.typ ≠ .symbol := by rw [h1]; decide
    have hv : t.value u = r!"NIL" := by rw [value_reserved h1, h3]
    simp only [if_neg hs1, if_pos h1, if_pos hv]
    refine Runs.next hts (ha.live []) fun s1 a1 e1 _ => ?_
    exact Runs.pure
  | .paren e, hf => by
    intro s used rest hs hts hl ha
    obtain ⟨t, y, rfl, l0, hl⟩ := leaves_uncons hl
    obtain ⟨y, z, rfl, l3, hl⟩ := leaves_split hl
    obtain ⟨c, z, rfl, l4, hl⟩ := leaves_uncons hl
    cases z with
    | cons => exact hl.elim
    | nil =>
    have hts : s.ts = t :: (y ++ c :: rest) := by rw [hts]; simp
    refine Runs.succ ?_
    simp only [parseFactor]
    refine Runs.look (cur_run (tok_of hts)) ?_
    simp only [if_pos l0.1]
    have hv : t.value u = r!"(" := by rw [value_of_ne (by rw [l0.1]; decide), l0.2]
    have v1 : t.value u ≠ r!"@" := by rw [hv]; decide
    have v2 : t.value u ≠ r!"[" := by rw [hv]; decide
    simp only [if_neg v1, if_neg v2, if_pos hv]
    refine Runs.next hts (by simpa using ha.live (y ++ [c])) fun s1 a1 e1 _ => ?_
    refine Runs.bind (expr_complete e hf s1 y _ (hs.adv a1) e1 l3 (.cons ?_)) fun s2 a2 => ?_
    · exact sym_stopsExpr l4 (by decide) (by decide) (by decide) (by decide)
    have e2 := adv_rest e1 a2
    refine Runs.look (current_run (tok_of e2) (symbol_iff.2 l4)) ?_
    refine Runs.next e2 (((ha.adv a1).adv a2).live []) fun s3 a3 e3 _ => ?_
    exact Runs.pure
  | .not f, hf => by
    intro s used rest hs hts hl ha
    obtain ⟨t, y, rfl, l0, hl⟩ := leaves_uncons hl
    obtain ⟨h1, h3⟩ := l0
    refine Runs.succ ?_
    simp only [parseFactor]
    refine Runs.look (cur_run (tok_of hts)) ?_
    have hs1 : t.typ ≠ .symbol := by rw [h1]; decide
    have hv : t.value u = r!"NOT" := by rw [value_reserved h1, h3]
    have v1 : t.value u ≠ r!"NIL" := by rw [hv]; decide
    simp only [if_neg hs1, if_pos h1, if_neg v1, if_pos hv]
    refine Runs.next hts (ha.live _) fun s1 a1 e1 _ => ?_
    rw [← List.append_nil y]
    refine Runs.bind (factor_complete f hf s1 y _ (hs.adv a1) e1 hl (ha.adv a1)) fun s2 a2 => ?_
    exact Runs.pure
  | .set es, hf => by
    intro s used rest hs hts hl ha
    obtain ⟨t, y, rfl, l0, hl⟩ := leaves_uncons hl
    obtain ⟨y, z, rfl, l3, hl⟩ := leaves_split hl
    obtain ⟨c, z, rfl, l4, hl⟩ := leaves_uncons hl
    cases z with
    | cons => exact hl.elim
    | nil =>
    have hts : s.ts = t :: (y ++ c :: rest) := by rw [hts]; simp
    refine Runs.succ ?_
    simp only [parseFactor]
    refine Runs.look (cur_run (tok_of hts)) ?_
    simp only [if_pos l0.1]
    have hv : t.value u = r!"[" := by rw [value_of_ne (by rw [l0.1]; decide), l0.2]
    have v1 : t.value u ≠ r!"@" := by rw [hv]; decide
    simp only [if_neg v1, if_pos hv]
    have := ha.live (y ++ [c])
    have hc : Runs E (parseSetCons u E) s (t :: y) es := by
      refine Runs.succ ?_
      simp only [parseSetCons]
      refine Runs.look (current_run (tok_of hts) (symbol_iff.2 l0)) ?_
      refine Runs.next hts (by simpa using this) fun s1 a1 e1 _ => ?_
      exact elems_complete es hf s1 y _ (hs.adv a1) e1 l3 (.cons l4)
    refine Runs.bind (u1 := t :: y) (u2 := [c]) hc fun s2 a2 => ?_
    have e2 : s2.ts = c :: rest := adv_rest (x := t :: y) hts a2
    refine Runs.next e2 ((ha.adv a2).live []) fun s3 a3 e3 _ => ?_
    exact Runs.pure
  | .cast ty e, hf => by
    intro s used rest hs hts hl ha
    obtain ⟨t, y, rfl, l0, hl⟩ := leaves_uncons hl
    obtain ⟨p, y, rfl, l1, hl⟩ := leaves_uncons hl
    obtain ⟨y, z, rfl, l3, hl⟩ := leaves_split hl
    obtain ⟨c, z, rfl, l4, hl⟩ := leaves_uncons hl
    cases z with
    | cons => exact hl.elim
    | nil =>
    obtain ⟨⟨d, g1, g2, g3⟩, g4, f1⟩ := hf
    obtain ⟨ti, tr⟩ := ty
    simp only at g1 g3 g4
    obtain ⟨h1, h2⟩ := l0
    simp only at h2
    subst h2 g3
    have hts : s.ts = t :: p :: (y ++ c :: rest) := by rw [hts]; simp
    refine Runs.succ ?_
    simp only [parseFactor]
    refine Runs.look (cur_run (tok_of hts)) ?_
    have n1 : t.typ ≠ .symbol := by rw [h1]; decide
    have n2 : t.typ ≠ .reserved := by rw [h1]; decide
    have n3 : t.typ ≠ .charString := by rw [h1]; decide
    have n4 : ¬ (t.typ = .numInt ∨ t.typ = .numReal) := by rw [h1]; decide
    have hv : t.value u = t.raw := value_of_ne n2
    have hm : ¬ isManifest u t.raw = true := by rw [manifest_iff]; exact g4
    simp only [if_neg n1, if_neg n2, hv, if_neg hm, if_neg n3, if_neg n4, if_pos h1]
    refine Runs.look (get_run _) ?_
    rw [L.get _ hs.cx, g1]
    simp only [if_pos g2]
    refine Runs.look (rollback_run (tok_of hts)) ?_
    refine Runs.next hts (.cons trivial) fun s1 a1 e1 _ => ?_
    refine Runs.look (is_run (tok_of e1)) ?_
    simp only [if_pos (symbol_iff.2 l1)]
    have ha1 := ha.adv a1
    refine Runs.next e1 (by simpa using ha1.live (y ++ [c])) fun s2 a2 e2 _ => ?_
    have ha2 := ha1.adv a2
    refine Runs.bind (expr_complete e f1 s2 y _ ((hs.adv a1).adv a2) e2 l3 (.cons ?_)) fun s3 a3 => ?_
    · exact sym_stopsExpr l4 (by decide) (by decide) (by decide) (by decide)
    have e3 := adv_rest e2 a3
    refine Runs.look (current_run (tok_of e3) (symbol_iff.2 l4)) ?_
    refine Runs.next e3 ((ha2.adv a3).live []) fun s4 a4 e4 _ => ?_
    exact Runs.pure

theorem desig_complete : ∀ d : Desig δ, FitsDesig u E k0 d →
    Complete u E R tl (parseDesig u E) d (flatDesig d) StopsDesig
  | .mk q items, hf => by
    intro s used rest hs hts hl ha
    obtain ⟨f1, f2⟩ := hf
    obtain ⟨i, fl, hfl, -⟩ := flatDesig_head (.mk q items)
    have hl' := hl
    rw [hfl] at hl'
    obtain ⟨t, y', hu, h1, -⟩ := leaves_uncons hl'
    have htok : s.tok? = some t := by rw [hu] at hts; exact tok_of hts
    clear hl' hfl hu
    obtain ⟨x, y, rfl, l1, l2⟩ := leaves_split hl
    rw [List.append_assoc] at hts
    refine Runs.succ ?_
    simp only [parseDesig]
    refine Runs.look (current_run htok (identP_iff.2 h1.1)) ?_
    refine Runs.bind (qual_runs L f1 s x _ hs hts l1 (ha.live y)) fun s1 a1 => ?_
    have e1 := adv_rest hts a1
    rw [← List.append_nil y]
    refine Runs.bind (items_complete items f2 s1 y _ (hs.adv a1) e1 l2 (ha.adv a1)) fun s2 a2 => ?_
    exact Runs.pure

theorem items_complete : ∀ i : Items δ, FitsItems u E k0 i →
    Complete u E R tl (parseItems u E) i (flatItems i) StopsDesig
  | .nil, hf => by
    intro s used rest hs hts hl ha
    cases used with
    | cons => exact hl.elim
    | nil =>
    obtain ⟨t, ht, h1, h2, h3⟩ := ha.tok hts
    refine Runs.succ ?_
    simp only [parseItems]
    refine Runs.look (cur?_run ht) ?_
    by_cases c : t.typ = .symbol
    · have hv : t.value u = t.raw := value_of_ne (by rw [c]; decide)
      have n1 : t.raw ≠ r!"." := fun h => h1 ⟨c, h⟩
      have n2 : t.raw ≠ r!"[" := fun h => h2 ⟨c, h⟩
      have n3 : t.raw ≠ r!"^" := fun h => h3 ⟨c, h⟩
      simp only [if_pos c, hv, if_neg n1, if_neg n2, if_neg n3]
      exact Runs.pure
    · simp only [if_neg c]
      exact Runs.pure
  | .ident i r, hf => by
    intro s used rest hs hts hl ha
    obtain ⟨t, y, rfl, l0, hl⟩ := leaves_uncons hl
    obtain ⟨t2, y, rfl, l1, hl⟩ := leaves_uncons hl
    refine Runs.succ ?_
    simp only [parseItems]
    refine Runs.look (cur?_run (tok_of hts)) ?_
    have hv : t.value u = r!"." := by rw [value_of_ne (by rw [l0.1]; decide), l0.2]
    simp only [if_pos l0.1, if_pos hv]
    unfold P.nextIs
    simp only [P.bind_assoc]
    refine Runs.next hts (.cons trivial) fun s1 a1 e1 _ => ?_
    refine Runs.look (current_run (tok_of e1) (typ_iff.2 l1.1)) ?_
    refine Runs.next e1 ((ha.adv a1).live _) fun s2 a2 e2 _ => ?_
    rw [← List.append_nil y]
    refine Runs.bind (items_complete r hf s2 y _ ((hs.adv a1).adv a2) e2 hl ((ha.adv a1).adv a2)) fun s3 a3 => ?_
    rw [l1.2]
    exact Runs.pure
  | .index es r, hf => by
    intro s used rest hs hts hl ha
    obtain ⟨f1, f2⟩ := hf
    obtain ⟨t, y, rfl, l0, hl⟩ := leaves_uncons hl
    obtain ⟨y, z, rfl, l3, hl⟩ := leaves_split hl
    obtain ⟨c, z, rfl, l4, hl⟩ := leaves_uncons hl
    have hts : s.ts = t :: (y ++ c :: (z ++ rest)) := by rw [hts]; simp
    refine Runs.succ ?_
    simp only [parseItems]
    refine Runs.look (cur?_run (tok_of hts)) ?_
    have hv : t.value u = r!"[" := by rw [value_of_ne (by rw [l0.1]; decide), l0.2]
    have v1 : t.value u ≠ r!"." := by rw [hv]; decide
    simp only [if_pos l0.1, if_neg v1, if_pos hv]
    refine Runs.next hts (by simpa using ha.live (y ++ c :: z)) fun s1 a1 e1 _ => ?_
    have ha1 := ha.adv a1
    refine Runs.bind (exprs_complete r!"]" (by decide) (by decide) es f1 s1 _ _ (hs.adv a1) e1 l3
        (.cons l4)) fun s2 a2 => ?_
    have ha2 := ha1.adv a2
    refine Runs.next (adv_rest e1 a2) (ha2.live _) fun s3 a3 e3 _ => ?_
    rw [← List.append_nil z]
    refine Runs.bind (items_complete r f2 s3 z _ (((hs.adv a1).adv a2).adv a3) e3 hl (ha2.adv a3)) fun s4 a4 => ?_
    exact Runs.pure
  | .deref r, hf => by
    intro s used rest hs hts hl ha
    obtain ⟨t, y, rfl, l0, hl⟩ := leaves_uncons hl
    refine Runs.succ ?_
    simp only [parseItems]
    refine Runs.look (cur?_run (tok_of hts)) ?_
    have hv : t.value u = r!"^" := by rw [value_of_ne (by rw [l0.1]; decide), l0.2]
    have v1 : t.value u ≠ r!"." := by rw [hv]; decide
    have v2 : t.value u ≠ r!"[" := by rw [hv]; decide
    simp only [if_pos l0.1, if_neg v1, if_neg v2, if_pos hv]
    refine Runs.next hts (ha.live _) fun s1 a1 e1 _ => ?_
    rw [← List.append_nil y]
    refine Runs.bind (items_complete r hf s1 y _ (hs.adv a1) e1 hl (ha.adv a1)) fun s2 a2 => ?_
    exact Runs.pure

theorem exprs_complete (c : Str) (hc : c ∉ [r!".", r!"[", r!"^", r!"("] ∧ c ∉ mulSyms ∧ c ∉ addSyms ∧ c ∉ relSyms)
    (hcomma : c ≠ r!",") : ∀ es : Exprs δ, FitsExprs u E k0 es →
    Complete u E R tl (parseExprs u E (sym c)) es (flatExprs es) (IsSym c)
  | .one e, hf => by
    intro s used rest hs hts hl ha
    refine Runs.succ ?_
    simp only [parseExprs]
    rw [← List.append_nil used]
    refine Runs.bind (expr_complete e hf s used _ hs hts hl
      (ha.mono fun t h => sym_stopsExpr h hc.1 hc.2.1 hc.2.2.1 hc.2.2.2)) fun s1 a1 => ?_
    obtain ⟨t, ht, hst⟩ := (ha.adv a1).tok (adv_rest hts a1)
    refine Runs.look (is_run ht) ?_
    simp only [if_pos (symbol_iff.2 hst)]
    exact Runs.pure
  | .cons e es, hf => by
    intro s used rest hs hts hl ha
    obtain ⟨f1, f2⟩ := hf
    obtain ⟨x, y, rfl, l1, hl⟩ := leaves_split hl
    obtain ⟨t, y, rfl, l0, hl⟩ := leaves_uncons hl
    have hts : s.ts = x ++ t :: (y ++ rest) := by rw [hts]; simp
    refine Runs.succ ?_
    simp only [parseExprs]
    refine Runs.bind (expr_complete e f1 s x _ hs hts l1 (.cons (comma_stops l0))) fun s1 a1 => ?_
    have e1 := adv_rest hts a1
    have ha1 := ha.adv a1
    refine Runs.look (is_run (tok_of e1)) ?_
    have : ¬ sym c t = true := by rw [symbol_iff]; exact not_sym l0 (Ne.symm hcomma)
    simp only [if_neg this]
    refine Runs.look (current_run (tok_of e1) (symbol_iff.2 l0)) ?_
    refine Runs.next e1 (ha1.live _) fun s2 a2 e2 _ => ?_
    rw [← List.append_nil y]
    refine Runs.bind (exprs_complete c hc hcomma es f2 s2 y _ ((hs.adv a1).adv a2) e2 hl (ha1.adv a2)) fun s3 a3 => ?_
    exact Runs.pure

theorem elems_complete : ∀ es : SetElems δ, FitsElems u E k0 es →
    Complete u E R tl (parseSetElems u E) es (flatElems es) (IsSym r!"]")
  | .one e, hf => by
    intro s used rest hs hts hl ha
    refine Runs.succ ?_
    simp only [parseSetElems]
    rw [← List.append_nil used]
    refine Runs.bind (elem_complete e hf s used _ hs hts hl
      (ha.mono fun t h => ⟨sym_stopsExpr h (by decide) (by decide) (by decide) (by decide), not_sym h (by decide)⟩))
      fun s1 a1 => ?_
    obtain ⟨t, ht, hst⟩ := (ha.adv a1).tok (adv_rest hts a1)
    refine Runs.look (cur?_run ht) ?_
    simp only [if_pos (symbol_iff.2 hst)]
    exact Runs.pure
  | .cons e es, hf => by
    intro s used rest hs hts hl ha
    obtain ⟨f1, f2⟩ := hf
    obtain ⟨x, y, rfl, l1, hl⟩ := leaves_split hl
    obtain ⟨t, y, rfl, l0, hl⟩ := leaves_uncons hl
    have hts : s.ts = x ++ t :: (y ++ rest) := by rw [hts]; simp
    refine Runs.succ ?_
    simp only [parseSetElems]
    refine Runs.bind (elem_complete e f1 s x _ hs hts l1 (.cons ⟨comma_stops l0, not_sym l0 (by decide)⟩)) fun s1 a1 => ?_
    have e1 := adv_rest hts a1
    have ha1 := ha.adv a1
    refine Runs.look (cur?_run (tok_of e1)) ?_
    have : ¬ sym r!"]" t = true := by rw [symbol_iff]; exact not_sym l0 (by decide)
    simp only [if_neg this, if_pos (symbol_iff.2 l0)]
    refine Runs.next e1 (ha1.live _) fun s2 a2 e2 _ => ?_
    rw [← List.append_nil y]
    refine Runs.bind (elems_complete es f2 s2 y _ ((hs.adv a1).adv a2) e2 hl (ha1.adv a2)) fun s3 a3 => ?_
    exact Runs.pure

theorem elem_complete : ∀ e : SetElem δ, FitsElem u E k0 e →
    Complete u E R tl (parseSetElem u E) e (flatElem e) (StopsElem u)
  | .single e, hf => by
    intro s used rest hs hts hl ha
    refine Runs.succ ?_
    simp only [parseSetElem]
    rw [← List.append_nil used]
    refine Runs.bind (expr_complete e hf s used _ hs hts hl (ha.mono fun t h => h.1)) fun s1 a1 => ?_
    obtain ⟨t, ht, hst⟩ := (ha.adv a1).tok (adv_rest hts a1)
    refine Runs.look (is_run ht) ?_
    have : ¬ Pred.hasText u .symbol r!".." t = true := by rw [hasText_sym_iff]; exact hst.2
    simp only [if_neg this]
    exact Runs.pure
  | .range lo hi, hf => by
    intro s used rest hs hts hl ha
    obtain ⟨f1, f2⟩ := hf
    obtain ⟨x, y, rfl, l1, hl⟩ := leaves_split hl
    obtain ⟨t, y, rfl, l0, hl⟩ := leaves_uncons hl
    have hts : s.ts = x ++ t :: (y ++ rest) := by rw [hts]; simp
    refine Runs.succ ?_
    simp only [parseSetElem]
    refine Runs.bind (expr_complete lo f1 s x _ hs hts l1 (.cons ?_)) fun s1 a1 => ?_
    · exact sym_stopsExpr l0 (by decide) (by decide) (by decide) (by decide)
    have e1 := adv_rest hts a1
    have ha1 := ha.adv a1
    refine Runs.look (is_run (tok_of e1)) ?_
    simp only [if_pos (hasText_sym_iff.2 l0)]
    refine Runs.next e1 (ha1.live _) fun s2 a2 e2 _ => ?_
    rw [← List.append_nil y]
    refine Runs.bind (expr_complete hi f2 s2 y _ ((hs.adv a1).adv a2) e2 hl ((ha1.adv a2).mono fun t h => h.1))
      fun s3 a3 => ?_
    exact Runs.pure
end

end

end TP
