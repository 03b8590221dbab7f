import Verif.Lemmas.ExprComplete

/-!
# C37  List parsing accepts exactly separator-separated non-empty lists
-/

namespace TP.Props
open TP Spec

section
variable {κ α : Type}

/-- From `s` on there is one item, or items with separators between them; `s'` is the state after the last one.
`item` is the parser of one item. -/
inductive SepList (item : P κ (Option α)) (sep : Pred) : PS κ → List α → PS κ → Prop
  | one {s s' : PS κ} {a : α} : item s = .ok (some a) s' → SepList item sep s [a] s'
  | cons {s s1 s' : PS κ} {a : α} {t : Token} {ts : List Token} {as : List α} :
      item s = .ok (some a) s1 → s1.ts = t :: ts → sep t = true →
      -- the token after the separator is not an unterminated string
      (ts = [] → s1.tail ≠ .hang) →
      SepList item sep { s1 with ts := ts } as s' → SepList item sep s (a :: as) s'

/-- the same without separators: the items follow each other until the terminator -/
inductive Items (item : P κ (Option α)) (terminator : Pred) : PS κ → List α → PS κ → Prop
  | one {s s' : PS κ} {a : α} {t : Token} : item s = .ok (some a) s' → s'.tok? = some t → terminator t = true →
      Items item terminator s [a] s'
  | cons {s s1 s' : PS κ} {a : α} {t : Token} {as : List α} :
      item s = .ok (some a) s1 → s1.tok? = some t → terminator t = false →
      Items item terminator s1 as s' → Items item terminator s (a :: as) s'

theorem cur?_ok {s s' : PS κ} {o : Option Token} (h : P.cur? s = .ok o s') : s' = s ∧ o = s.tok? := by
  obtain ⟨ts, tl, cx⟩ := s
  cases ts with
  | cons => injection h with h1 h2; exact ⟨h2.symm, h1.symm⟩
  | nil => cases tl <;> simp only [P.cur?] at h <;> cases h <;> exact ⟨rfl, rfl⟩

theorem next_ok {s s' : PS κ} {t : Token} {ts : List Token} (e : s.ts = t :: ts) (h : P.next s = .ok () s') :
    s' = { s with ts := ts } ∧ (ts = [] → s.tail ≠ .hang) := by
  obtain ⟨ts', tl, cx⟩ := s
  cases e
  cases ts with
  | cons => injection h with h1 h2; exact ⟨h2.symm, fun h => by (cases h)⟩
  | nil =>
    cases tl <;> simp only [P.next] at h <;> cases h <;> exact ⟨rfl, fun _ h => by (cases h)⟩

theorem next_of {s : PS κ} {t : Token} {ts : List Token} (e : s.ts = t :: ts) (h : ts = [] → s.tail ≠ .hang) :
    P.next s = .ok () { s with ts := ts } := by
  obtain ⟨ts', tl, cx⟩ := s
  cases e
  cases ts with
  | cons => rfl
  | nil => cases tl <;> first | rfl | exact absurd rfl (h rfl)

theorem bind_ok {β : Type} {p : P κ β} {f : β → P κ α} {s s' : PS κ} {a : α} (h : (p >>= f) s = .ok a s') :
    ∃ b s1, p s = .ok b s1 ∧ f b s1 = .ok a s' := by
  change P.bind p f s = _ at h
  unfold P.bind at h
  cases e : p s with
  | ok b s1 => rw [e] at h; exact ⟨b, s1, rfl, h⟩
  | err => rw [e] at h; cases h
  | panic => rw [e] at h; cases h
  | wait => rw [e] at h; cases h

theorem bind_of {β : Type} {p : P κ β} {f : β → P κ α} {s s1 : PS κ} {b : β} {r : R (PS κ) α} (h : p s = .ok b s1)
    (h' : f b s1 = r) : (p >>= f) s = r := by
  change P.bind p f s = _
  unfold P.bind
  rw [h]; exact h'

/-- Items each followed by a separator, and then the item parser gives `QuitUntil`, in state `s'`. -/
inductive SepQuit (item : P κ (Option α)) (sep : Pred) : PS κ → List α → PS κ → Prop
  | quit {s s' : PS κ} : item s = .ok none s' → SepQuit item sep s [] s'
  | cons {s s1 s' : PS κ} {a : α} {t : Token} {ts : List Token} {as : List α} :
      item s = .ok (some a) s1 → s1.ts = t :: ts → sep t = true → (ts = [] → s1.tail ≠ .hang) →
      SepQuit item sep { s1 with ts := ts } as s' → SepQuit item sep s (a :: as) s'

/-- `Until` with a separator succeeds exactly on item (separator item)* followed by the terminator, which is left
current, or on (item separator)* where the next call of the item parser gives `QuitUntil`; the list returned has one
element for each item, in order.  (The terminator is no separator; the separator is no end-of-file token, as with all
separators in the code.) -/
theorem C37_until_quit_partial (item : P κ (Option α)) (terminator sep : Pred)
    (hd : ∀ t, terminator t = true → sep t = false) (he : ∀ t, sep t = true → t.typ ≠ .eof) (s s' : PS κ)
    (as : List α) :
    (∃ n, P.untilP terminator (some sep) item n s = .ok as s') ↔
    ((SepList item sep s as s' ∧ ∃ t, s'.tok? = some t ∧ terminator t = true) ∨ SepQuit item sep s as s') := by
  constructor
  · rintro ⟨n, h⟩
    induction n generalizing s as with
    | zero => cases h
    | succ n ih =>
      rw [P.untilP] at h
      obtain ⟨o, s1, h1, h⟩ := bind_ok h
      cases o with
      | none =>
        injection h with h2 h3
        subst h2 h3
        exact .inr (.quit h1)
      | some a =>
        obtain ⟨o, s2, h2, h⟩ := bind_ok h
        obtain ⟨rfl, rfl⟩ := cur?_ok h2
        cases ht : s2.tok? with
        | none => rw [ht] at h; cases h
        | some t =>
          rw [ht] at h
          simp only at h
          by_cases c : terminator t = true
          · rw [if_pos c] at h
            injection h with h3 h4
            subst h3 h4
            exact .inl ⟨.one h1, t, ht, c⟩
          · rw [if_neg c] at h
            by_cases c2 : sep t = true
            · rw [if_pos c2] at h
              obtain ⟨_, s3, h3, h⟩ := bind_ok h
              obtain ⟨as', s4, h4, h⟩ := bind_ok h
              injection h with h5 h6
              subst h5 h6
              obtain ⟨ts, hts⟩ := tok_cons ht (he t c2)
              obtain ⟨rfl, hh⟩ := next_ok hts h3
              rcases ih _ _ h4 with ⟨i1, i2⟩ | i
              · exact .inl ⟨.cons h1 hts c2 hh i1, i2⟩
              · exact .inr (.cons h1 hts c2 hh i)
            · rw [if_neg c2] at h; cases h
  · rintro (⟨h, t, ht, c⟩ | h)
    · induction h with
      | one h1 =>
        refine ⟨1, ?_⟩
        rw [P.untilP]
        refine bind_of h1 (bind_of (cur?_run ht) ?_)
        simp only [if_pos c]; rfl
      | @cons s s1 s' a t' ts as h1 hts c2 hh _ ih =>
        obtain ⟨n, hn⟩ := ih ht
        refine ⟨n + 1, ?_⟩
        rw [P.untilP]
        refine bind_of h1 (bind_of (cur?_run (tok_of hts)) ?_)
        have c3 : ¬ terminator t' = true := by intro h; rw [hd _ h] at c2; cases c2
        simp only [if_neg c3, if_pos c2]
        exact bind_of (next_of hts hh) (bind_of hn rfl)
    · induction h with
      | quit h1 =>
        refine ⟨1, ?_⟩
        rw [P.untilP]
        exact bind_of h1 rfl
      | @cons s s1 s' a t' ts as h1 hts c2 hh _ ih =>
        obtain ⟨n, hn⟩ := ih
        refine ⟨n + 1, ?_⟩
        rw [P.untilP]
        refine bind_of h1 (bind_of (cur?_run (tok_of hts)) ?_)
        have c3 : ¬ terminator t' = true := by intro h; rw [hd _ h] at c2; cases c2
        simp only [if_neg c3, if_pos c2]
        exact bind_of (next_of hts hh) (bind_of hn rfl)

/-- For an item parser that never gives `QuitUntil`: exactly item (separator item)* followed by the terminator. -/
theorem C37_until_partial (item : P κ (Option α)) (hq : ∀ s s', item s ≠ .ok none s') (terminator sep : Pred)
    (hd : ∀ t, terminator t = true → sep t = false) (he : ∀ t, sep t = true → t.typ ≠ .eof) (s s' : PS κ)
    (as : List α) :
    (∃ n, P.untilP terminator (some sep) item n s = .ok as s') ↔
    (SepList item sep s as s' ∧ ∃ t, s'.tok? = some t ∧ terminator t = true) := by
  rw [C37_until_quit_partial item terminator sep hd he]
  constructor
  · rintro (h | h)
    · exact h
    · exfalso
      induction h with
      | quit h => exact hq _ _ h
      | cons _ _ _ _ _ ih => exact ih
  · exact .inl

/-- Lists are not empty. -/
theorem C37_nonempty_partial (item : P κ (Option α)) (hq : ∀ s s', item s ≠ .ok none s') (terminator sep : Pred)
    (hd : ∀ t, terminator t = true → sep t = false) (he : ∀ t, sep t = true → t.typ ≠ .eof) (s s' : PS κ)
    (as : List α) (n : Nat) (h : P.untilP terminator (some sep) item n s = .ok as s') : as ≠ [] := by
  obtain ⟨h, -⟩ := (C37_until_partial item hq terminator sep hd he s s' as).mp ⟨n, h⟩
  cases h <;> simp

/-- `Until` without separator. -/
theorem C37_until_nosep_partial (item : P κ (Option α)) (hq : ∀ s s', item s ≠ .ok none s') (terminator : Pred) (s s' : PS κ)
    (as : List α) :
    (∃ n, P.untilP terminator none item n s = .ok as s') ↔ Items item terminator s as s' := by
  constructor
  · rintro ⟨n, h⟩
    induction n generalizing s as with
    | zero => cases h
    | succ n ih =>
      rw [P.untilP] at h
      obtain ⟨o, s1, h1, h⟩ := bind_ok h
      cases o with
      | none => exact absurd h1 (hq _ _)
      | some a =>
        obtain ⟨o, s2, h2, h⟩ := bind_ok h
        obtain ⟨rfl, rfl⟩ := cur?_ok h2
        cases ht : s2.tok? with
        | none => rw [ht] at h; cases h
        | some t =>
          rw [ht] at h
          simp only at h
          by_cases c : terminator t = true
          · rw [if_pos c] at h
            injection h with h3 h4
            subst h3 h4
            exact .one h1 ht c
          · rw [if_neg c] at h
            obtain ⟨as', s4, h4, h⟩ := bind_ok h
            injection h with h5 h6
            subst h5 h6
            exact .cons h1 ht (by simpa using c) (ih _ _ h4)
  · intro h
    induction h with
    | one h1 ht c =>
      refine ⟨1, ?_⟩
      rw [P.untilP]
      refine bind_of h1 (bind_of (cur?_run ht) ?_)
      simp only [if_pos c]; rfl
    | cons h1 ht c _ ih =>
      obtain ⟨n, hn⟩ := ih
      refine ⟨n + 1, ?_⟩
      rw [P.untilP]
      refine bind_of h1 (bind_of (cur?_run ht) ?_)
      simp only [c]
      exact bind_of hn rfl

end

/-! ## `ParseIdentList` -/

/-- the function passed to `Until` by `ParseIdentListBy`, `parser/ident_list.go:14-22` -/
def identItem {κ : Type} : P κ (Option Str) := do
  let t ← P.current (Pred.typ .ident)
  P.next
  pure (some t.raw)

/-- an item parser that gives `QuitUntil` at `END`, like the one of `ParseVariantSection`
(`parser/type_struc.go:238-241`), and otherwise reads an identifier -/
def quitItem {κ : Type} : P κ (Option Str) := do
  match ← P.cur? with
  | some t => if kw asciiUni r!"END" t then pure none else identItem
  | none => P.panic

/-- The full claim is false for item parsers that give `QuitUntil`, used in the code for the lists of classes and
records: `a ; END` with the terminator `END` is accepted, though a separator stands in front of the terminator. -/
theorem C37_refuted : ∃ s s' : PS Unit,
    P.untilP (kw asciiUni r!"END") (some (sym r!";")) quitItem 5 s = .ok [r!"a"] s' ∧
      ¬ SepList quitItem (sym r!";") s [r!"a"] s' := by
  refine ⟨⟨[⟨.ident, r!"a", ⟨1, 1, 0⟩, ⟨1, 2, 1⟩⟩, ⟨.symbol, r!";", ⟨1, 1, 0⟩, ⟨1, 2, 1⟩⟩,
      ⟨.reserved, r!"END", ⟨1, 1, 0⟩, ⟨1, 4, 3⟩⟩], .nil, ()⟩,
    ⟨[⟨.reserved, r!"END", ⟨1, 1, 0⟩, ⟨1, 4, 3⟩⟩], .nil, ()⟩, by rfl, ?_⟩
  intro h
  cases h with
  | one h => cases h
  | cons _ _ _ _ h => cases h

/-- non-vacuity: `a , b :` is the list `a`, `b`, the colon is left current. -/
example : P.untilP (sym r!":") (some (sym r!",")) (identItem (κ := Unit)) 5
    ⟨[⟨.ident, r!"a", ⟨1, 1, 0⟩, ⟨1, 2, 1⟩⟩, ⟨.symbol, r!",", ⟨1, 1, 0⟩, ⟨1, 2, 1⟩⟩,
      ⟨.ident, r!"b", ⟨1, 1, 0⟩, ⟨1, 2, 1⟩⟩, ⟨.symbol, r!":", ⟨1, 1, 0⟩, ⟨1, 2, 1⟩⟩], .nil, ()⟩ =
    .ok [r!"a", r!"b"] ⟨[⟨.symbol, r!":", ⟨1, 1, 0⟩, ⟨1, 2, 1⟩⟩], .nil, ()⟩ := rfl

/-- `a , :` is rejected -/
example : P.untilP (sym r!":") (some (sym r!",")) (identItem (κ := Unit)) 5
    ⟨[⟨.ident, r!"a", ⟨1, 1, 0⟩, ⟨1, 2, 1⟩⟩, ⟨.symbol, r!",", ⟨1, 1, 0⟩, ⟨1, 2, 1⟩⟩,
      ⟨.symbol, r!":", ⟨1, 1, 0⟩, ⟨1, 2, 1⟩⟩], .nil, ()⟩ = .err := rfl

/-- the conditions of the theorem hold for this list -/
example : (∀ s s' : PS Unit, identItem s ≠ .ok none s') ∧ (∀ t, sym r!":" t = true → sym r!"," t = false) ∧
    (∀ t, sym r!"," t = true → t.typ ≠ .eof) := by
  refine ⟨?_, ?_, ?_⟩
  · intro s s' h
    obtain ⟨t, s1, -, h⟩ := bind_ok h
    obtain ⟨_, s2, -, h⟩ := bind_ok h
    cases h
  · intro t h
    rw [symbol_iff] at h
    cases c : sym r!"," t with
    | false => rfl
    | true => rw [symbol_iff] at c; have := h.2.symm.trans c.2; cases this
  · intro t h e
    rw [symbol_iff] at h
    rw [h.1] at e; cases e

end TP.Props
