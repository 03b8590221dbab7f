import Verif.Lemmas.Shapes

/-!
# C09  Numeral lexemes

The part about binary minus is false (`C09_refuted`): a minus sign directly in front of a digit is always taken
into the numeral.
-/

namespace TP.Props
open TP Cursor Spec

/-- a possibly empty sign -/
def IsSign (s : Str) : Prop := s = [] ∨ s = ['-']
/-- a string of digits -/
def AllDigits (s : Str) : Prop := ∀ x ∈ s, digit x = true

variable (u : Uni) (order : List (Char × Char)) (ho : IsOrder order) (fl : Flags)
include ho

/-- Every NumeralInt token is an optional minus and at least one digit, and no digit follows it; if a point
follows it, it is the range operator.  Every NumeralReal token is an optional minus, at least one digit, one
point and digits, and neither a digit nor (if nothing follows its point) a second point follows it. -/
theorem C09_shape (c c' : Cursor) (hc : Reachable c) (t : Token) (h : Gets u order fl c c' (some t)) :
    (t.typ = .numInt → ∃ sg ds, t.raw = sg ++ ds ∧ IsSign sg ∧ ds ≠ [] ∧ AllDigits ds ∧
        (∀ x, c'.rest.head? = some x → digit x = false) ∧
        (∀ r, c'.rest = '.' :: r → r.head? = some '.')) ∧
    (t.typ = .numReal → ∃ sg ds ds', t.raw = sg ++ ds ++ '.' :: ds' ∧ IsSign sg ∧ ds ≠ [] ∧ AllDigits ds ∧
        AllDigits ds' ∧ (∀ x, c'.rest.head? = some x → digit x = false) ∧
        (ds' = [] → c'.rest.head? ≠ some '.')) := by
  obtain ⟨_, ⟨h1, _⟩ | ⟨j, k, h1, h2, h3, h4, h5, h6, h7⟩⟩ := gets_tok ho hc.wf h
  · rw [h1]; simp
  · have key : ∀ a s, (adv j c).rest = a :: s → startsNumeral (a :: s) = true →
        ∃ sg d ds r, IsSign sg ∧ a :: s = sg ++ d :: ds ++ r ∧ digit d = true ∧ AllDigits ds ∧
          (∀ x, r.head? = some x → digit x = false) ∧
          ((numTail s = (.numInt, sg.length + ds.length) ∧ (∀ t, r = '.' :: t → t.head? = some '.')) ∨
           (∃ ds' r', r = '.' :: ds' ++ r' ∧ AllDigits ds' ∧ (∀ x, r'.head? = some x → digit x = false) ∧
             (ds' ++ r').head? ≠ some '.' ∧ numTail s = (.numReal, sg.length + ds.length + 1 + ds'.length))) := by
      intro a s _ hs
      obtain ⟨ds, r, e1, e2, e3, e4⟩ := numTail_cases s
      rcases startsNumeral_head hs with hd | rfl
      · refine ⟨[], a, ds, r, Or.inl rfl, by simp [e1], hd, e2, e3, ?_⟩
        rcases e4 with ⟨e4, e5⟩ | ⟨ds', r', e4, e5, e6, e7, e8⟩
        · left; refine ⟨?_, e5⟩; rw [e4]; simp
        · right; refine ⟨ds', r', e4, e5, e6, e7, ?_⟩; rw [e8]; simp
      · have : startsDigit s = true := by
          simp only [startsNumeral, Bool.or_eq_true, Bool.and_eq_true] at hs
          rcases hs with hs | hs
          · exact absurd hs (by decide)
          · exact hs.2
        cases ds with
        | nil =>
          exfalso
          simp at e1; subst e1
          cases s with
          | nil => simp [startsDigit] at this
          | cons b s => simp only [startsDigit] at this; rw [e3 b rfl] at this; cases this
        | cons d ds =>
          refine ⟨['-'], d, ds, r, Or.inr rfl, by simp [e1], e2 d (by simp), fun x hx => e2 x (by simp [hx]), e3, ?_⟩
          rcases e4 with ⟨e4, e5⟩ | ⟨ds', r', e4, e5, e6, e7, e8⟩
          · left; refine ⟨?_, e5⟩; rw [e4]; simp; omega
          · right; refine ⟨ds', r', e4, e5, e6, e7, ?_⟩; rw [e8]; simp; omega
    constructor
    · intro ht
      rw [ht] at h4
      obtain ⟨a, s, e, _, h8, h9, h10⟩ := lexOne_kind h4
      rw [e] at h8
      obtain ⟨sg, d, ds, r, g1, g2, g3, g4, g5, g6⟩ := key a s e h8
      rcases g6 with ⟨g6, g7⟩ | ⟨ds', r', _, _, _, _, g6⟩
      · rw [g6] at h10
        have hk : k = (sg ++ d :: ds).length := by rw [h10]; simp; omega
        rw [adv_rest, g2] at e
        have hrest : c'.rest = r := by rw [h3, adv_rest, ← List.drop_drop, e, hk]; exact List.drop_left' rfl
        refine ⟨sg, d :: ds, ?_, g1, by simp, ?_, ?_, ?_⟩
        · rw [h7, e, hk]; exact List.take_left' rfl
        · intro x hx; cases hx with
          | head => exact g3
          | tail _ hx => exact g4 x hx
        · rw [hrest]; exact g5
        · rw [hrest]; exact g7
      · rw [g6] at h9; cases h9
    · intro ht
      rw [ht] at h4
      obtain ⟨a, s, e, _, h8, h9, h10⟩ := lexOne_kind h4
      rw [e] at h8
      obtain ⟨sg, d, ds, r, g1, g2, g3, g4, g5, g6⟩ := key a s e h8
      rcases g6 with ⟨g6, g7⟩ | ⟨ds', r', f1, f2, f3, f4, g6⟩
      · rw [g6] at h9; cases h9
      · rw [g6] at h10
        have hk : k = (sg ++ d :: ds ++ '.' :: ds').length := by rw [h10]; simp; omega
        rw [adv_rest, g2, f1] at e
        have e' : c.rest.drop j = (sg ++ d :: ds ++ '.' :: ds') ++ r' := by rw [e]; simp
        have hrest : c'.rest = r' := by rw [h3, adv_rest, ← List.drop_drop, e', hk]; exact List.drop_left' rfl
        refine ⟨sg, d :: ds, ds', ?_, g1, by simp, ?_, f2, ?_, ?_⟩
        · rw [h7, e', hk]; exact List.take_left' rfl
        · intro x hx; cases hx with
          | head => exact g3
          | tail _ hx => exact g4 x hx
        · rw [hrest]; exact f3
        · intro hn; rw [hrest]; rw [hn] at f4; exact f4

theorem gets_int (c : Cursor) (hc : Reachable c) (a r : Str) (hrest : c.rest = a ++ r) (ha : a ≠ [])
    (had : AllDigits a) (hr : ∀ x, r.head? = some x → digit x = false)
    (hp : ∀ t, r = '.' :: t → t.head? = some '.') :
    ∃ t, Gets u order fl c (adv a.length c) (some t) ∧ t.typ = .numInt ∧ t.raw = a := by
  cases a with
  | nil => exact absurd rfl ha
  | cons d ds =>
    have hd : startsNumeral (d :: (ds ++ r)) = true := by
      simp only [startsNumeral, had d (by simp), Bool.true_or]
    have hl := lexOne_numeral u hd
    rw [numTail_int (fun x hx => had x (by simp [hx])) hr hp] at hl
    have hl' : lexOne u c.rest = .tok .numInt (d :: ds).length := by
      rw [hrest, List.cons_append, hl]; simp; omega
    refine ⟨_, gets_here ho hc.wf hl' (skips_false (by simp) (by simp)), rfl, ?_⟩
    rw [mkTok_raw _ (lexOne_bounds hl').2.1, hrest]; exact List.take_left' rfl

/-- For all digit strings `a` and `b`, the text `a..b` gives integer `a`, symbol `..`, integer `b` (unless
what follows continues `b`). -/
theorem C09_range (c : Cursor) (hc : Reachable c) (a b r : Str) (hrest : c.rest = a ++ '.' :: '.' :: (b ++ r))
    (ha : a ≠ []) (hb : b ≠ []) (had : AllDigits a) (hbd : AllDigits b)
    (hr : ∀ x, r.head? = some x → digit x = false) (hp : ∀ t, r = '.' :: t → t.head? = some '.') :
    ∃ t1 t2 t3 c', Run u order fl c [t1, t2, t3] c' ∧ c'.rest = r ∧
      t1.typ = .numInt ∧ t1.raw = a ∧ t2.typ = .symbol ∧ t2.raw = r!".." ∧ t3.typ = .numInt ∧ t3.raw = b := by
  obtain ⟨t1, g1, g2, g3⟩ := gets_int u order ho fl c hc a _ hrest ha had
    (by intro x hx; simp at hx; subst hx; decide) (by intro t ht; injection ht with _ ht; subst ht; rfl)
  have r1 : (adv a.length c).rest = '.' :: '.' :: (b ++ r) := by
    rw [adv_rest, hrest]; exact List.drop_left' rfl
  have l2 : lexOne u (adv a.length c).rest = .tok .symbol 2 := by rw [r1]; exact lexOne_pair u (by decide)
  have g4 := gets_here (fl := fl) ho (adv_wf hc.wf a.length) l2 (skips_false (by simp) (by simp))
  have r2 : (adv 2 (adv a.length c)).rest = b ++ r := by rw [adv_rest, r1]; rfl
  obtain ⟨t3, g5, g6, g7⟩ := gets_int u order ho fl (adv 2 (adv a.length c)) ((hc.adv _).adv _) b r r2 hb hbd hr hp
  refine ⟨t1, _, t3, _, .cons g1 (.cons g4 (.cons g5 (.nil _))), ?_, g2, g3, rfl, ?_, g6, g7⟩
  · rw [adv_rest, r2]; exact List.drop_left' rfl
  · rw [mkTok_raw _ (lexOne_bounds l2).2.1, r1]; rfl

/-- A minus sign that no digit follows directly is a symbol of its own.  (Missing for the full claim: a binary
minus directly followed by a digit.) -/
theorem C09_minus_partial (c : Cursor) (hc : Reachable c) (r : Str) (hrest : c.rest = '-' :: r)
    (hr : ∀ x, r.head? = some x → digit x = false) :
    ∃ c' t, Gets u order fl c c' (some t) ∧ t.typ = .symbol ∧ t.raw = ['-'] ∧ c'.rest = r := by
  have hn : startsNumeral ('-' :: r) = false := by
    cases r with
    | nil => decide
    | cons x r => simp only [startsNumeral, startsDigit, hr x rfl, Bool.and_false, Bool.or_false]; decide
  have hp : startsPair ('-' :: r) = false := by
    cases r with
    | nil => decide
    | cons x r =>
      have : ∀ y ∈ symbolPairs, y.1 ≠ '-' := by decide
      simp only [startsPair, startsWithPair]
      cases hh : symbolPairs.contains ('-', x) with
      | false => rfl
      | true => exact absurd rfl (this _ (List.contains_iff_mem.mp hh))
  have hl := lexOne_single u (a := '-') (t := r) (by decide) (by decide) (fun h => absurd h.1 (by decide))
    (fun h => absurd h.1 (by decide)) (by decide) hn hp
  rw [← hrest] at hl
  refine ⟨_, _, gets_here ho hc.wf hl (skips_false (by simp) (by simp)), rfl, ?_, ?_⟩
  · rw [mkTok_raw _ (lexOne_bounds hl).2.1, hrest]; rfl
  · rw [adv_rest, hrest]; rfl

omit ho in
/-- The full claim is false: `a-1` gives two tokens, the identifier `a` and the numeral `-1`. -/
theorem C09_refuted : ∃ t1 t2 c', Run asciiUni doubleSymbols Flags.none (Cursor.new r!"a-1") [t1, t2] c' ∧
    c'.rest = [] ∧ t1.view = (.ident, r!"a") ∧ t2.view = (.numInt, r!"-1") :=
  ⟨⟨.ident, r!"a-1", ⟨1, 1, 0⟩, ⟨1, 2, 1⟩⟩, ⟨.numInt, r!"a-1", ⟨1, 2, 1⟩, ⟨1, 4, 3⟩⟩,
    ⟨r!"a-1", ⟨1, 4, 3⟩, false⟩, run_of_tokensN (fuel := 9) (n := 2) (by decide), by decide, by decide, by decide⟩

omit ho in
/-- non-vacuity of `C09_range`: `10..25;` -/
example : (Cursor.new r!"10..25;").rest = r!"10" ++ '.' :: '.' :: (r!"25" ++ r!";") ∧ AllDigits r!"10" ∧
    AllDigits r!"25" := ⟨rfl, by unfold AllDigits; decide, by unfold AllDigits; decide⟩

omit ho in
/-- non-vacuity of `C09_shape`: a real numeral. -/
example : (getNext asciiUni doubleSymbols Flags.none 12 (Cursor.new r!"-1.5;")).map (fun r => r.2.map Token.view)
    = some (some (.numReal, r!"-1.5")) := by decide

end TP.Props
