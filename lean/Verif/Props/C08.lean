import Verif.Lemmas.Kinds

/-!
# C08  Two-rune symbols win over one-rune symbols, independently of map iteration order
-/

namespace TP.Props
open TP Cursor Spec

/-- For any two orders in which the table of two-rune symbols may be iterated, a call behaves the same: same
token, same cursor, or not returning in both. -/
theorem C08_order_independent (u : Uni) (order order' : List (Char × Char)) (ho : IsOrder order)
    (ho' : IsOrder order') (fl : Flags) (c : Cursor) (hc : Reachable c) (c' : Cursor) (o : Option Token) :
    Gets u order fl c c' o ↔ Gets u order' fl c c' o := by
  have key : ∀ (p q : List (Char × Char)), IsOrder p → IsOrder q → Gets u p fl c c' o → Gets u q fl c c' o := by
    intro p q hp hq h
    refine gets_induction hp (P := fun c c' o => Gets u q fl c c' o) ?_ ?_ ?_ ?_ hc.wf h
    · intro c hc hl; rw [gets_iff hq hc, hl]; exact ⟨rfl, rfl⟩
    · intro c hc hl; rw [gets_iff hq hc, hl]; exact ⟨rfl, rfl⟩
    · intro c ty k c' o hc hl hs _ ih; rw [gets_iff hq hc, hl]; simp only [hs, if_true]; exact ih
    · intro c ty k hc hl hs; exact gets_here hq hc hl hs
  exact ⟨key _ _ ho ho', key _ _ ho' ho⟩

/-- The same for the processor of two-rune symbols alone, with all its effects on the cursor. -/
theorem C08_processor (order order' : List (Char × Char)) (ho : IsOrder order) (ho' : IsOrder order')
    (c : Cursor) (hne : c.rest ≠ []) : procDouble order c = procDouble order' c := by
  cases h : c.rest with
  | nil => exact absurd h hne
  | cons a t => rw [procDouble_cons h ho.mem, procDouble_cons h ho'.mem]

variable (u : Uni) (order : List (Char × Char)) (ho : IsOrder order) (fl : Flags)
include ho

/-- In front of two runes that form a two-rune symbol a call returns that symbol, never the first rune alone. -/
theorem C08_two_runes_win (c : Cursor) (hc : Reachable c) (a b : Char) (r : Str) (hrest : c.rest = a :: b :: r)
    (hab : [a, b] ∈ [r!"(.", r!".)", r!"..", r!":=", r!"<=", r!">=", r!"<>"]) :
    ∃ c' t, Gets u order fl c c' (some t) ∧ t.typ = .symbol ∧ t.raw = [a, b] ∧ c'.rest = r := by
  have hm : (a, b) ∈ symbolPairs := by
    simp only [List.mem_cons, List.not_mem_nil, or_false, List.cons.injEq, and_true] at hab
    simp only [symbolPairs, List.mem_cons, List.not_mem_nil, or_false, Prod.mk.injEq]
    exact hab
  have hl := lexOne_pair u (t := r) hm
  rw [← hrest] at hl
  refine ⟨_, _, gets_here ho hc.wf hl (skips_false (by simp) (by simp)), rfl, ?_, ?_⟩
  · rw [mkTok_raw _ (lexOne_bounds hl).2.1, hrest]; rfl
  · rw [adv_rest, hrest]; rfl

/-- Every symbol token is one of the 7 two-rune symbols, or a single symbol rune that does not begin a two-rune
symbol at that place. -/
theorem C08_symbols_exact (c c' : Cursor) (hc : Reachable c) (t : Token) (h : Gets u order fl c c' (some t))
    (ht : t.typ = .symbol) :
    t.raw ∈ [r!"(.", r!".)", r!"..", r!":=", r!"<=", r!">=", r!"<>"] ∨
    (∃ a, t.raw = [a] ∧ a ∈ r!"#$&()*+,-./:;<=>@[]^}" ∧
      ∀ b, c'.rest.head? = some b → [a, b] ∉ [r!"(.", r!".)", r!"..", r!":=", r!"<=", r!">=", r!"<>"]) := by
  obtain ⟨_, ⟨h1, _⟩ | ⟨j, k, h1, h2, h3, h4, h5, h6, h7⟩⟩ := gets_tok ho hc.wf h
  · rw [h1] at ht; cases ht
  · rw [ht] at h4
    obtain ⟨a, s, e, _, h8, h9, h10, h11, h12⟩ := lexOne_kind h4
    rw [adv_rest] at e
    have hp : ∀ b, (a, b) ∈ symbolPairs ↔ [a, b] ∈ [r!"(.", r!".)", r!"..", r!":=", r!"<=", r!">=", r!"<>"] := by
      intro b
      simp only [List.mem_cons, List.not_mem_nil, or_false, List.cons.injEq, and_true, symbolPairs, Prod.mk.injEq]
    rw [adv_rest, e] at h12
    rcases h12 with ⟨h12, h13⟩ | ⟨h12, h13⟩
    · left
      cases s with
      | nil => simp [startsPair, startsWithPair] at h12
      | cons b s =>
        rw [h7, e, h13]
        simp only [startsPair, startsWithPair, List.contains_iff_mem] at h12
        exact (hp b).mp h12
    · right
      refine ⟨a, by rw [h7, e, h13]; rfl, ?_, ?_⟩
      · have key : ∀ x ∈ symbolRunes, x ≠ '\'' → x ≠ '{' → x ∈ r!"#$&()*+,-./:;<=>@[]^}" := by decide
        exact key a h11 h9 h10
      · intro b hb
        rw [h3, adv_rest, ← List.drop_drop, e, h13] at hb
        rw [← hp]
        intro hm
        cases s with
        | nil => simp at hb
        | cons b' s =>
          simp at hb; subst hb
          simp only [startsPair, startsWithPair] at h12
          rw [List.contains_iff_mem.mpr hm] at h12; cases h12

omit ho in
/-- non-vacuity: another iteration order. -/
example : IsOrder doubleSymbols.reverse ∧ doubleSymbols.reverse ≠ doubleSymbols :=
  ⟨List.reverse_perm _, by decide⟩

omit ho in
/-- non-vacuity: `<=` in front of `x`. -/
example : (Cursor.new r!"<=x").rest = '<' :: '=' :: r!"x" ∧
    ['<', '='] ∈ [r!"(.", r!".)", r!"..", r!":=", r!"<=", r!">=", r!"<>"] := by decide

end TP.Props
