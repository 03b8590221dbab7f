import Verif.Lemmas.Next
import Verif.Spec.Position

namespace TP
open Cursor Spec

theorem maskFirst_length (t : Str) : (maskFirst t).length = t.length := by cases t <;> simp [maskFirst]

theorem maskFirst_get_succ (t : Str) (n : Nat) : (maskFirst t)[n + 1]? = t[n + 1]? := by
  cases t <;> simp [maskFirst]

theorem maskFirst_head (t : Str) : (maskFirst t)[0]? ≠ some '\n' := by
  cases t with
  | nil => simp [maskFirst]
  | cons a t =>
    simp only [maskFirst, List.getElem?_cons_zero, ne_eq, Option.some.injEq]
    split
    · decide
    · assumption

theorem maskFirst_eq {t : Str} (h : t.head? ≠ some '\n') : maskFirst t = t := by
  cases t with
  | nil => rfl
  | cons a t => simp at h; simp [maskFirst, h]

theorem posAt_succ {m : Str} {n : Nat} {x : Char} (h : m[n]? = some x) :
    posAt m (n + 1) = ⟨if x = '\n' then lineAt m n + 1 else lineAt m n,
      (if x = '\n' then 0 else colAt m n) + 1, n + 1⟩ := by
  have e : m.take (n + 1) = m.take n ++ [x] := by
    rw [List.take_add_one, h]; rfl
  unfold posAt lineAt colAt
  rw [e]
  by_cases hx : x = '\n'
  · subst hx; simp; omega
  · simp [hx]; omega

theorem adv_new_pos (text : Str) {n : Nat} (hn : n ≤ text.length) :
    (adv n (Cursor.new text)).pos = posAt (maskFirst text) n ∧
    (adv n (Cursor.new text)).wasLF = decide ((maskFirst text)[n]? = some '\n') := by
  induction n with
  | zero =>
    refine ⟨by simp [Cursor.new, posAt, lineAt, colAt, Pos.new], ?_⟩
    have := maskFirst_head text
    simp only [adv_zero, Cursor.new]; simp [this]
  | succ n ih =>
    have ⟨ih1, ih2⟩ := ih (by omega)
    rw [adv_succ']
    have hi : (adv n (Cursor.new text)).pos.index = n := by rw [ih1]; rfl
    have ht : (adv n (Cursor.new text)).text = text := by rw [adv_text]; rfl
    rw [next_eq, if_pos (by rw [hi, ht]; omega)]
    have hx : ∃ x, (maskFirst text)[n]? = some x := by
      rw [← maskFirst_length] at hn
      exact ⟨_, List.getElem?_eq_getElem (by omega)⟩
    obtain ⟨x, hx⟩ := hx
    constructor
    · rw [posAt_succ hx, ih2, hx, ih1]
      simp [posAt]
    · show decide ((adv n (Cursor.new text)).seek 1 = '\n') = _
      have : (adv n (Cursor.new text)).seek 1 = (text[n + 1]?).getD NUL := by
        rw [seek_eq, rest, hi, ht, List.getElem?_drop]
      rw [this, maskFirst_get_succ]
      cases text[n + 1]? with
      | none => decide
      | some y => simp

/-- Start and end of a returned token are positions the cursor went through. -/
theorem gets_tok_pos {u : Uni} {order : List (Char × Char)} {fl : Flags} (ho : IsOrder order)
    {c c' : Cursor} {t : Token} (hc : c.WF) (h : Gets u order fl c c' (some t)) :
    ∃ j k, j + k ≤ c.rest.length ∧ t.start = (adv j c).pos ∧ t.stop = c'.pos ∧ c' = adv (j + k) c ∧
      t.text = c.text := by
  refine gets_induction ho (P := fun c c' o => ∀ t, o = some t →
    ∃ j k, j + k ≤ c.rest.length ∧ t.start = (adv j c).pos ∧ t.stop = c'.pos ∧ c' = adv (j + k) c ∧
      t.text = c.text) ?_ ?_ ?_ ?_ hc h t rfl
  · rintro c _ _ t ht; cases ht; exact ⟨0, 0, by omega, rfl, rfl, rfl, rfl⟩
  · rintro c _ _ t ht; cases ht
  · rintro c ty k c' o hc hl _ _ ih t ht
    obtain ⟨j, k', h1, h2, h3, h4, h5⟩ := ih t ht
    have hb := lexOne_bounds hl
    rw [adv_rest, List.length_drop] at h1
    refine ⟨k + j, k', by omega, ?_, h3, ?_, ?_⟩
    · rw [h2, adv_add]
    · rw [h4, ← adv_add, Nat.add_assoc]
    · rw [h5, adv_text]
  · rintro c ty k hc hl _ t ht; cases ht
    refine ⟨0, k, ?_, rfl, rfl, ?_, ?_⟩
    · have := (lexOne_bounds hl).2.1; omega
    · rw [Nat.zero_add]
    · rw [mkTok, adv_text]

end TP
