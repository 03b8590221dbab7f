import Verif.Model.Tokenizer

/-!
# Lemmas about cursors
-/

namespace TP
namespace Cursor

/-- Invariant of all reachable cursors. -/
structure WF (c : Cursor) : Prop where
  le : c.pos.index ≤ c.text.length
  lf : c.wasLF = true → c.rest.head? = some '\n'

theorem seek_eq (c : Cursor) (n : Nat) : c.seek n = (c.rest[n]?).getD NUL := by
  unfold seek rest
  rw [List.getElem?_drop]
  cases c.text[c.pos.index + n]? <;> rfl

theorem current_eq (c : Cursor) : c.current = c.rest.head?.getD NUL := by
  unfold current; rw [seek_eq]; cases c.rest <;> rfl

theorem next_eq (c : Cursor) :
    c.next =
      (if c.pos.index < c.text.length then
        (⟨c.text, ⟨if c.wasLF then c.pos.line + 1 else c.pos.line,
            (if c.wasLF then 0 else c.pos.col) + 1, c.pos.index + 1⟩,
            decide (c.seek 1 = '\n')⟩, c.seek 1)
       else (⟨c.text, if c.wasLF then c.pos.nextLine else c.pos, false⟩, NUL)) := by
  cases c with
  | mk text pos wasLF =>
    cases wasLF
    · by_cases h : pos.index < text.length
      · by_cases h2 : ({ text := text, pos := pos, wasLF := false } : Cursor).seek 1 = '\n'
        · simp only [next, h, if_true, if_false, h2, decide_true, Bool.false_eq_true]
          have : ({ text := text, pos := pos.inc.next, wasLF := false } : Cursor).seek 0 = '\n' := by
            rw [← h2]; rfl
          simp only [this]; rfl
        · simp only [next, h, if_true, if_false, Bool.false_eq_true]
          have : ({ text := text, pos := pos.inc.next, wasLF := false } : Cursor).seek 0 ≠ '\n' := by
            intro h3; apply h2; rw [← h3]; rfl
          simp only [this, h2, if_false, decide_false]; rfl
      · simp only [next, h, if_false, Bool.false_eq_true]
    · by_cases h : pos.index < text.length
      · by_cases h2 : ({ text := text, pos := pos, wasLF := true } : Cursor).seek 1 = '\n'
        · have hn : pos.nextLine.index = pos.index := rfl
          simp only [next, h, hn, if_true, h2, decide_true]
          have : ({ text := text, pos := pos.nextLine.inc.next, wasLF := false } : Cursor).seek 0 = '\n' := by
            rw [← h2]; rfl
          simp only [this]; rfl
        · have hn : pos.nextLine.index = pos.index := rfl
          simp only [next, h, hn, if_true]
          have : ({ text := text, pos := pos.nextLine.inc.next, wasLF := false } : Cursor).seek 0 ≠ '\n' := by
            intro h3; apply h2; rw [← h3]; rfl
          simp only [this, h2, if_false, decide_false]; rfl
      · have hn : pos.nextLine.index = pos.index := rfl
        simp only [next, h, hn, if_false, if_true]

@[simp] theorem next_text (c : Cursor) : c.next.1.text = c.text := by
  rw [next_eq]; split <;> rfl

theorem next_rest (c : Cursor) : c.next.1.rest = c.rest.tail := by
  rw [next_eq]; unfold rest
  split
  · simp [List.tail_drop]
  · rename_i h
    have h' : c.text.length ≤ c.pos.index := by omega
    have : (if c.wasLF then c.pos.nextLine else c.pos).index = c.pos.index := by split <;> rfl
    simp only [this, List.drop_eq_nil_of_le h', List.tail_nil]

theorem next_snd (c : Cursor) : c.next.2 = c.rest.tail.head?.getD NUL := by
  rw [next_eq]
  split
  · simp only [seek_eq]; cases c.rest with
    | nil => rfl
    | cons a t => cases t <;> rfl
  · rename_i h
    have h' : c.text.length ≤ c.pos.index := by omega
    simp [rest, List.drop_eq_nil_of_le h']

theorem next_snd' (c : Cursor) : c.next.2 = c.next.1.rest.head?.getD NUL := by
  rw [next_snd, next_rest]

theorem next_seek_one (c : Cursor) : c.next.1.seek 1 = (c.next.1.rest[1]?).getD NUL := seek_eq _ _

theorem next_end {c : Cursor} (h : c.WF) (hr : c.rest = []) : c.next.1 = c := by
  have h1 : c.wasLF = false := by
    cases hw : c.wasLF with
    | false => rfl
    | true => have := h.lf hw; rw [hr] at this; cases this
  have h2 : ¬ c.pos.index < c.text.length := by
    have := List.drop_eq_nil_iff.mp hr; omega
  rw [next_eq, if_neg h2, h1]
  cases c; simp_all

theorem next_wf {c : Cursor} (h : c.WF) : c.next.1.WF := by
  by_cases hr : c.rest = []
  · rw [next_end h hr]; exact h
  · have hlt : c.pos.index < c.text.length := by
      apply Nat.lt_of_not_le; intro hle; exact hr (List.drop_eq_nil_of_le hle)
    constructor
    · rw [next_eq, if_pos hlt]; exact hlt
    · intro hw
      rw [next_rest]
      rw [next_eq, if_pos hlt] at hw
      have hw : c.seek 1 = '\n' := by simpa using hw
      rw [seek_eq] at hw
      cases hc : c.rest with
      | nil => rw [hc] at hw; exact absurd hw (by decide)
      | cons a t =>
        rw [hc] at hw
        cases t with
        | nil => exact absurd (show NUL = '\n' from hw) (by decide)
        | cons b t => simp at hw; simp [hw]

theorem new_wf (t : Str) : (Cursor.new t).WF := ⟨Nat.zero_le _, fun h => by cases h⟩
theorem clone_wf {c : Cursor} (h : c.WF) : c.clone.WF := ⟨h.le, fun h => by cases h⟩

@[simp] theorem adv_zero (c : Cursor) : adv 0 c = c := rfl
theorem adv_succ (n : Nat) (c : Cursor) : adv (n + 1) c = adv n c.next.1 := rfl

theorem adv_add (m n : Nat) (c : Cursor) : adv (m + n) c = adv n (adv m c) := by
  induction m generalizing c with
  | zero => simp
  | succ m ih => rw [Nat.succ_add, adv_succ, ih, adv_succ]

theorem adv_succ' (n : Nat) (c : Cursor) : adv (n + 1) c = (adv n c).next.1 := by
  rw [adv_add]; rfl

@[simp] theorem adv_text (n : Nat) (c : Cursor) : (adv n c).text = c.text := by
  induction n generalizing c with
  | zero => rfl
  | succ n ih => rw [adv_succ, ih, next_text]

theorem adv_rest (n : Nat) (c : Cursor) : (adv n c).rest = c.rest.drop n := by
  induction n generalizing c with
  | zero => rfl
  | succ n ih => rw [adv_succ, ih, next_rest, List.drop_tail]

theorem adv_wf {c : Cursor} (h : c.WF) (n : Nat) : (adv n c).WF := by
  induction n generalizing c with
  | zero => exact h
  | succ n ih => rw [adv_succ]; exact ih (next_wf h)

theorem adv_end {c : Cursor} (h : c.WF) (hr : c.rest = []) (n : Nat) : adv n c = c := by
  induction n with
  | zero => rfl
  | succ n ih => rw [adv_succ, next_end h hr, ih]

/-- Advancing further than the end is advancing to the end. -/
theorem adv_min {c : Cursor} (h : c.WF) (n : Nat) : adv n c = adv (min n c.rest.length) c := by
  by_cases hn : n ≤ c.rest.length
  · rw [Nat.min_eq_left hn]
  · have hn' : c.rest.length ≤ n := by omega
    rw [Nat.min_eq_right hn']
    have : n = c.rest.length + (n - c.rest.length) := by omega
    conv => lhs; rw [this]
    rw [adv_add]
    apply adv_end (adv_wf h _)
    rw [adv_rest]; exact List.drop_length

theorem rest_length {c : Cursor} : c.rest.length = c.text.length - c.pos.index := by
  simp [rest]

theorem next_index {c : Cursor} (h : c.rest ≠ []) : c.next.1.pos.index = c.pos.index + 1 := by
  have hlt : c.pos.index < c.text.length := by
    apply Nat.lt_of_not_le; intro hle; exact h (List.drop_eq_nil_of_le hle)
  rw [next_eq, if_pos hlt]

theorem adv_index {c : Cursor} {n : Nat} (hn : n ≤ c.rest.length) :
    (adv n c).pos.index = c.pos.index + n := by
  induction n generalizing c with
  | zero => rfl
  | succ n ih =>
    have hne : c.rest ≠ [] := by intro h; rw [h] at hn; simp at hn
    rw [adv_succ, ih, next_index hne]
    · omega
    · rw [next_rest, List.length_tail]; omega

/-- The text of a token made of the next `n` runes. -/
theorem mkTok_raw {c : Cursor} {n : Nat} (ty : TType) (hn : n ≤ c.rest.length) :
    (mkTok ty (adv n c) c.pos).raw = c.rest.take n := by
  simp only [mkTok, Token.raw, adv_text, adv_index hn, rest]
  rw [List.drop_take]
  congr 1; omega

end Cursor
end TP
