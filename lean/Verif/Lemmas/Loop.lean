import Verif.Lemmas.Cursor
import Verif.Spec.Lex

/-!
# Loops over a cursor
-/

namespace TP
open Cursor

/-- What a loop that advances the cursor and looks only at the remaining text does, as a function of the
remaining text: the number of runes it passes after the first advance, and its result. -/
def loopScan {σ β : Type} (act : σ → Str → σ ⊕ β) : σ → Str → Option (Nat × β)
  | s, [] =>
    match act s [] with
    | .inr b => some (0, b)
    | .inl _ => none
  | s, x :: t =>
    match act s (x :: t) with
    | .inr b => some (0, b)
    | .inl s' =>
      match loopScan act s' t with
      | some (k, b) => some (k + 1, b)
      | none => none

theorem goLoop_scan {σ β τ γ : Type} (act : σ → Str → σ ⊕ β) (body : τ → τ ⊕ γ)
    (mk : Cursor → σ → τ) (fin : Cursor → β → γ)
    (hb : ∀ c s, body (mk c s) =
      match act s c.next.1.rest with
      | .inl s' => .inl (mk c.next.1 s')
      | .inr b => .inr (fin c.next.1 b))
    (hend : (∀ s, ∃ s', act s [] = .inl s') ∨ (∀ s, ∃ b, act s [] = .inr b))
    (fuel : Nat) (c : Cursor) (s : σ) :
    goLoop body fuel (mk c s) =
      match loopScan act s c.rest.tail with
      | some (k, b) => if k < fuel then some (fin (adv (k + 1) c) b) else none
      | none => none := by
  induction fuel generalizing c s with
  | zero =>
    simp only [goLoop]
    cases h : loopScan act s c.rest.tail with
    | none => rfl
    | some kb => simp
  | succ n ih =>
    rw [goLoop, hb]
    rw [next_rest]
    cases hr : c.rest.tail with
    | nil =>
      simp only [loopScan]
      cases ha : act s [] with
      | inr b => simp [adv_succ]
      | inl s' =>
        simp only
        rw [ih, next_rest, hr, List.tail_nil]
        simp only [loopScan]
        cases hend with
        | inl h => obtain ⟨s'', h''⟩ := h s'; rw [h'']
        | inr h => obtain ⟨b, h''⟩ := h s; rw [h''] at ha; cases ha
    | cons x t =>
      simp only [loopScan]
      cases ha : act s (x :: t) with
      | inr b => simp [adv_succ]
      | inl s' =>
        simp only
        rw [ih, next_rest, hr, List.tail_cons]
        cases hl : loopScan act s' t with
        | none => rfl
        | some kb =>
          obtain ⟨k, b⟩ := kb
          simp only [Nat.add_lt_add_iff_right]
          rw [adv_succ (k + 1)]

theorem isDigit_eq (r : Char) : isDigit r = Spec.digit r := by
  rw [Bool.eq_iff_iff]
  unfold isDigit Spec.digit
  simp only [Bool.and_eq_true, decide_eq_true_eq, Char.le_def, UInt32.le_iff_toNat_le]
  rfl

theorem isWordHead_eq (u : Uni) (r : Char) : isWordHead u r = Spec.wordHead u r := by
  unfold isWordHead Spec.wordHead; rw [Bool.or_comm]

theorem isWord_eq (u : Uni) (r : Char) : isWord u r = Spec.wordRune u r := by
  unfold isWord Spec.wordRune; rw [isWordHead_eq, isDigit_eq, Bool.or_comm]

theorem isReservedWord_eq (u : Uni) (w : Str) : isReservedWord u w = Spec.keywords.contains (u.toUpper w) := by
  have h : ∀ x, x ∈ reservedWords ↔ x ∈ Spec.keywords := by
    have h1 : ∀ x ∈ reservedWords, x ∈ Spec.keywords := by decide
    have h2 : ∀ x ∈ Spec.keywords, x ∈ reservedWords := by decide
    exact fun x => ⟨h1 x, h2 x⟩
  unfold isReservedWord
  rw [Bool.eq_iff_iff]; simp [h]

/-- Loops that stop at a rune. -/
def stopAct (stop : Char → Bool) : Unit → Str → Unit ⊕ Unit :=
  fun _ s => if stop (s.head?.getD NUL) then .inr () else .inl ()

theorem loopScan_stop (stop : Char → Bool) (h0 : stop NUL = true) (s : Str) :
    loopScan (stopAct stop) () s = some (Spec.lenUntil stop s, ()) := by
  induction s with
  | nil => simp [loopScan, stopAct, h0, Spec.lenUntil]
  | cons x t ih =>
    simp only [loopScan, stopAct, List.head?_cons, Option.getD_some]
    by_cases h : stop x = true
    · simp [h, Spec.lenUntil]
    · simp only [h, Bool.false_eq_true, if_false]
      have h' : stop x = false := by simpa using h
      rw [ih]; simp [Spec.lenUntil, h']

theorem goLoop_stop (stop : Char → Bool) (h0 : stop NUL = true) (body : Cursor → Cursor ⊕ Cursor)
    (hb : ∀ c, body c = if stop c.next.2 then .inr c.next.1 else .inl c.next.1) (fuel : Nat) (c : Cursor) :
    goLoop body fuel c =
      if Spec.lenUntil stop c.rest.tail < fuel then some (adv (Spec.lenUntil stop c.rest.tail + 1) c)
      else none := by
  have := goLoop_scan (stopAct stop) body (fun c _ => c) (fun c _ => c)
    (by intro c _; rw [hb, next_snd']; simp only [stopAct]; split <;> rfl)
    (Or.inr (fun s => ⟨(), by simp [stopAct, h0]⟩)) fuel c ()
  rw [loopScan_stop stop h0] at this
  exact this

theorem lenUntil_le (stop : Char → Bool) (s : Str) : Spec.lenUntil stop s ≤ s.length :=
  (List.takeWhile_prefix _).length_le

/-! ## the `(*` loop -/

def parenAct : Unit → Str → Unit ⊕ Bool :=
  fun _ s =>
    if s.head?.getD NUL = '*' ∧ (s[1]?).getD NUL = ')' then .inr true
    else if s.head?.getD NUL = NUL then .inr false
    else .inl ()

theorem loopScan_paren (s : Str) :
    ∃ k b, loopScan parenAct () s = some (k, b) ∧ k ≤ s.length ∧
      (b = true → k + 2 = Spec.starLen s) ∧ (b = false → min (k + 1) s.length = Spec.starLen s) := by
  induction s with
  | nil => exact ⟨0, false, by decide, by simp, by simp, by simp [Spec.starLen]⟩
  | cons x t ih =>
    have hx : ∀ t : Str, (((x :: t)[1]?).getD NUL = ')') ↔ t.head? = some ')' := by
      intro t; cases t with
      | nil => simp; decide
      | cons y t => simp
    simp only [loopScan, parenAct, List.head?_cons, Option.getD_some, hx]
    by_cases h : x = '*' ∧ t.head? = some ')'
    · exact ⟨0, true, by simp [h], by simp, by simp [Spec.starLen, h], by simp⟩
    · by_cases h2 : x = NUL
      · refine ⟨0, false, ?_, by simp, by simp, ?_⟩
        · simp only [h2, if_true]
          rw [if_neg]; intro h'; exact absurd h'.1 (by decide)
        · intro _
          simp only [Spec.starLen, h2, if_true, List.length_cons]
          rw [if_neg]; omega
          intro h'; exact absurd h'.1 (by decide)
      · simp only [h, if_false, h2, Spec.starLen]
        obtain ⟨k, b, h3, h4, h5, h6⟩ := ih
        refine ⟨k + 1, b, by rw [h3], by simp; omega, ?_, ?_⟩
        · intro hb; have := h5 hb; omega
        · intro hb; have := h6 hb; simp only [List.length_cons]; omega

theorem starLen_le (s : Str) : Spec.starLen s ≤ s.length := by
  induction s with
  | nil => simp [Spec.starLen]
  | cons x t ih =>
    simp only [Spec.starLen]
    split
    · rename_i h; cases t with
      | nil => simp at h
      | cons y t => simp
    · split <;> simp <;> omega

theorem goLoop_paren (fuel : Nat) {c : Cursor} (hc : c.WF) (hf : c.rest.length < fuel) (hne : c.rest ≠ []) :
    (goLoop parenBody fuel c).map (fun c' => c'.next.1) = some (adv (1 + Spec.starLen c.rest.tail) c) := by
  have := goLoop_scan parenAct parenBody (fun c _ => c) (fun c b => if b then c.next.1 else c)
    (by
      intro c _
      simp only [parenBody, parenAct, next_snd', seek_eq]
      split
      · simp
      · split <;> simp)
    (Or.inr (fun s => ⟨false, by cases s; decide⟩)) fuel c ()
  rw [this]
  obtain ⟨k, b, h1, h2, h3, h4⟩ := loopScan_paren c.rest.tail
  rw [h1]
  have hk : k < fuel := by rw [List.length_tail] at h2; omega
  simp only [hk, if_true, Option.map_some]
  have hpos : 0 < c.rest.length := List.length_pos_iff.mpr hne
  rw [List.length_tail] at h4
  cases b with
  | true =>
    simp only [if_true]
    rw [← adv_succ', ← adv_succ', ← h3 rfl]
    congr 2; omega
  | false =>
    simp only [Bool.false_eq_true, if_false]
    rw [← adv_succ', adv_min hc]
    have := h4 rfl
    congr 2; omega

/-! ## the string loop -/

def stringAct : Char → Str → Char ⊕ Unit :=
  fun last s => if last ≠ '\\' ∧ s.head?.getD NUL = '\'' then .inr () else .inl (s.head?.getD NUL)

theorem loopScan_string (last : Char) (s : Str) :
    loopScan stringAct last s =
      match Spec.quoteLen last s with
      | none => none
      | some n => some (n - 1, ()) := by
  induction s generalizing last with
  | nil =>
    have : ¬ (last ≠ '\\' ∧ NUL = '\'') := fun h => absurd h.2 (by decide)
    simp [loopScan, stringAct, Spec.quoteLen, this]
  | cons x t ih =>
    simp only [loopScan, stringAct, Spec.quoteLen, List.head?_cons, Option.getD_some]
    by_cases h : last ≠ '\\' ∧ x = '\''
    · simp [h]
    · simp only [h, if_false]
      rw [ih]
      cases hq : Spec.quoteLen x t with
      | none => rfl
      | some n =>
        have : 0 < n := by
          cases t with
          | nil => simp [Spec.quoteLen] at hq
          | cons y t =>
            simp only [Spec.quoteLen] at hq
            split at hq
            · injection hq; omega
            · cases h3 : Spec.quoteLen y t with
              | none => rw [h3] at hq; cases hq
              | some m => rw [h3] at hq; simp at hq; omega
        have e : n - 1 + 1 = n := by omega
        simp [e]

theorem quoteLen_bounds {last : Char} {s : Str} {n : Nat} (h : Spec.quoteLen last s = some n) :
    0 < n ∧ n ≤ s.length := by
  induction s generalizing last n with
  | nil => simp [Spec.quoteLen] at h
  | cons x t ih =>
    simp only [Spec.quoteLen] at h
    split at h
    · injection h with h; subst h; simp
    · cases h3 : Spec.quoteLen x t with
      | none => rw [h3] at h; cases h
      | some m =>
        rw [h3] at h; simp at h
        have := ih h3; simp only [List.length_cons]; omega

theorem goLoop_string (fuel : Nat) (c : Cursor) :
    goLoop stringBody fuel (c, NUL) =
      match Spec.quoteLen NUL c.rest.tail with
      | none => none
      | some n => if n ≤ fuel then some (adv n c) else none := by
  have := goLoop_scan stringAct stringBody (fun c l => (c, l)) (fun c _ => c)
    (by
      intro c l
      simp only [stringBody, stringAct, next_snd']
      split <;> simp)
    (Or.inl (fun s => ⟨NUL, by
      have : ¬ (s ≠ '\\' ∧ NUL = '\'') := fun h => absurd h.2 (by decide)
      simp only [stringAct, List.head?_nil, Option.getD_none, this, if_false]⟩)) fuel c NUL
  rw [this, loopScan_string]
  cases h : Spec.quoteLen NUL c.rest.tail with
  | none => rfl
  | some n =>
    have := (quoteLen_bounds h).1
    have e : n - 1 + 1 = n := by omega
    simp only [e]
    congr 1; apply propext; omega

/-! ## the numeral loop -/

open Spec (digit)


def numAct : TType → Str → TType ⊕ TType :=
  fun ty s =>
    let r := s.head?.getD NUL
    if digit r then .inl ty
    else if r = NUL then .inr ty
    else if r = '.' then
      if (s[1]?).getD NUL = '.' then .inr ty
      else if ty = .numReal then .inr ty
      else .inl .numReal
    else .inr ty

theorem numAct_digit {ty : TType} {x : Char} {t : Str} (h : digit x = true) :
    numAct ty (x :: t) = .inl ty := by simp [numAct, h]

theorem numAct_other {ty : TType} {x : Char} {t : Str} (h : digit x = false) (h2 : x ≠ '.') :
    numAct ty (x :: t) = .inr ty := by
  simp only [numAct, List.head?_cons, Option.getD_some, h, h2, if_false, Bool.false_eq_true]
  split <;> rfl

theorem numAct_point {ty : TType} {t : Str} :
    numAct ty ('.' :: t) =
      if t.head? = some '.' ∨ ty = .numReal then .inr ty else .inl .numReal := by
  have h1 : digit '.' = false := by decide
  have h2 : ('.' : Char) ≠ NUL := by decide
  simp only [numAct, List.head?_cons, Option.getD_some, h1, h2, if_false, Bool.false_eq_true, if_true]
  have hx : ((('.' :: t)[1]?).getD NUL = '.') ↔ t.head? = some '.' := by
    cases t with
    | nil => simp; decide
    | cons y t => simp
  by_cases h3 : t.head? = some '.'
  · rw [if_pos (hx.mpr h3), if_pos (Or.inl h3)]
  · rw [if_neg (fun h => h3 (hx.mp h))]
    by_cases h4 : ty = .numReal
    · rw [if_pos h4, if_pos (Or.inr h4)]
    · rw [if_neg h4, if_neg]; intro h; cases h <;> contradiction

theorem loopScan_num_real (s : Str) :
    loopScan numAct .numReal s = some ((Spec.digits s).length, .numReal) := by
  induction s with
  | nil => decide
  | cons x t ih =>
    simp only [loopScan]
    by_cases h : digit x = true
    · rw [numAct_digit h]; simp only [ih, Spec.digits, List.takeWhile_cons, h, if_true, List.length_cons]
    · have h : digit x = false := by simpa using h
      by_cases h2 : x = '.'
      · subst h2; rw [numAct_point]; simp [Spec.digits, h]
      · rw [numAct_other h h2]; simp [Spec.digits, h]

theorem numTail_cons_digit {x : Char} {t : Str} (h : digit x = true) :
    Spec.numTail (x :: t) = ((Spec.numTail t).1, (Spec.numTail t).2 + 1) := by
  have e : Spec.afterDigits (x :: t) = Spec.afterDigits t := by
    simp [Spec.afterDigits, h]
  have e2 : (Spec.digits (x :: t)).length = (Spec.digits t).length + 1 := by simp [Spec.digits, h]
  unfold Spec.numTail
  rw [e, e2]
  split <;> simp <;> omega

theorem loopScan_num (s : Str) :
    loopScan numAct .numInt s = some ((Spec.numTail s).2, (Spec.numTail s).1) := by
  induction s with
  | nil => decide
  | cons x t ih =>
    by_cases h : digit x = true
    · simp only [loopScan]
      rw [numAct_digit h]; simp only [ih, numTail_cons_digit h]
    · have h : digit x = false := by simpa using h
      by_cases h2 : x = '.'
      · subst h2
        simp only [loopScan]
        rw [numAct_point]
        cases t with
        | nil => decide
        | cons y t =>
          by_cases h3 : y = '.'
          · subst h3; simp [Spec.numTail, Spec.afterDigits, Spec.digits, h]
          · simp only [List.head?_cons, Option.some.injEq, h3, false_or, reduceCtorEq, if_false,
              loopScan_num_real]
            unfold Spec.numTail
            have e : Spec.afterDigits ('.' :: y :: t) = '.' :: y :: t := by
              simp [Spec.afterDigits, h]
            rw [e]
            split
            · rename_i heq; injection heq with _ heq; injection heq with heq _; exact absurd heq h3
            · rename_i heq; injection heq with _ heq; subst heq
              simp [Spec.digits, h]; omega
            · rename_i h4; exact absurd rfl (h4 _)
      · simp only [loopScan]
        rw [numAct_other h h2]
        unfold Spec.numTail
        have e : Spec.afterDigits (x :: t) = x :: t := by simp [Spec.afterDigits, h]
        rw [e]
        have e2 : Spec.digits (x :: t) = [] := by simp [Spec.digits, h]
        rw [e2]
        show some (0, TType.numInt) = _
        split
        · rename_i heq; injection heq with heq _; exact absurd heq h2
        · rename_i heq; injection heq with heq _; exact absurd heq h2
        · rfl

theorem numTail_le (s : Str) : (Spec.numTail s).2 ≤ s.length := by
  induction s with
  | nil => decide
  | cons x t ih =>
    by_cases h : digit x = true
    · rw [numTail_cons_digit h]; simp; exact ih
    · have h : digit x = false := by simpa using h
      unfold Spec.numTail
      have e : Spec.afterDigits (x :: t) = x :: t := by simp [Spec.afterDigits, h]
      have e2 : Spec.digits (x :: t) = [] := by simp [Spec.digits, h]
      rw [e, e2]
      split
      · simp
      · rename_i heq; injection heq with h1 h2; subst h2
        have : (Spec.digits t).length ≤ t.length := (List.takeWhile_prefix _).length_le
        simp; omega
      · simp

theorem goLoop_num (fuel : Nat) (c : Cursor) :
    goLoop numeralBody fuel (c, .numInt) =
      if (Spec.numTail c.rest.tail).2 < fuel then
        some (adv ((Spec.numTail c.rest.tail).2 + 1) c, (Spec.numTail c.rest.tail).1)
      else none := by
  have := goLoop_scan numAct numeralBody (fun c l => (c, l)) (fun c b => (c, b))
    (by
      intro c l
      simp only [numeralBody, numAct, next_snd', seek_eq, isDigit_eq]
      split
      · simp
      · split
        · simp
        · split
          · split
            · simp
            · split <;> simp
          · simp)
    (Or.inr (fun s => ⟨s, by cases s <;> decide⟩)) fuel c .numInt
  rw [this, loopScan_num]

end TP
