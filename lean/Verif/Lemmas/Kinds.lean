import Verif.Lemmas.Open

/-!
# First lexemes by kind
-/

namespace TP
open Cursor Spec

/-- runes that begin no word: used to separate the cases of the specification -/
def nonWordRunes : List Char := NUL :: symbolRunes

theorem wordHead_false {u : Uni} {a : Char} (h : a ∈ nonWordRunes) : wordHead u a = false := by
  have key : ∀ x ∈ nonWordRunes, x.toNat < 128 ∧ asciiLetter x = false ∧ (x == '_') = false := by decide
  obtain ⟨h1, h2, h3⟩ := key a h
  unfold wordHead
  rw [u.letter_ascii a h1, h2, h3]; rfl

theorem digit_range {a : Char} (h : digit a = true) : 48 ≤ a.toNat ∧ a.toNat ≤ 57 := by
  rw [← isDigit_eq] at h; unfold isDigit at h; simpa using h

theorem wordHead_digit {u : Uni} {a : Char} (h : digit a = true) : wordHead u a = false := by
  have hr := digit_range h
  unfold wordHead
  rw [u.letter_ascii a (by omega)]
  have h1 : asciiLetter a = false := by
    unfold asciiLetter asciiLower asciiUpper
    simp only [Bool.or_eq_false_iff, Bool.and_eq_false_iff, decide_eq_false_iff_not]
    omega
  have h2 : (a == '_') = false := by
    rw [beq_eq_false_iff_ne]; intro e; subst e; exact absurd hr (by decide)
  rw [h1, h2]; rfl

theorem space_nonword {u : Uni} {a : Char} (h : a ∈ nonWordRunes) : u.isSpace a = false := by
  have key : ∀ x ∈ nonWordRunes, x.toNat < 128 ∧ asciiSpace x = false := by decide
  obtain ⟨h1, h2⟩ := key a h
  rw [u.space_ascii a h1, h2]

theorem space_digit {u : Uni} {a : Char} (h : digit a = true) : u.isSpace a = false := by
  have hr := digit_range h
  rw [u.space_ascii a (by omega)]
  unfold asciiSpace
  simp only [Bool.or_eq_false_iff, Bool.and_eq_false_iff, decide_eq_false_iff_not, beq_eq_false_iff_ne]
  omega

theorem space_wordHead {u : Uni} {a : Char} (h : wordHead u a = true) : u.isSpace a = false := by
  unfold wordHead at h
  simp only [Bool.or_eq_true, beq_iff_eq] at h
  rcases h with h | h
  · exact u.letter_not_space a h
  · subst h; rw [u.space_ascii _ (by decide)]; decide

theorem startsPair_head {a : Char} {t : Str} (h : startsPair (a :: t) = true) : a ∈ symbolRunes := by
  cases t with
  | nil => simp [startsPair, startsWithPair] at h
  | cons b t =>
    simp only [startsPair, startsWithPair, List.contains_iff_mem] at h
    have key : ∀ x ∈ symbolPairs, x.1 ∈ symbolRunes := by decide
    exact key _ h

theorem startsNumeral_head {a : Char} {t : Str} (h : startsNumeral (a :: t) = true) :
    digit a = true ∨ a = '-' := by
  simp only [startsNumeral, Bool.or_eq_true, Bool.and_eq_true, beq_iff_eq] at h
  rcases h with h | h
  · exact Or.inl h
  · exact Or.inr h.1

/-- everything that follows from `a` not being one of the runes that begin symbols, comments, strings -/
theorem lexOne_nonsymbol (u : Uni) {a : Char} {t : Str} (h : a ∉ nonWordRunes) (hd : digit a = false) :
    lexOne u (a :: t) =
      if wordHead u a then
        .tok (if keywords.contains (u.toUpper (a :: t.takeWhile (wordRune u))) then .reserved else .ident)
          (a :: t.takeWhile (wordRune u)).length
      else if u.isSpace a then .tok .space (1 + (t.takeWhile u.isSpace).length)
      else .stuck := by
  have hne : ∀ x ∈ nonWordRunes, a ≠ x := fun x hx e => h (e ▸ hx)
  have h0 := hne NUL (by decide)
  have h1 := hne '{' (by decide)
  have h2 := hne '/' (by decide)
  have h3 := hne '(' (by decide)
  have h4 := hne '\'' (by decide)
  have h5 : startsNumeral (a :: t) = false := by
    cases hs : startsNumeral (a :: t) with
    | false => rfl
    | true =>
      rcases startsNumeral_head hs with h | h
      · rw [hd] at h; cases h
      · exact absurd h (hne '-' (by decide))
  have h6 : startsPair (a :: t) = false := by
    cases hs : startsPair (a :: t) with
    | false => rfl
    | true => exact absurd (List.mem_cons_of_mem NUL (startsPair_head hs)) h
  have h7 : symbolRunes.contains a = false := by
    cases hs : symbolRunes.contains a with
    | false => rfl
    | true => exact absurd (List.mem_cons_of_mem NUL (List.contains_iff_mem.mp hs)) h
  simp only [lexOne, h0, h1, h2, h3, h4, h5, h6, h7, if_false, false_and, Bool.false_eq_true]

theorem takeWhile_append_stop {p : Char → Bool} {w r : Str} (hw : ∀ x ∈ w, p x = true)
    (hr : ∀ x, r.head? = some x → p x = false) : (w ++ r).takeWhile p = w := by
  induction w with
  | nil =>
    cases r with
    | nil => rfl
    | cons x r => simp [hr x rfl]
  | cons y w ih =>
    simp [hw y (by simp), ih (fun x hx => hw x (by simp [hx]))]

theorem lexOne_word (u : Uni) {a : Char} {w r : Str} (ha : wordHead u a = true)
    (hw : ∀ x ∈ w, wordRune u x = true) (hr : ∀ x, r.head? = some x → wordRune u x = false) :
    lexOne u (a :: w ++ r) =
      .tok (if keywords.contains (u.toUpper (a :: w)) then .reserved else .ident) (a :: w).length := by
  have h1 : a ∉ nonWordRunes := fun h => by rw [wordHead_false h] at ha; cases ha
  have h2 : digit a = false := by
    cases hd : digit a with
    | false => rfl
    | true => rw [wordHead_digit hd] at ha; cases ha
  rw [List.cons_append, lexOne_nonsymbol u h1 h2, if_pos ha, takeWhile_append_stop hw hr]

theorem lexOne_space (u : Uni) {a : Char} {w r : Str} (ha : u.isSpace a = true)
    (hw : ∀ x ∈ w, u.isSpace x = true) (hr : ∀ x, r.head? = some x → u.isSpace x = false) :
    lexOne u (a :: w ++ r) = .tok .space (a :: w).length := by
  have h1 : a ∉ nonWordRunes := fun h => by rw [space_nonword h] at ha; cases ha
  have h2 : digit a = false := by
    cases hd : digit a with
    | false => rfl
    | true => rw [space_digit hd] at ha; cases ha
  have h3 : wordHead u a = false := by
    cases hd : wordHead u a with
    | false => rfl
    | true => rw [space_wordHead hd] at ha; cases ha
  rw [List.cons_append, lexOne_nonsymbol u h1 h2, h3, if_pos ha, takeWhile_append_stop hw hr]
  simp [Nat.add_comm]

/-- What a lexeme of a kind looks like. -/
theorem lexOne_kind {u : Uni} {s : Str} {ty : TType} {n : Nat} (h : lexOne u s = .tok ty n) :
    ∃ a t, s = a :: t ∧ a ≠ NUL ∧
      match ty with
      | .comment =>
        (a = '{' ∧ n = min (lenUntil (fun c => c == '}' || c == NUL) t + 2) s.length) ∨
        (a = '/' ∧ t.head? = some '/' ∧ n = 1 + lenUntil (fun c => c == '\n' || c == NUL) t) ∨
        (a = '(' ∧ t.head? = some '*' ∧ n = 1 + starLen t)
      | .charString => a = '\'' ∧ ∃ m, quoteLen NUL t = some m ∧ n = 1 + m
      | .numInt => startsNumeral s = true ∧ (numTail t).1 = .numInt ∧ n = 1 + (numTail t).2
      | .numReal => startsNumeral s = true ∧ (numTail t).1 = .numReal ∧ n = 1 + (numTail t).2
      | .symbol =>
        startsNumeral s = false ∧ a ≠ '\'' ∧ a ≠ '{' ∧ a ∈ symbolRunes ∧
        ((startsPair s = true ∧ n = 2) ∨ (startsPair s = false ∧ n = 1))
      | .ident => wordHead u a = true ∧ n = (a :: t.takeWhile (wordRune u)).length ∧
          keywords.contains (u.toUpper (a :: t.takeWhile (wordRune u))) = false
      | .reserved => wordHead u a = true ∧ n = (a :: t.takeWhile (wordRune u)).length ∧
          keywords.contains (u.toUpper (a :: t.takeWhile (wordRune u))) = true
      | .space => u.isSpace a = true ∧ n = 1 + (t.takeWhile u.isSpace).length
      | .eof => False
      | .qualIdent => False
      | .label => False := by
  cases s with
  | nil => simp [lexOne] at h
  | cons a t =>
    refine ⟨a, t, rfl, ?_⟩
    simp only [lexOne] at h
    by_cases h0 : a = NUL
    · simp [h0] at h
    refine ⟨h0, ?_⟩
    rw [if_neg h0] at h
    by_cases h1 : a = '{'
    · rw [if_pos h1] at h; injection h with e1 e2; subst e1; subst e2; exact Or.inl ⟨h1, rfl⟩
    rw [if_neg h1] at h
    by_cases h2 : a = '/' ∧ t.head? = some '/'
    · rw [if_pos h2] at h; injection h with e1 e2; subst e1; subst e2; exact Or.inr (Or.inl ⟨h2.1, h2.2, rfl⟩)
    rw [if_neg h2] at h
    by_cases h3 : a = '(' ∧ t.head? = some '*'
    · rw [if_pos h3] at h; injection h with e1 e2; subst e1; subst e2; exact Or.inr (Or.inr ⟨h3.1, h3.2, rfl⟩)
    rw [if_neg h3] at h
    by_cases h4 : a = '\''
    · rw [if_pos h4] at h
      cases hq : quoteLen NUL t with
      | none => rw [hq] at h; cases h
      | some m => rw [hq] at h; injection h with e1 e2; subst e1; subst e2; exact ⟨h4, m, rfl, rfl⟩
    rw [if_neg h4] at h
    by_cases h5 : startsNumeral (a :: t) = true
    · rw [if_pos h5] at h; injection h with e1 e2; subst e2
      have : (numTail t).1 = .numInt ∨ (numTail t).1 = .numReal := by unfold numTail; split <;> simp
      rcases this with h6 | h6
      · rw [h6] at e1; subst e1; exact ⟨h5, h6, rfl⟩
      · rw [h6] at e1; subst e1; exact ⟨h5, h6, rfl⟩
    rw [if_neg h5] at h
    have h5' : startsNumeral (a :: t) = false := by simpa using h5
    by_cases h6 : startsPair (a :: t) = true
    · rw [if_pos h6] at h; injection h with e1 e2; subst e1; subst e2
      exact ⟨h5', h4, h1, startsPair_head h6, Or.inl ⟨h6, rfl⟩⟩
    rw [if_neg h6] at h
    have h6' : startsPair (a :: t) = false := by simpa using h6
    by_cases h7 : symbolRunes.contains a = true
    · rw [if_pos h7] at h; injection h with e1 e2; subst e1; subst e2
      exact ⟨h5', h4, h1, List.contains_iff_mem.mp h7, Or.inr ⟨h6', rfl⟩⟩
    rw [if_neg h7] at h
    by_cases h8 : wordHead u a = true
    · rw [if_pos h8] at h; injection h with e1 e2
      by_cases h9 : keywords.contains (u.toUpper (a :: t.takeWhile (wordRune u))) = true
      · rw [if_pos h9] at e1; subst e1; exact ⟨h8, e2.symm, h9⟩
      · rw [if_neg h9] at e1; subst e1; exact ⟨h8, e2.symm, by simpa using h9⟩
    rw [if_neg h8] at h
    by_cases h9 : u.isSpace a = true
    · rw [if_pos h9] at h; injection h with e1 e2; subst e1; subst e2; exact ⟨h9, rfl⟩
    · rw [if_neg h9] at h; cases h

theorem lexOne_pair (u : Uni) {a b : Char} {t : Str} (h : (a, b) ∈ symbolPairs) :
    lexOne u (a :: b :: t) = .tok .symbol 2 := by
  have hs : startsPair (a :: b :: t) = true := by
    simp only [startsPair, startsWithPair, List.contains_iff_mem]; exact h
  have key : ∀ x ∈ symbolPairs, x.1 ≠ NUL ∧ x.1 ≠ '{' ∧ x.1 ≠ '/' ∧ ¬ (x.1 = '(' ∧ x.2 = '*') ∧ x.1 ≠ '\'' ∧
      digit x.1 = false ∧ x.1 ≠ '-' := by decide
  obtain ⟨h0, h1, h2, h3, h4, h5, h6⟩ := key _ h
  have h7 : startsNumeral (a :: b :: t) = false := by
    cases hn : startsNumeral (a :: b :: t) with
    | false => rfl
    | true =>
      rcases startsNumeral_head hn with h | h
      · rw [h5] at h; cases h
      · exact absurd h h6
  have h3' : ¬ (a = '(' ∧ (b :: t).head? = some '*') := by simpa using h3
  simp only at h0 h1 h2 h4
  simp only [lexOne, h0, h1, h2, h3', h4, h7, hs, if_false, false_and, Bool.false_eq_true, if_true]

theorem lexOne_single (u : Uni) {a : Char} {t : Str} (h : a ∈ symbolRunes)
    (h1 : a ≠ '{') (h2 : ¬ (a = '/' ∧ t.head? = some '/')) (h3 : ¬ (a = '(' ∧ t.head? = some '*'))
    (h4 : a ≠ '\'') (h5 : startsNumeral (a :: t) = false) (h6 : startsPair (a :: t) = false) :
    lexOne u (a :: t) = .tok .symbol 1 := by
  have h0 : a ≠ NUL := by
    have key : ∀ x ∈ symbolRunes, x ≠ NUL := by decide
    exact key a h
  have h7 : symbolRunes.contains a = true := List.contains_iff_mem.mpr h
  simp only [lexOne, h0, h1, h2, h3, h4, h5, h6, h7, if_false, Bool.false_eq_true, if_true]

theorem lexOne_numeral (u : Uni) {a : Char} {t : Str} (h : startsNumeral (a :: t) = true) :
    lexOne u (a :: t) = .tok (numTail t).1 (1 + (numTail t).2) := by
  have hne : ∀ x : Char, digit x = false → x ≠ '-' → a ≠ x := by
    intro x h1 h2 e
    subst e
    rcases startsNumeral_head h with h3 | h3
    · rw [h3] at h1; cases h1
    · exact h2 h3
  have h0 := hne NUL (by decide) (by decide)
  have h1 := hne '{' (by decide) (by decide)
  have h2 := hne '/' (by decide) (by decide)
  have h3 := hne '(' (by decide) (by decide)
  have h4 := hne '\'' (by decide) (by decide)
  simp only [lexOne, h0, h1, h2, h3, h4, h, if_false, false_and, if_true]

theorem up_asciiUp (u : Uni) {a b : Char} (h : asciiUp a = asciiUp b) : u.up a = u.up b := by
  have key : ∀ x : Char, asciiUp x = x ∨ (97 ≤ x.toNat ∧ x.toNat ≤ 122 ∧ (asciiUp x).toNat = x.toNat - 32) := by
    intro x
    unfold asciiUp
    split
    · rename_i hx
      unfold asciiLower at hx
      simp only [Bool.and_eq_true, decide_eq_true_eq] at hx
      right; refine ⟨hx.1, hx.2, ?_⟩
      have hv : (x.toNat - 32).isValidChar := by left; omega
      unfold Char.ofNat; rw [dif_pos hv]; rfl
    · left; rfl
  by_cases ha : a.toNat < 128
  · by_cases hb : b.toNat < 128
    · rw [u.up_ascii a ha, u.up_ascii b hb, h]
    · rcases key b with h1 | h1
      · rcases key a with h2 | h2
        · rw [h1, h2] at h; rw [h]
        · rw [h1] at h; have := congrArg Char.toNat h; omega
      · omega
  · rcases key a with h1 | h1
    · rcases key b with h2 | h2
      · rw [h1, h2] at h; rw [h]
      · rw [h1] at h; have := congrArg Char.toNat h; omega
    · omega

variable {u : Uni} {order : List (Char × Char)} {fl : Flags}

/-- A call in front of a lexeme that is not skipped. -/
theorem gets_here (ho : IsOrder order) {c : Cursor} (hc : c.WF) {ty : TType} {k : Nat}
    (hl : lexOne u c.rest = .tok ty k) (hs : fl.skips ty = false) :
    Gets u order fl c (adv k c) (some (mkTok ty (adv k c) c.pos)) := by
  rw [gets_iff ho hc, hl]; simp [hs]

theorem skips_false {ty : TType} (h1 : ty ≠ .space) (h2 : ty ≠ .comment) : fl.skips ty = false := by
  rcases fl with ⟨_ | _, _ | _⟩ <;> cases ty <;> first | rfl | contradiction

end TP
