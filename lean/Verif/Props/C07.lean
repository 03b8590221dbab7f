import Verif.Lemmas.Kinds

/-!
# C07  Words are maximal and keywords are case-insensitive
-/

namespace TP.Props
open TP Cursor Spec

variable (u : Uni) (order : List (Char × Char)) (ho : IsOrder order) (fl : Flags)
include ho

/-- In front of a word `a w` followed by anything that is not a word rune, a call returns exactly the word; it is
a ReservedWord if its upper-cased text is in the table and an Identifier otherwise. -/
theorem C07_word (c : Cursor) (hc : Reachable c) (a : Char) (w r : Str) (hrest : c.rest = a :: w ++ r)
    (ha : wordHead u a = true) (hw : ∀ x ∈ w, wordRune u x = true)
    (hr : ∀ x, r.head? = some x → wordRune u x = false) :
    ∃ c' t, Gets u order fl c c' (some t) ∧ t.raw = a :: w ∧ c'.rest = r ∧ t.start = c.pos ∧
      t.typ = if u.toUpper (a :: w) ∈ keywords then .reserved else .ident := by
  have hl := lexOne_word u ha hw hr
  rw [← hrest] at hl
  refine ⟨_, _, gets_here ho hc.wf hl (skips_false ?_ ?_), ?_, ?_, rfl, ?_⟩
  · split <;> simp
  · split <;> simp
  · rw [mkTok_raw _ (lexOne_bounds hl).2.1, hrest]; exact List.take_left' rfl
  · rw [adv_rest, hrest]; exact List.drop_left' rfl
  · simp [mkTok]

/-- Conversely, every Identifier or ReservedWord token is a maximal run of word runes beginning with a letter or
underscore, and its type is decided by the table. -/
theorem C07_word_conv (c c' : Cursor) (hc : Reachable c) (t : Token) (h : Gets u order fl c c' (some t))
    (ht : t.typ = .ident ∨ t.typ = .reserved) :
    (∃ a w, t.raw = a :: w ∧ wordHead u a = true ∧ ∀ x ∈ w, wordRune u x = true) ∧
    (∀ x, c'.rest.head? = some x → wordRune u x = false) ∧
    t.typ = if u.toUpper t.raw ∈ keywords then .reserved else .ident := by
  obtain ⟨_, ⟨h1, _⟩ | ⟨j, k, h1, h2, h3, h4, h5, h6, h7⟩⟩ := gets_tok ho hc.wf h
  · rw [h1] at ht; rcases ht with h | h <;> cases h
  · have key : ∃ a s, (adv j c).rest = a :: s ∧ wordHead u a = true ∧
        k = (a :: s.takeWhile (wordRune u)).length ∧
        (t.typ = if u.toUpper (a :: s.takeWhile (wordRune u)) ∈ keywords then .reserved else .ident) := by
      rcases ht with ht | ht
      · rw [ht] at h4
        obtain ⟨a, s, e, _, h8, h9, h10⟩ := lexOne_kind h4
        have : u.toUpper (a :: s.takeWhile (wordRune u)) ∉ keywords := by
          intro hm; rw [List.contains_iff_mem.mpr hm] at h10; cases h10
        exact ⟨a, s, e, h8, h9, by rw [if_neg this, ht]⟩
      · rw [ht] at h4
        obtain ⟨a, s, e, _, h8, h9, h10⟩ := lexOne_kind h4
        exact ⟨a, s, e, h8, h9, by rw [if_pos (List.contains_iff_mem.mp h10), ht]⟩
    obtain ⟨a, s, e, h8, h9, h10⟩ := key
    rw [adv_rest] at e
    have hpre := List.prefix_iff_eq_take.mp (List.takeWhile_prefix (l := s) (wordRune u))
    have hraw : t.raw = a :: s.takeWhile (wordRune u) := by
      rw [h7, e, h9, List.length_cons, List.take_succ_cons, ← hpre]
    refine ⟨⟨a, _, hraw, h8, ?_⟩, ?_, ?_⟩
    · intro x hx
      exact List.all_eq_true.mp List.all_takeWhile x hx
    · intro x hx
      rw [h3, adv_rest, ← List.drop_drop, e, h9, List.length_cons, List.drop_succ_cons] at hx
      have hdw : s.drop (s.takeWhile (wordRune u)).length = s.dropWhile (wordRune u) := by
        conv => lhs; rw [← List.takeWhile_append_dropWhile (p := wordRune u) (l := s)]
        rw [List.takeWhile_append_dropWhile]
        conv => lhs; arg 2; rw [← List.takeWhile_append_dropWhile (p := wordRune u) (l := s)]
        exact List.drop_left' rfl
      rw [hdw] at hx
      have := List.head?_dropWhile_not (wordRune u) s
      rw [hx] at this; simpa using this
    · rw [hraw]; exact h10

/-- Changing the case of ASCII letters of a word changes neither the type of the token nor, for reserved words,
its Value (which is what the parser looks at). -/
theorem C07_case (c c' d d' : Cursor) (hc : Reachable c) (hd : Reachable d) (t t' : Token)
    (h : Gets u order fl c c' (some t)) (h' : Gets u order fl d d' (some t'))
    (ht : t.typ = .ident ∨ t.typ = .reserved) (ht' : t'.typ = .ident ∨ t'.typ = .reserved)
    (hcase : t.raw.map asciiUp = t'.raw.map asciiUp) :
    t.typ = t'.typ ∧ (t.typ = .reserved → t.value u = t'.value u) := by
  have h1 := (C07_word_conv u order ho fl c c' hc t h ht).2.2
  have h2 := (C07_word_conv u order ho fl d d' hd t' h' ht').2.2
  have e : u.toUpper t.raw = u.toUpper t'.raw := by
    unfold Uni.toUpper
    generalize t.raw = x at hcase
    generalize t'.raw = y at hcase
    induction x generalizing y with
    | nil => cases y with
      | nil => rfl
      | cons b y => simp at hcase
    | cons a x ih =>
      cases y with
      | nil => simp at hcase
      | cons b y =>
        simp only [List.map_cons, List.cons.injEq] at hcase ⊢
        exact ⟨up_asciiUp u hcase.1, ih y hcase.2⟩
  refine ⟨by rw [h1, h2, e], ?_⟩
  intro hr
  have hr' : t'.typ = .reserved := by rw [h2, ← e, ← h1, hr]
  simp only [Token.value, hr, hr', e]

omit ho in
/-- non-vacuity: `bEgIn` and `BEGIN` are the same reserved word, `begin1` is an identifier. -/
example : (getNext asciiUni doubleSymbols Flags.none 12 (Cursor.new r!"bEgIn;")).map (fun r => r.2.map Token.typ)
      = some (some .reserved) ∧
    (getNext asciiUni doubleSymbols Flags.none 12 (Cursor.new r!"begin1")).map (fun r => r.2.map Token.typ)
      = some (some .ident) ∧ (r!"bEgIn").map asciiUp = (r!"BEGIN").map asciiUp := by decide

end TP.Props
