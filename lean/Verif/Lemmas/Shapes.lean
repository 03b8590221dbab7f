import Verif.Lemmas.Kinds

/-!
# Shapes of numerals, comments and strings
-/

namespace TP
open Cursor Spec

theorem dropWhile_append_stop {p : Char → Bool} {w r : Str} (hw : ∀ x ∈ w, p x = true)
    (hr : ∀ x, r.head? = some x → p x = false) : (w ++ r).dropWhile p = r := by
  induction w with
  | nil =>
    cases r with
    | nil => rfl
    | cons x r => simp [hr x rfl]
  | cons y w ih =>
    simp [hw y (by simp), ih (fun x hx => hw x (by simp [hx]))]

theorem digits_append {ds r : Str} (hd : ∀ x ∈ ds, digit x = true) (hr : ∀ x, r.head? = some x → digit x = false) :
    digits (ds ++ r) = ds ∧ afterDigits (ds ++ r) = r :=
  ⟨takeWhile_append_stop hd hr, dropWhile_append_stop hd hr⟩

theorem digits_split (s : Str) : s = digits s ++ afterDigits s ∧ (∀ x ∈ digits s, digit x = true) ∧
    (∀ x, (afterDigits s).head? = some x → digit x = false) := by
  refine ⟨(List.takeWhile_append_dropWhile).symm, fun x hx => List.all_eq_true.mp List.all_takeWhile x hx, ?_⟩
  intro x hx
  have := List.head?_dropWhile_not digit s
  unfold afterDigits at hx
  rw [hx] at this; simpa using this

theorem numTail_int {ds r : Str} (hd : ∀ x ∈ ds, digit x = true) (hr : ∀ x, r.head? = some x → digit x = false)
    (hp : ∀ t, r = '.' :: t → t.head? = some '.') : numTail (ds ++ r) = (.numInt, ds.length) := by
  obtain ⟨h1, h2⟩ := digits_append hd hr
  unfold numTail
  rw [h1, h2]
  split
  · rfl
  · rename_i h3
    have := hp _ rfl
    exfalso
    rename_i t
    cases t with
    | nil => cases this
    | cons x t => simp at this; subst this; exact h3 _ rfl
  · rfl

theorem numTail_real {ds r : Str} (hd : ∀ x ∈ ds, digit x = true) (hp : r.head? ≠ some '.') :
    numTail (ds ++ '.' :: r) = (.numReal, ds.length + 1 + (digits r).length) := by
  obtain ⟨h1, h2⟩ := digits_append (r := '.' :: r) hd (by intro x hx; simp at hx; subst hx; decide)
  unfold numTail
  rw [h1, h2]
  split
  · rename_i heq; injection heq with _ heq; subst heq; simp at hp
  · rename_i heq; injection heq with _ heq; subst heq; rfl
  · rename_i h3; exact absurd rfl (h3 _)

/-- The three shapes of what follows the first rune of a numeral. -/
theorem numTail_cases (s : Str) :
    ∃ ds r, s = ds ++ r ∧ (∀ x ∈ ds, digit x = true) ∧ (∀ x, r.head? = some x → digit x = false) ∧
      ((numTail s = (.numInt, ds.length) ∧ (∀ t, r = '.' :: t → t.head? = some '.')) ∨
       (∃ ds' r', r = '.' :: ds' ++ r' ∧ (∀ x ∈ ds', digit x = true) ∧ (∀ x, r'.head? = some x → digit x = false) ∧
         (ds' ++ r').head? ≠ some '.' ∧ numTail s = (.numReal, ds.length + 1 + ds'.length))) := by
  obtain ⟨h1, h2, h3⟩ := digits_split s
  refine ⟨digits s, afterDigits s, h1, h2, h3, ?_⟩
  by_cases hp : ∀ t, afterDigits s = '.' :: t → t.head? = some '.'
  · left
    refine ⟨?_, hp⟩
    conv => lhs; rw [h1]
    exact numTail_int h2 h3 hp
  · right
    have : ∃ t, afterDigits s = '.' :: t ∧ t.head? ≠ some '.' := by
      apply Classical.byContradiction
      intro hn; apply hp
      intro t ht
      apply Classical.byContradiction
      intro hn2; exact hn ⟨t, ht, hn2⟩
    obtain ⟨t, ht, ht2⟩ := this
    obtain ⟨h4, h5, h6⟩ := digits_split t
    refine ⟨digits t, afterDigits t, ?_, h5, h6, ?_, ?_⟩
    · rw [ht]; conv => lhs; rw [h4]
      rfl
    · rw [← h4]; exact ht2
    · conv => lhs; rw [h1, ht]
      exact numTail_real h2 ht2

/-! ## comments -/

theorem lenUntil_append {stop : Char → Bool} {w r : Str} (hw : ∀ x ∈ w, stop x = false)
    (hr : ∀ x, r.head? = some x → stop x = true) : lenUntil stop (w ++ r) = w.length := by
  unfold lenUntil
  rw [takeWhile_append_stop (p := fun c => !stop c)]
  · intro x hx; simp [hw x hx]
  · intro x hx; simp [hr x hx]

/-- does not contain `*)` -/
def NoStarParen (s : Str) : Prop := ∀ p q, s ≠ p ++ '*' :: ')' :: q

theorem NoStarParen.tail {x : Char} {s : Str} (h : NoStarParen (x :: s)) : NoStarParen s := by
  intro p q e; exact h (x :: p) q (by rw [e]; rfl)

theorem starLen_found {pre r : Str} (hn : NoStarParen pre) (h0 : NUL ∉ pre) :
    starLen (pre ++ '*' :: ')' :: r) = pre.length + 2 := by
  induction pre with
  | nil => simp [starLen]
  | cons x pre ih =>
    have hx : x ≠ NUL := fun e => h0 (by simp [e])
    have h1 : ¬ (x = '*' ∧ (pre ++ '*' :: ')' :: r).head? = some ')') := by
      rintro ⟨rfl, h⟩
      cases pre with
      | nil => simp at h
      | cons y pre => simp at h; subst h; exact hn [] pre rfl
    simp only [List.cons_append, starLen, h1, hx, if_false, List.length_cons]
    rw [ih hn.tail (fun h => h0 (by simp [h]))]; omega

theorem starLen_open {s : Str} (hn : NoStarParen s) (h0 : NUL ∉ s) : starLen s = s.length := by
  induction s with
  | nil => rfl
  | cons x s ih =>
    have hx : x ≠ NUL := fun e => h0 (by simp [e])
    have h1 : ¬ (x = '*' ∧ s.head? = some ')') := by
      rintro ⟨rfl, h⟩
      cases s with
      | nil => simp at h
      | cons y s => simp at h; subst h; exact hn [] s rfl
    simp only [starLen, h1, hx, if_false, List.length_cons]
    rw [ih hn.tail (fun h => h0 (by simp [h]))]; omega

theorem lexOne_brace (u : Uni) (t : Str) :
    lexOne u ('{' :: t) = .tok .comment (min (lenUntil (fun c => c == '}' || c == NUL) t + 2) (t.length + 1)) := by
  have h0 : ('{' : Char) ≠ NUL := by decide
  simp only [lexOne, h0, if_false, if_true, List.length_cons]

theorem lexOne_slash (u : Uni) (t : Str) :
    lexOne u ('/' :: '/' :: t) = .tok .comment (2 + lenUntil (fun c => c == '\n' || c == NUL) t) := by
  have h0 : ('/' : Char) ≠ NUL := by decide
  have h1 : ('/' : Char) ≠ '{' := by decide
  have h2 : lenUntil (fun c => c == '\n' || c == NUL) ('/' :: t) = 1 + lenUntil (fun c => c == '\n' || c == NUL) t := by
    unfold lenUntil
    rw [List.takeWhile_cons_of_pos (by decide), List.length_cons, Nat.add_comm]
  simp only [lexOne, h0, h1, if_false, if_true, List.head?_cons, and_self, h2]
  congr 1; omega

theorem lexOne_paren (u : Uni) (t : Str) :
    lexOne u ('(' :: '*' :: t) = .tok .comment (1 + starLen ('*' :: t)) := by
  have h0 : ('(' : Char) ≠ NUL := by decide
  have h1 : ('(' : Char) ≠ '{' := by decide
  have h2 : ('(' : Char) ≠ '/' := by decide
  simp only [lexOne, h0, h1, h2, if_false, if_true, List.head?_cons, and_self, false_and]

/-! ## strings -/

theorem quoteLen_found {last : Char} {body r : Str}
    (h : ∀ pre post, body = pre ++ '\'' :: post → pre.getLast?.getD last = '\\')
    (hl : body.getLast?.getD last ≠ '\\') :
    quoteLen last (body ++ '\'' :: r) = some (body.length + 1) := by
  induction body generalizing last with
  | nil => simp at hl; simp [quoteLen, hl]
  | cons x body ih =>
    have h1 : ¬ (last ≠ '\\' ∧ x = '\'') := by
      rintro ⟨h2, rfl⟩
      exact h2 (h [] body rfl)
    have hcons : ∀ pre : Str, (x :: pre).getLast?.getD last = pre.getLast?.getD x := by
      intro pre
      cases pre with
      | nil => rfl
      | cons y pre => rw [List.getLast?_cons_cons, List.getLast?_cons]; rfl
    simp only [List.cons_append, quoteLen, h1, if_false]
    rw [ih]
    · simp
    · intro pre post e
      have := h (x :: pre) post (by rw [e]; rfl)
      rw [hcons] at this; exact this
    · rw [hcons] at hl; exact hl

end TP
