import Verif.Lemmas.Tokens
import Verif.Spec.Open

namespace TP
open Cursor Spec

theorem quoteLen_none_iff (last : Char) (t : Str) :
    quoteLen last t = none ↔ ∀ pre post, t = pre ++ '\'' :: post → pre.getLast?.getD last = '\\' := by
  induction t generalizing last with
  | nil => simp [quoteLen]
  | cons x t ih =>
    simp only [quoteLen]
    by_cases h : last ≠ '\\' ∧ x = '\''
    · rw [if_pos h]
      constructor
      · intro h'; simp at h'
      · intro h'; exact absurd (h' [] t (by simp [h.2])) h.1
    · rw [if_neg h]
      simp only [Option.map_eq_none_iff, ih]
      constructor
      · intro h' pre post e
        cases pre with
        | nil =>
          simp at e
          apply Classical.byContradiction; intro hl
          exact h ⟨by simpa using hl, e.1⟩
        | cons y pre =>
          simp at e
          have := h' pre post e.2
          rw [← e.1]
          cases pre with
          | nil => simpa using this
          | cons z pre => rw [List.getLast?_cons_cons]; rw [List.getLast?_cons] at this ⊢; simpa using this
      · intro h' pre post e
        have := h' (x :: pre) post (by simp [e])
        cases pre with
        | nil => simpa using this
        | cons z pre => rw [List.getLast?_cons_cons] at this; rw [List.getLast?_cons] at this ⊢; simpa using this

theorem neverCloses_iff (t : Str) : quoteLen NUL t = none ↔ NeverCloses t := by
  rw [quoteLen_none_iff]
  have : NUL ≠ '\\' := by decide
  constructor
  · intro h pre post e
    have := h pre post e
    cases hp : pre.getLast? with
    | none => rw [hp] at this; exact absurd this (by decide)
    | some y => rw [hp] at this; simp at this; rw [this]
  · intro h pre post e; rw [h pre post e]; rfl

theorem lexOne_quote (u : Uni) (t : Str) :
    lexOne u ('\'' :: t) =
      match quoteLen NUL t with
      | none => .unterminated
      | some n => .tok .charString (1 + n) := by
  have h0 : ('\'' : Char) ≠ NUL := by decide
  simp only [lexOne, h0, if_false, show ('\'' : Char) ≠ '{' by decide, show ('\'' : Char) ≠ '/' by decide,
    show ('\'' : Char) ≠ '(' by decide, false_and, if_true]
  cases quoteLen NUL t <;> rfl

theorem lexOne_unterminated_iff (u : Uni) (s : Str) :
    lexOne u s = .unterminated ↔ ∃ t, s = '\'' :: t ∧ NeverCloses t := by
  constructor
  · intro h
    cases s with
    | nil => simp [lexOne] at h
    | cons a t =>
      by_cases ha : a = '\''
      · subst ha
        refine ⟨t, rfl, ?_⟩
        rw [lexOne_quote] at h
        cases hq : quoteLen NUL t with
        | none => exact (neverCloses_iff t).mp hq
        | some n => rw [hq] at h; cases h
      · exfalso
        simp only [lexOne, ha, if_false] at h
        repeat' split at h
        all_goals cases h
  · rintro ⟨t, rfl, h⟩
    rw [lexOne_quote, (neverCloses_iff t).mpr h]

theorem lexOne_eof_iff (u : Uni) (s : Str) : lexOne u s = .eof ↔ (s = [] ∨ s.head? = some NUL) := by
  cases s with
  | nil => simp [lexOne]
  | cons a t =>
    by_cases h : a = NUL
    · simp [lexOne, h]
    · simp only [List.head?_cons, Option.some.injEq, h, or_false, reduceCtorEq, iff_false]
      simp only [lexOne, h, if_false]
      by_cases h2 : a = '\''
      · simp only [h2]; cases quoteLen NUL t <;> simp
      · simp only [h2, if_false]
        intro h3
        repeat' split at h3
        all_goals cases h3

variable {u : Uni} {order : List (Char × Char)} {fl : Flags}

theorem returns_iff (ho : IsOrder order) {c : Cursor} (hc : c.WF) :
    (∃ c' t, Gets u order fl c c' t) ↔ ¬ ReachesOpen u fl.skips c.rest := by
  generalize hm : c.rest.length = m
  induction m using Nat.strongRecOn generalizing c with
  | ind m ih =>
    cases hl : lexOne u c.rest with
    | eof =>
      constructor
      · rintro _ h
        generalize hr : c.rest = r at h hl
        cases h with
        | here hn => rename_i t; rw [lexOne_quote, (neverCloses_iff t).mpr hn] at hl; cases hl
        | skip h1 _ _ => rw [hl] at h1; cases h1
      · intro _; exact ⟨c, some (mkTok .eof c c.pos), by rw [gets_iff ho hc, hl]; exact ⟨rfl, rfl⟩⟩
    | stuck =>
      constructor
      · rintro _ h
        generalize hr : c.rest = r at h
        cases h with
        | here hn => rename_i t; rw [hr, lexOne_quote, (neverCloses_iff t).mpr hn] at hl; cases hl
        | skip h1 _ _ => rw [hr] at hl; rw [hl] at h1; cases h1
      · intro _; exact ⟨c, none, by rw [gets_iff ho hc, hl]; exact ⟨rfl, rfl⟩⟩
    | unterminated =>
      constructor
      · rintro ⟨c', t, h⟩; rw [gets_iff ho hc, hl] at h; exact h.elim
      · intro h; exfalso; apply h
        obtain ⟨t, e, hn⟩ := (lexOne_unterminated_iff u _).mp hl
        rw [e]; exact .here hn
    | tok ty k =>
      have hb := lexOne_bounds hl
      by_cases hs : fl.skips ty = true
      · have := ih (adv k c).rest.length (by rw [adv_rest, List.length_drop]; omega) (adv_wf hc k) rfl
        have e : (∃ c' t, Gets u order fl c c' t) ↔ (∃ c' t, Gets u order fl (adv k c) c' t) := by
          constructor
          · rintro ⟨c', t, h⟩; rw [gets_iff ho hc, hl] at h; simp only [hs, if_true] at h; exact ⟨c', t, h⟩
          · rintro ⟨c', t, h⟩; refine ⟨c', t, ?_⟩; rw [gets_iff ho hc, hl]; simp only [hs, if_true]; exact h
        rw [e, this, adv_rest]
        constructor
        · intro h1 h2; apply h1
          generalize hr : c.rest = r at h2 hl
          cases h2 with
          | here hn => rename_i t; rw [lexOne_quote, (neverCloses_iff t).mpr hn] at hl; cases hl
          | skip h3 _ h5 => rw [hl] at h3; injection h3 with h6 h7; subst h7; exact h5
        · intro h1 h2; exact h1 (.skip hl hs h2)
      · constructor
        · rintro _ h
          generalize hr : c.rest = r at h hl
          cases h with
          | here hn => rename_i t; rw [lexOne_quote, (neverCloses_iff t).mpr hn] at hl; cases hl
          | skip h1 h2 _ => rw [hl] at h1; injection h1 with h6 h7; subst h6; exact hs h2
        · intro _; exact ⟨adv k c, some (mkTok ty (adv k c) c.pos), by
            rw [gets_iff ho hc, hl]; simp [hs]⟩

end TP
