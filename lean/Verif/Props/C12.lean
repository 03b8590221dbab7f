import Verif.Lemmas.Filter
import Verif.Lemmas.Kinds

/-!
# C12  No lexical dead ends are passed over
-/

namespace TP.Props
open TP Cursor Spec

/-- the runes that can start a token (NUL counts as the end of the text) -/
def CanStart (u : Uni) (a : Char) : Prop :=
  a = NUL ∨ a ∈ r!"#$&'()*+,-./:;<=>@[]^{}" ∨ ('0' ≤ a ∧ a ≤ '9') ∨ u.isLetter a = true ∨ a = '_' ∨ u.isSpace a = true

theorem lexOne_stuck_iff (u : Uni) (s : Str) : lexOne u s = .stuck ↔ ∃ a t, s = a :: t ∧ ¬ CanStart u a := by
  cases s with
  | nil => simp [lexOne]
  | cons a t =>
    have hd : digit a = true ↔ ('0' ≤ a ∧ a ≤ '9') := by simp [digit]
    constructor
    · intro h
      refine ⟨a, t, rfl, ?_⟩
      intro hcs
      by_cases hm : a ∈ nonWordRunes
      · simp only [lexOne] at h
        by_cases h0 : a = NUL
        · simp [h0] at h
        have hm' : symbolRunes.contains a = true := by
          simp only [nonWordRunes, List.mem_cons, h0, false_or] at hm
          exact List.contains_iff_mem.mpr hm
        simp only [h0, if_false, hm', if_true] at h
        by_cases h4 : a = '\''
        · simp only [h4] at h; cases hq : quoteLen NUL t <;> rw [hq] at h <;> simp at h
        · simp only [h4, if_false] at h
          repeat' split at h
          all_goals cases h
      · by_cases hdg : digit a = true
        · rw [lexOne_numeral u (by simp [startsNumeral, hdg])] at h; cases h
        · have hdg' : digit a = false := by simpa using hdg
          rw [lexOne_nonsymbol u hm hdg'] at h
          by_cases hw : wordHead u a = true
          · rw [if_pos hw] at h; cases h
          · rw [if_neg hw] at h
            by_cases hs : u.isSpace a = true
            · rw [if_pos hs] at h; cases h
            · rcases hcs with h1 | h1 | h1 | h1 | h1 | h1
              · exact hm (by simp [h1, nonWordRunes])
              · exact hm (List.mem_cons_of_mem _ h1)
              · exact hdg (hd.mpr h1)
              · exact hw (by simp [wordHead, h1])
              · exact hw (by simp [wordHead, h1])
              · exact hs h1
    · rintro ⟨a', t', e, hn⟩
      injection e with e1 e2; subst e1; subst e2
      have hm : a ∉ nonWordRunes := by
        intro hm
        simp only [nonWordRunes, List.mem_cons] at hm
        rcases hm with h | h
        · exact hn (Or.inl h)
        · exact hn (Or.inr (Or.inl h))
      have hdg : digit a = false := by
        cases h : digit a with
        | false => rfl
        | true => exact absurd (Or.inr (Or.inr (Or.inl (hd.mp h)))) hn
      have hw : wordHead u a = false := by
        cases h : wordHead u a with
        | false => rfl
        | true =>
          simp only [wordHead, Bool.or_eq_true, beq_iff_eq] at h
          rcases h with h | h
          · exact absurd (Or.inr (Or.inr (Or.inr (Or.inl h)))) hn
          · exact absurd (Or.inr (Or.inr (Or.inr (Or.inr (Or.inl h))))) hn
      have hs : u.isSpace a = false := by
        cases h : u.isSpace a with
        | false => rfl
        | true => exact absurd (Or.inr (Or.inr (Or.inr (Or.inr (Or.inr h))))) hn
      rw [lexOne_nonsymbol u hm hdg, hw, hs]; rfl

variable (u : Uni) (order : List (Char × Char)) (ho : IsOrder order) (fl : Flags)
include ho

/-- A call gives no token if and only if, after tokens that are skipped, the next rune cannot start any token;
the cursor is then in front of that rune. -/
theorem C12_nil_iff (c c' : Cursor) (hc : Reachable c) :
    Gets u order fl c c' none ↔
      ∃ ts, Run u order Flags.all c ts c' ∧ (∀ t ∈ ts, kept fl t = false) ∧
        ∃ a r, c'.rest = a :: r ∧ ¬ CanStart u a := by
  rw [gets_all_iff u order ho fl c c' hc.wf none]
  constructor
  · rintro ⟨ts, c1, h1, h2, h3, _⟩
    have hw := run_wf ho hc.wf h1
    rw [gets_iff ho hw] at h3
    cases hl : lexOne u c1.rest with
    | eof => rw [hl] at h3; cases h3.2
    | stuck => rw [hl] at h3; obtain ⟨rfl, _⟩ := h3; exact ⟨ts, h1, h2, (lexOne_stuck_iff u _).mp hl⟩
    | unterminated => rw [hl] at h3; exact h3.elim
    | tok ty k => rw [hl] at h3; simp [not_skips_all] at h3
  · rintro ⟨ts, h1, h2, h3⟩
    have hw := run_wf ho hc.wf h1
    refine ⟨ts, c', h1, h2, ?_, by simp⟩
    rw [gets_iff ho hw, (lexOne_stuck_iff u _).mpr h3]; exact ⟨rfl, rfl⟩

/-- Once no token was given, no later call (with any flags) gives one or moves the cursor. -/
theorem C12_stuck_forever (fl' : Flags) (c c' c'' : Cursor) (hc : Reachable c) (h : Gets u order fl c c' none)
    (o : Option Token) : Gets u order fl' c' c'' o ↔ c'' = c' ∧ o = none := by
  have hw := gets_wf ho hc.wf h
  obtain ⟨_, _, _, h3⟩ := (C12_nil_iff u order ho fl c c' hc).mp h
  rw [gets_iff ho hw, (lexOne_stuck_iff u _).mpr h3]

omit ho in
/-- non-vacuity: `" !x"`: a skipped blank, then a rune that starts nothing. -/
example : Gets asciiUni doubleSymbols Flags.none (Cursor.new r!" !x") ⟨r!" !x", ⟨1, 2, 1⟩, false⟩ none ∧
    ¬ CanStart asciiUni '!' := ⟨⟨9, by decide⟩, by unfold CanStart; decide⟩

end TP.Props
