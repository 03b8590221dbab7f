import Verif.Lemmas.Filter

/-!
# C05  Skipping spaces and comments is filtering
-/

namespace TP.Props
open TP Cursor Spec

variable (u : Uni) (order : List (Char × Char)) (ho : IsOrder order) (fl : Flags)
include ho

/-- What is returned with the flags is the filtered sequence of what is returned with both flags set; the
tokens (kinds, texts, positions) and the final cursor are the same. -/
theorem C05_filter (c c' : Cursor) (hc : Reachable c) (ts : List Token) (h : Run u order fl c ts c') :
    ∃ ts', Run u order Flags.all c ts' c' ∧ ts = ts'.filter (kept fl) := by
  have hw := hc.wf; clear hc
  induction h with
  | nil c => exact ⟨[], .nil c, rfl⟩
  | @cons c c1 c2 t ts hg _ ih =>
    obtain ⟨ts', h1, h2⟩ := ih (gets_wf ho hw hg)
    obtain ⟨tsk, d, h3, h4, h5, h6⟩ := (gets_all_iff u order ho fl c c1 hw (some t)).mp hg
    refine ⟨tsk ++ (t :: ts'), run_append h3 (.cons h5 h1), ?_⟩
    rw [List.filter_append, filter_none h4, List.nil_append, List.filter_cons, h6 t rfl, if_pos rfl, ← h2]

/-- Conversely every sequence returned with both flags set, once filtered, is returned with the flags; the
cursor is then in front of the skipped tokens at the end of the sequence. -/
theorem C05_filter_conv (c c' : Cursor) (hc : Reachable c) (ts : List Token)
    (h : Run u order Flags.all c ts c') :
    ∃ c1 tl, Run u order fl c (ts.filter (kept fl)) c1 ∧ Run u order Flags.all c1 tl c' ∧
      (∀ t ∈ tl, kept fl t = false) ∧ (∃ hd, ts = hd ++ tl) := by
  have hw := hc.wf; clear hc
  -- read the sequence from the front, remembering the skipped tokens in front of it
  have key : ∀ d ts c', Run u order Flags.all d ts c' → ∀ c tsk, c.WF → Run u order Flags.all c tsk d →
      (∀ t ∈ tsk, kept fl t = false) →
      ∃ c1 tl, Run u order fl c (ts.filter (kept fl)) c1 ∧ Run u order Flags.all c1 tl c' ∧
        (∀ t ∈ tl, kept fl t = false) ∧ (∃ hd, tsk ++ ts = hd ++ tl) := by
    intro d ts c' hr
    induction hr with
    | nil d => intro c tsk hc h1 h2; exact ⟨c, tsk, .nil c, h1, h2, [], by simp⟩
    | @cons d d1 d2 t ts hg hr ih =>
      intro c tsk hc h1 h2
      by_cases hk : kept fl t = true
      · have hgf : Gets u order fl c d1 (some t) :=
          (gets_all_iff u order ho fl c d1 hc (some t)).mpr ⟨tsk, d, h1, h2, hg, fun x hx => by cases hx; exact hk⟩
        have hwd := gets_wf ho hc hgf
        obtain ⟨c1, tl, h3, h4, h5, hd, h6⟩ := ih d1 [] hwd (.nil d1) (by simp)
        refine ⟨c1, tl, ?_, h4, h5, tsk ++ t :: hd, ?_⟩
        · rw [List.filter_cons, hk, if_pos rfl]; exact .cons hgf h3
        · simp at h6; simp [h6]
      · have hk : kept fl t = false := by simpa using hk
        obtain ⟨c1, tl, h3, h4, h5, hd, h6⟩ := ih c (tsk ++ [t]) hc (run_append h1 (.cons hg (.nil _))) (by
          intro x hx; simp at hx; rcases hx with hx | rfl
          · exact h2 x hx
          · exact hk)
        refine ⟨c1, tl, ?_, h4, h5, hd, ?_⟩
        · rw [List.filter_cons, hk]; exact h3
        · simpa using h6
  obtain ⟨c1, tl, h1, h2, h3, hd, h4⟩ := key c ts c' h c [] hw (.nil c) (by simp)
  exact ⟨c1, tl, h1, h2, h3, hd, by simpa using h4⟩

/-- A call with the flags gives no token exactly when the unfiltered sequence gives none after skipped tokens. -/
theorem C05_nil (c c' : Cursor) (hc : Reachable c) :
    Gets u order fl c c' none ↔
      ∃ ts c1, Run u order Flags.all c ts c1 ∧ (∀ t ∈ ts, kept fl t = false) ∧ Gets u order Flags.all c1 c' none := by
  rw [gets_all_iff u order ho fl c c' hc.wf none]
  simp

omit ho in
/-- non-vacuity: a run with skipped tokens. -/
example : ∃ ts c', Run asciiUni doubleSymbols Flags.none (Cursor.new r!"a {c} b") ts c' ∧ ts.length = 2 := by
  have h : (tokensN asciiUni doubleSymbols Flags.none 12 2 (Cursor.new r!"a {c} b")).map
    (fun r => r.1.length) = some 2 := by decide
  cases h2 : tokensN asciiUni doubleSymbols Flags.none 12 2 (Cursor.new r!"a {c} b") with
  | none => rw [h2] at h; cases h
  | some r => rw [h2] at h; simp at h; exact ⟨r.1, r.2, run_of_tokensN h2, h⟩

end TP.Props
