import Verif.Lemmas.Open

/-!
# C04  EOF is reported exactly at the end and is absorbing
-/

namespace TP.Props
open TP Cursor Spec

variable (u : Uni) (order : List (Char × Char)) (ho : IsOrder order) (fl : Flags)
include ho

/-- After an EOF token the cursor no longer moves: every later sequence of calls, with either setting of the
flags, returns that very token again and again. -/
theorem C04_absorbing (fl' : Flags) (c c' : Cursor) (hc : Reachable c) (t : Token)
    (h : Gets u order fl c c' (some t)) (ht : t.typ = .eof) :
    t.start = t.stop ∧ Gets u order fl' c' c' (some t) ∧
    ∀ ts c'', Run u order fl' c' ts c'' → c'' = c' ∧ ∀ x ∈ ts, x = t := by
  have hw := gets_wf ho hc.wf h
  obtain ⟨_, ⟨_, h2, h3, h4⟩ | ⟨_, _, _, _, _, _, _, h6, _⟩⟩ := gets_tok ho hc.wf h
  · have hg : ∀ c'' o, Gets u order fl' c' c'' o ↔ (c'' = c' ∧ o = some t) := by
      intro c'' o; rw [gets_iff ho hw, h3, h4]
    refine ⟨h2, (hg _ _).mpr ⟨rfl, rfl⟩, ?_⟩
    intro ts c'' hr
    clear h h4 hw h3 hc
    generalize hcc : c' = d at hr
    induction hr with
    | nil => subst hcc; simp
    | cons hg' _ ih =>
      subst hcc
      obtain ⟨rfl, e⟩ := (hg _ _).mp hg'
      cases e
      obtain ⟨h5, h6⟩ := ih rfl
      refine ⟨h5, ?_⟩
      intro x hx
      cases hx with
      | head => rfl
      | tail _ hx => exact h6 x hx
  · exact absurd ht h6

/-- EOF is returned only with the cursor at the end of the text or in front of a NUL rune ... -/
theorem C04_only_at_end (c c' : Cursor) (hc : Reachable c) (t : Token)
    (h : Gets u order fl c c' (some t)) (ht : t.typ = .eof) :
    c'.rest = [] ∨ c'.rest.head? = some NUL := by
  obtain ⟨_, ⟨_, _, h3, _⟩ | ⟨_, _, _, _, _, _, _, h6, _⟩⟩ := gets_tok ho hc.wf h
  · exact (lexOne_eof_iff u _).mp h3
  · exact absurd ht h6

/-- ... so in a text without NUL runes EOF means that all runes have been consumed ... -/
theorem C04_all_consumed (c c' : Cursor) (hc : Reachable c) (hn : NUL ∉ c.text) (t : Token)
    (h : Gets u order fl c c' (some t)) (ht : t.typ = .eof) : c'.pos.index = c.text.length := by
  obtain ⟨k, hk, rfl⟩ := gets_adv ho hc.wf h
  have hle := (adv_wf hc.wf k).le
  rw [adv_text] at hle
  rcases C04_only_at_end u order ho fl _ _ hc t h ht with h1 | h1
  · have := List.drop_eq_nil_iff.mp h1
    rw [adv_text] at this; omega
  · exfalso; apply hn
    unfold rest at h1; rw [adv_text] at h1
    exact List.mem_of_mem_drop (List.mem_of_head? h1)

/-- ... and at the end of the text every call returns EOF. -/
theorem C04_at_end (c : Cursor) (hc : Reachable c) (h : c.pos.index = c.text.length) :
    ∃ t, Gets u order fl c c (some t) ∧ t.typ = .eof ∧ t.raw = [] := by
  have hr : c.rest = [] := by unfold rest; rw [h]; exact List.drop_length
  refine ⟨mkTok .eof c c.pos, ?_, rfl, ?_⟩
  · rw [gets_iff ho hc.wf, hr]; exact ⟨rfl, rfl⟩
  · simpa using mkTok_raw (c := c) (n := 0) .eof (by omega)

omit ho in
/-- non-vacuity: EOF after a word, a blank and a comment. -/
example : ∃ c' t, Gets asciiUni doubleSymbols Flags.none (adv 1 (Cursor.new r!"x {}")) c' (some t) ∧
    t.typ = .eof ∧ NUL ∉ (Cursor.new r!"x {}").text :=
  ⟨⟨r!"x {}", ⟨1, 5, 4⟩, false⟩, ⟨.eof, r!"x {}", ⟨1, 5, 4⟩, ⟨1, 5, 4⟩⟩, ⟨12, by decide⟩, rfl, by decide⟩

end TP.Props
