import Verif.Lemmas.Position

/-!
# C01  Reported positions are true to the text

The English claim fails for texts that begin with a line feed (`C01_refuted`): the line feed flag is never set
for the first rune.  For all other texts it holds (`C01_cursor_partial`, `C01_tokens_partial`), and
`C01_cursor_exact` says exactly what is reported for every text.
-/

namespace TP.Props
open TP Cursor Spec

/-- The position after any number of advances, for every text: that of the text with a leading line feed
regarded as an ordinary rune; advancing at the end changes nothing. -/
theorem C01_cursor_exact (text : Str) (n : Nat) :
    (adv n (Cursor.new text)).pos = posAt (maskFirst text) (min n text.length) := by
  rw [adv_min (new_wf text)]
  have e : (Cursor.new text).rest = text := rfl
  rw [e]
  exact (adv_new_pos text (Nat.min_le_right _ _)).1

/-- Missing for the full claim: texts beginning with a line feed. -/
theorem C01_cursor_partial (text : Str) (n : Nat) (h : text.head? ≠ some '\n') :
    (adv n (Cursor.new text)).pos = posAt text (min n text.length) := by
  rw [C01_cursor_exact, maskFirst_eq h]

/-- Every token returned by any sequence of calls carries true positions. -/
theorem C01_tokens_partial (u : Uni) (order : List (Char × Char)) (ho : IsOrder order) (fl : Flags) (text : Str)
    (h : text.head? ≠ some '\n') (ts : List Token) (c' : Cursor)
    (hr : Run u order fl (Cursor.new text) ts c') :
    ∀ t ∈ ts, t.start = posAt text t.start.index ∧ t.stop = posAt text t.stop.index := by
  have key : ∀ c ts c', Run u order fl c ts c' → ∀ k, c = adv k (Cursor.new text) →
      ∀ t ∈ ts, t.start = posAt text t.start.index ∧ t.stop = posAt text t.stop.index := by
    intro c ts c' hr
    induction hr with
    | nil => intro k _ t ht; cases ht
    | cons hg _ ih =>
      rintro k rfl t ht
      obtain ⟨j, k', _, h2, h3, h4, _⟩ := gets_tok_pos ho (adv_wf (new_wf text) k) hg
      cases ht with
      | head =>
        rw [← adv_add] at h4 h2
        rw [h4] at h3
        rw [h2, h3, C01_cursor_partial text _ h, C01_cursor_partial text _ h]
        exact ⟨rfl, rfl⟩
      | tail _ ht =>
        rw [← adv_add] at h4
        exact ih _ h4 t ht
  exact key _ _ _ hr 0 rfl

/-- The full claim is false: after the line feed of `"\na"` the reported position is 1:2, not 2:1. -/
theorem C01_refuted : ¬ ∀ (text : Str) (n : Nat), n ≤ text.length →
    (adv n (Cursor.new text)).pos = posAt text n := by
  intro h
  exact absurd (h r!"\na" 1 (by decide)) (by decide)

/-- non-vacuity: a text with two line feeds, position 3:2 at its end. -/
example : (adv 7 (Cursor.new r!"ab\nc\nx")).pos = ⟨3, 2, 6⟩ ∧ posAt r!"ab\nc\nx" 6 = ⟨3, 2, 6⟩ ∧
    (r!"ab\nc\nx").head? ≠ some '\n' := by decide

/-- non-vacuity of the token theorem: a run with a token on the second line. -/
example : ∃ t1 t2 c', Run asciiUni doubleSymbols Flags.none (Cursor.new r!"ab\n c") [t1, t2] c' ∧
    t2.start = ⟨2, 2, 4⟩ := by
  refine ⟨⟨.ident, r!"ab\n c", ⟨1, 1, 0⟩, ⟨1, 3, 2⟩⟩, ⟨.ident, r!"ab\n c", ⟨2, 2, 4⟩, ⟨2, 3, 5⟩⟩,
    ⟨r!"ab\n c", ⟨2, 3, 5⟩, false⟩, run_of_tokensN (fuel := 12) (n := 2) (by decide), rfl⟩

end TP.Props
