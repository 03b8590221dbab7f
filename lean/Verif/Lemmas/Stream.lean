import Verif.Model.Parser
import Verif.Props.C03
import Verif.Props.C04
import Verif.Props.C12

/-!
# Every text gives a token stream of the form used by the parser model
-/

namespace TP
open Cursor Spec Props

/-- `GetNext`, called again and again on a cursor in front of `c`, delivers `ts` and then what `tail` says.  (The
parser skips blanks and comments, `parser/base.go:26` and `token/tokenizer.go:20-26`.) -/
def Delivers (u : Uni) (order : List (Char × Char)) (c : Cursor) (ts : List Token) (tail : Tail) : Prop :=
  (∀ t ∈ ts, t.typ ≠ .eof) ∧ ∃ c', Run u order Flags.none c ts c' ∧
    match tail with
    | .eof x p => ∃ c2, Gets u order Flags.none c' c2 (some (eofTok x p)) ∧
        ∀ c3 o, Gets u order Flags.none c2 c3 o ↔ c3 = c2 ∧ o = some (eofTok x p)
    | .nil => ∃ c2, Gets u order Flags.none c' c2 none ∧
        ∀ c3 o, Gets u order Flags.none c2 c3 o ↔ c3 = c2 ∧ o = none
    | .hang => ¬ ∃ c2 o, Gets u order Flags.none c' c2 o

theorem run_reachable {u : Uni} {order : List (Char × Char)} (ho : IsOrder order) {fl : Flags} {c c' : Cursor}
    {ts : List Token} (hc : Reachable c) (h : Run u order fl c ts c') : Reachable c' := by
  induction h with
  | nil => exact hc
  | cons hg _ ih => exact ih (gets_reachable ho hc hg)

theorem delivers (u : Uni) (order : List (Char × Char)) (ho : IsOrder order) (c : Cursor) (hc : Reachable c) :
    ∃ ts tail, Delivers u order c ts tail ∧ ts.length ≤ c.rest.length := by
  obtain ⟨ts, c', hr, hne, hlen, h⟩ := C03_complete u order ho Flags.none c hc
  have hc' := run_reachable ho hc hr
  rcases h with ⟨c2, t, hg, ht⟩ | ⟨c2, hg⟩ | hopen
  · obtain ⟨_, ⟨_, h2, h3, h4⟩ | ⟨_, _, _, _, _, _, _, h6, _⟩⟩ := gets_tok ho hc'.wf hg
    · have e : t = eofTok t.text t.stop := by
        obtain ⟨ty, x, a, b⟩ := t
        simp only at ht h2
        subst ht h2; rfl
      refine ⟨ts, .eof t.text t.stop, ⟨hne, c', hr, c2, ?_, ?_⟩, hlen⟩
      · rw [← e]; exact hg
      · intro c3 o
        rw [gets_iff ho (gets_wf ho hc'.wf hg), h3, ← e, h4]
    · exact absurd ht h6
  · exact ⟨ts, .nil, ⟨hne, c', hr, c2, hg, fun c3 o =>
      C12_stuck_forever u order ho Flags.none Flags.none c' c2 c3 hc' hg o⟩, hlen⟩
  · exact ⟨ts, .hang, ⟨hne, c', hr, fun h => (C03_returns_iff u order ho Flags.none c' hc').mp h hopen⟩, hlen⟩

/-- The stream of a text. -/
theorem text_delivers (u : Uni) (order : List (Char × Char)) (ho : IsOrder order) (text : Str) :
    ∃ ts tail, Delivers u order (Cursor.new text) ts tail ∧ ts.length ≤ text.length :=
  delivers u order ho _ (.new text)

end TP
