import Verif.Lemmas.Open

/-!
# C03  Every non-EOF token consumes input, so tokenising terminates

`GetNext` returns exactly when the next token is not an unterminated string literal (`C03_returns_iff`); the
wished-for claim "returns on every input" is refuted by `C03_diverges`.
-/

namespace TP.Props
open TP Cursor Spec

variable (u : Uni) (order : List (Char × Char)) (ho : IsOrder order) (fl : Flags)
include ho

/-- A token other than EOF has a non-empty range, and the cursor moves to its end. -/
theorem C03_progress (c c' : Cursor) (hc : Reachable c) (t : Token) (h : Gets u order fl c c' (some t))
    (ht : t.typ ≠ .eof) :
    t.start.index < t.stop.index ∧ t.stop = c'.pos ∧ c'.rest.length < c.rest.length := by
  obtain ⟨_, h | ⟨j, k, h1, h2, h3, h4, h5, h6, h7⟩⟩ := gets_tok ho hc.wf h
  · exact absurd h.1 ht
  · rw [h5]
    subst h3
    refine ⟨?_, rfl, ?_⟩
    · show (adv j c).pos.index < (adv (j + k) c).pos.index
      rw [adv_index (by omega), adv_index (by omega)]; omega
    · rw [adv_rest, List.length_drop]; omega

/-- A call returns if and only if it does not run into a string literal that is never closed. -/
theorem C03_returns_iff (c : Cursor) (hc : Reachable c) :
    (∃ c' t, Gets u order fl c c' t) ↔ ¬ ReachesOpen u (skipped fl.loadSpace fl.loadComment) c.rest :=
  returns_iff ho hc.wf

/-- In front of a string literal that is never closed a call does not return, whatever time it is given. -/
theorem C03_diverges (c : Cursor) (hc : Reachable c) (t : Str) (h : c.rest = '\'' :: t) (hn : NeverCloses t) :
    ∀ fuel, getNext u order fl fuel c = none := by
  intro fuel
  cases hg : getNext u order fl fuel c with
  | none => rfl
  | some r =>
    exfalso
    refine (C03_returns_iff u order ho fl c hc).mp ⟨r.1, r.2, fuel, hg⟩ ?_
    rw [h]; exact .here hn

/-- Any sequence of calls that return tokens other than EOF is at most as long as the remaining text. -/
theorem C03_bound (c c' : Cursor) (hc : Reachable c) (ts : List Token) (h : Run u order fl c ts c')
    (hne : ∀ t ∈ ts, t.typ ≠ .eof) : ts.length ≤ c.rest.length - c'.rest.length ∧ c'.rest.length ≤ c.rest.length := by
  induction h with
  | nil => simp
  | @cons c c1 c2 t ts hg _ ih =>
    have hp := C03_progress u order ho fl c c1 hc t hg (hne t (by simp))
    have := ih (gets_reachable ho hc hg) (fun x hx => hne x (by simp [hx]))
    simp only [List.length_cons]
    omega

/-- Tokenising from any reachable cursor comes, after at most as many tokens as there are runes left, to
one of three ends: EOF, an unrecognised rune (nil), or an unterminated string literal. -/
theorem C03_complete (c : Cursor) (hc : Reachable c) :
    ∃ ts c', Run u order fl c ts c' ∧ (∀ t ∈ ts, t.typ ≠ .eof) ∧ ts.length ≤ c.rest.length ∧
      ((∃ c'' t, Gets u order fl c' c'' (some t) ∧ t.typ = .eof) ∨ (∃ c'', Gets u order fl c' c'' none) ∨
       ReachesOpen u (skipped fl.loadSpace fl.loadComment) c'.rest) := by
  generalize hm : c.rest.length = m
  induction m using Nat.strongRecOn generalizing c with
  | ind m ih =>
    by_cases ho' : ReachesOpen u (skipped fl.loadSpace fl.loadComment) c.rest
    · exact ⟨[], c, .nil c, by simp, by simp, Or.inr (Or.inr ho')⟩
    · obtain ⟨c1, o, hg⟩ := (C03_returns_iff u order ho fl c hc).mpr ho'
      cases o with
      | none => exact ⟨[], c, .nil c, by simp, by simp, Or.inr (Or.inl ⟨c1, hg⟩)⟩
      | some t =>
        by_cases ht : t.typ = .eof
        · exact ⟨[], c, .nil c, by simp, by simp, Or.inl ⟨c1, t, hg, ht⟩⟩
        · have hp := (C03_progress u order ho fl c c1 hc t hg ht).2.2
          obtain ⟨ts, c', h1, h2, h3, h4⟩ := ih _ (by omega) c1 (gets_reachable ho hc hg) rfl
          refine ⟨t :: ts, c', .cons hg h1, ?_, by simp only [List.length_cons]; omega, h4⟩
          intro x hx
          cases hx with
          | head => exact ht
          | tail _ hx => exact h2 x hx

omit ho in
/-- non-vacuity: a reachable cursor in front of an open literal (with an escaped quote in it). -/
example : Reachable (Cursor.new r!"'a\\'b") ∧ (Cursor.new r!"'a\\'b").rest = '\'' :: r!"a\\'b" ∧
    NeverCloses r!"a\\'b" := by
  refine ⟨.new _, rfl, ?_⟩
  rw [← neverCloses_iff]; decide

omit ho in
/-- non-vacuity: a text that reaches no open literal. -/
example : ¬ ReachesOpen asciiUni (skipped false false) (Cursor.new r!" {'} 'a'").rest := by
  refine (C03_returns_iff asciiUni doubleSymbols (List.Perm.refl _) Flags.none _ (.new _)).mp ?_
  have : (getNext asciiUni doubleSymbols Flags.none 12 (Cursor.new r!" {'} 'a'")).isSome = true := by decide
  obtain ⟨⟨c, t⟩, h⟩ := Option.isSome_iff_exists.mp this
  exact ⟨c, t, 12, h⟩

end TP.Props
