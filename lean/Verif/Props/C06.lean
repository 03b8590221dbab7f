import Verif.Lemmas.Replay

/-!
# C06  Token kinds and texts depend only on the remaining source

Kinds, texts and indices are replayed after a rollback in all cases.  Lines and columns are replayed only when
the saved point is not on a line feed (`C06_replay_exact_partial`); otherwise they are not (`C06_refuted`).
-/

namespace TP.Props
open TP Cursor Spec

variable (u : Uni) (order : List (Char × Char)) (ho : IsOrder order) (fl : Flags)
include ho

/-- From any two reachable cursors with the same remaining text (whatever their positions and line-feed flags),
sequences of calls return the same kinds and texts; the ranges differ only by the offset between the cursors.
The symbol table may even be iterated in different orders. -/
theorem C06_same_rest (order' : List (Char × Char)) (ho' : IsOrder order') (c d c' : Cursor) (hc : Reachable c)
    (hd : Reachable d) (hr : c.rest = d.rest) (ts : List Token) (h : Run u order fl c ts c') :
    ∃ ts' d', Run u order' fl d ts' d' ∧ c'.rest = d'.rest ∧ ts.map Token.view = ts'.map Token.view ∧
      ts.map (fun t => (t.start.index + d.pos.index, t.stop.index + d.pos.index)) =
      ts'.map (fun t => (t.start.index + c.pos.index, t.stop.index + c.pos.index)) := by
  have hwc := hc.wf; have hwd := hd.wf; clear hc hd
  induction h generalizing d with
  | nil => exact ⟨[], d, .nil d, hr, rfl, rfl⟩
  | @cons c c1 c2 t ts hg _ ih =>
    obtain ⟨k, h1, h2, o', h3, h4, h5⟩ := gets_same_rest u order ho fl ho' c d c1 hwc hwd hr _ hg
    cases o' with
    | none => simp at h4
    | some t' =>
      subst h2
      obtain ⟨ts', d', h6, h7, h8, h9⟩ := ih (adv k d) (by rw [adv_rest, adv_rest, hr]) (adv_wf hwc k) (adv_wf hwd k)
      refine ⟨t' :: ts', d', .cons h3 h6, h7, ?_, ?_⟩
      · simp only [Option.map_some, Option.some.injEq] at h4
        simp [h4, h8]
      · have h5' := h5 t t' rfl rfl
        have hkd : k ≤ d.rest.length := by rw [← hr]; exact h1
        rw [adv_index h1, adv_index hkd] at h9
        simp only [List.map_cons]
        congr 1
        · simp only [h5'.1, h5'.2]
        · have := congrArg (List.map (fun p : Nat × Nat => (p.1 - k, p.2 - k))) h9
          simp only [List.map_map] at this
          have e : ∀ (x : Nat) (l : List Token), List.map ((fun p : Nat × Nat => (p.1 - k, p.2 - k)) ∘
              fun t : Token => (t.start.index + (x + k), t.stop.index + (x + k))) l =
              l.map (fun t => (t.start.index + x, t.stop.index + x)) := by
            intro x l; apply List.map_congr_left; intro t _; simp only [Function.comp]; congr 1 <;> omega
          rw [e, e] at this; exact this

/-- Rolling back to a saved point (a copy of the cursor) replays the same kinds, texts and indices. -/
theorem C06_replay (c c' : Cursor) (hc : Reachable c) (ts : List Token) (h : Run u order fl c ts c') :
    ∃ ts' d', Run u order fl c.clone ts' d' ∧ c'.rest = d'.rest ∧ ts.map Token.view = ts'.map Token.view ∧
      ts.map (fun t => (t.start.index, t.stop.index)) = ts'.map (fun t => (t.start.index, t.stop.index)) := by
  obtain ⟨ts', d', h1, h2, h3, h4⟩ := C06_same_rest u order ho fl order ho c c.clone c' hc hc.clone rfl ts h
  refine ⟨ts', d', h1, h2, h3, ?_⟩
  have e : c.clone.pos.index = c.pos.index := rfl
  rw [e] at h4
  have := congrArg (List.map (fun p : Nat × Nat => (p.1 - c.pos.index, p.2 - c.pos.index))) h4
  simp only [List.map_map] at this
  have e : ∀ (l : List Token), List.map ((fun p : Nat × Nat => (p.1 - c.pos.index, p.2 - c.pos.index)) ∘
      fun t : Token => (t.start.index + c.pos.index, t.stop.index + c.pos.index)) l =
      l.map (fun t => (t.start.index, t.stop.index)) := by
    intro l; apply List.map_congr_left; intro t _; simp only [Function.comp]; congr 1 <;> omega
  rw [e, e] at this; exact this

omit ho in
/-- Missing for the full claim: saved points on a line feed.  Elsewhere the whole tokens are replayed. -/
theorem C06_replay_exact_partial (c c' : Cursor) (hc : Reachable c) (hlf : c.rest.head? ≠ some '\n')
    (ts : List Token) (h : Run u order fl c ts c') : Run u order fl c.clone ts c' := by
  have : c.clone = c := by
    have := hc.wf.lf
    cases c with
    | mk text pos wasLF =>
      cases wasLF with
      | false => rfl
      | true => exact absurd (this rfl) hlf
  rw [this]; exact h

omit ho in
/-- The full claim is false: a copy taken on the line feed of `"x\ny"` reports `y` at 1:3 instead of 2:1. -/
theorem C06_refuted : ∃ (text : Str) (c c' d' : Cursor) (t t' : Token), text = r!"x\ny" ∧ Reachable c ∧
    Gets asciiUni doubleSymbols Flags.none c c' (some t) ∧
    Gets asciiUni doubleSymbols Flags.none c.clone d' (some t') ∧ t.view = t'.view ∧
    t.start = ⟨2, 1, 2⟩ ∧ t'.start = ⟨1, 3, 2⟩ :=
  ⟨_, adv 1 (Cursor.new r!"x\ny"), ⟨r!"x\ny", ⟨2, 2, 3⟩, false⟩, ⟨r!"x\ny", ⟨1, 4, 3⟩, false⟩,
    ⟨.ident, r!"x\ny", ⟨2, 1, 2⟩, ⟨2, 2, 3⟩⟩, ⟨.ident, r!"x\ny", ⟨1, 3, 2⟩, ⟨1, 4, 3⟩⟩, rfl, (Reachable.new _).next,
    ⟨9, by decide⟩, ⟨9, by decide⟩, by decide, rfl, rfl⟩

omit ho in
/-- non-vacuity: two different cursors with the same remaining text `x;`. -/
example : (adv 2 (Cursor.new r!"\n\nx;")).rest = (adv 1 (Cursor.new r!"ax;")).rest ∧
    (tokensN asciiUni doubleSymbols Flags.none 9 2 (adv 1 (Cursor.new r!"ax;"))).isSome = true := by decide

end TP.Props
