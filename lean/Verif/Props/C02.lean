import Verif.Lemmas.Tokens

/-!
# C02  Tokens tile the source
-/

namespace TP.Props
open TP Cursor Spec

/-- Consecutive tokens touch: each one starts at the position where the one before ended. -/
def Adjacent : Pos → List Token → Pos → Prop
  | p, [], q => p = q
  | p, t :: ts, q => t.start = p ∧ Adjacent t.stop ts q

/-- With both flags set, any sequence of calls from any reachable cursor returns tokens that touch each other
(index, line and column), the first starting at the cursor and the last ending at the new cursor; their texts
concatenated are exactly the part of the text that was consumed. -/
theorem C02_tiling (u : Uni) (order : List (Char × Char)) (ho : IsOrder order) (c c' : Cursor)
    (hc : Reachable c) (ts : List Token) (h : Run u order Flags.all c ts c') :
    Adjacent c.pos ts c'.pos ∧ c.rest = ts.flatMap Token.raw ++ c'.rest := by
  have hwf := hc.wf
  clear hc
  induction h with
  | nil => exact ⟨rfl, rfl⟩
  | @cons c c1 c2 t ts hg _ ih =>
    have hw1 := gets_wf ho hwf hg
    obtain ⟨ih1, ih2⟩ := ih hw1
    rw [gets_iff ho hwf] at hg
    cases hl : lexOne u c.rest with
    | eof =>
      rw [hl] at hg; obtain ⟨rfl, ht⟩ := hg; cases ht
      refine ⟨⟨rfl, ih1⟩, ?_⟩
      rw [List.flatMap_cons]
      have : (mkTok .eof c1 c1.pos).raw = [] := by
        simpa using mkTok_raw (c := c1) (n := 0) .eof (by omega)
      rw [this]; exact ih2
    | stuck => rw [hl] at hg; cases hg.2
    | unterminated => rw [hl] at hg; exact hg.elim
    | tok ty k =>
      rw [hl] at hg
      simp only [not_skips_all, Bool.false_eq_true, if_false] at hg
      obtain ⟨rfl, ht⟩ := hg; cases ht
      refine ⟨⟨rfl, ih1⟩, ?_⟩
      rw [List.flatMap_cons, mkTok_raw _ (lexOne_bounds hl).2.1, List.append_assoc, ← ih2]
      exact rest_eq_append c k

/-- From the start of a text: the concatenation of the token texts is the consumed prefix of the text. -/
theorem C02_prefix (u : Uni) (order : List (Char × Char)) (ho : IsOrder order) (text : Str) (c' : Cursor)
    (ts : List Token) (h : Run u order Flags.all (Cursor.new text) ts c') :
    ts.flatMap Token.raw = text.take c'.pos.index := by
  have := (C02_tiling u order ho _ c' (.new text) ts h).2
  obtain ⟨k, hk, rfl⟩ := run_adv ho (new_wf text) h
  rw [adv_index hk]
  rw [adv_rest] at this
  have e : (Cursor.new text).rest = text := rfl
  rw [e] at this hk
  have e2 : (Cursor.new text).pos.index + k = k := Nat.zero_add k
  rw [e2]
  have h3 := List.take_append_drop k text
  rw [← h3] at this
  conv at this => rhs; rw [h3]
  exact (List.append_cancel_right this).symm

example : ∃ ts c', Run asciiUni doubleSymbols Flags.all (Cursor.new r!"a:=1 {x}") ts c' ∧ ts.length = 5 ∧
    ts.flatMap Token.raw = r!"a:=1 {x}" := by
  have h : (tokensN asciiUni doubleSymbols Flags.all 12 5 (Cursor.new r!"a:=1 {x}")).isSome = true := by decide
  obtain ⟨⟨ts, c'⟩, h⟩ := Option.isSome_iff_exists.mp h
  refine ⟨ts, c', run_of_tokensN h, ?_⟩
  have : (tokensN asciiUni doubleSymbols Flags.all 12 5 (Cursor.new r!"a:=1 {x}")).map
    (fun r => (r.1.length, r.1.flatMap Token.raw)) = some (5, r!"a:=1 {x}") := by decide
  rw [h] at this; simp at this; exact this

end TP.Props
