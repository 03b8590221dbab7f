import Verif.Lemmas.Position

/-!
# Lemmas about single calls
-/

namespace TP
open Cursor Spec

variable {u : Uni} {order : List (Char × Char)} {fl : Flags}

theorem tok_raw_eq {t : Token} {c : Cursor} {j k : Nat} (hs : t.start = (adv j c).pos)
    (he : t.stop = (adv (j + k) c).pos) (ht : t.text = c.text) (hjk : j + k ≤ c.rest.length) :
    t.raw = (c.rest.drop j).take k := by
  unfold Token.raw
  rw [hs, he, ht, adv_index hjk, adv_index (show j ≤ c.rest.length by omega)]
  unfold rest
  rw [List.drop_take, List.drop_drop]
  congr 1; omega

theorem not_skips_all (ty : TType) : Flags.all.skips ty = false := by cases ty <;> rfl

theorem run_wf (ho : IsOrder order) {c c' : Cursor} {ts : List Token} (hc : c.WF)
    (h : Run u order fl c ts c') : c'.WF := by
  obtain ⟨k, _, rfl⟩ := run_adv ho hc h; exact adv_wf hc k

theorem rest_eq_append (c : Cursor) (n : Nat) : c.rest = c.rest.take n ++ (adv n c).rest := by
  rw [adv_rest, List.take_append_drop]

/-- A token of a call is not skipped, and it is of the kind and text of the lexeme at its place. -/
theorem gets_tok (ho : IsOrder order) {c c' : Cursor} {t : Token} (hc : c.WF)
    (h : Gets u order fl c c' (some t)) :
    fl.skips t.typ = false ∧
    ((t.typ = .eof ∧ t.start = t.stop ∧ lexOne u c'.rest = .eof ∧ t = mkTok .eof c' c'.pos) ∨
     (∃ j k, j + k ≤ c.rest.length ∧ 0 < k ∧ c' = adv (j + k) c ∧ lexOne u (adv j c).rest = .tok t.typ k ∧
        t = mkTok t.typ c' (adv j c).pos ∧ t.typ ≠ .eof ∧ t.raw = (c.rest.drop j).take k)) := by
  refine gets_induction ho (P := fun c c' o => ∀ t, o = some t → fl.skips t.typ = false ∧
    ((t.typ = .eof ∧ t.start = t.stop ∧ lexOne u c'.rest = .eof ∧ t = mkTok .eof c' c'.pos) ∨
     (∃ j k, j + k ≤ c.rest.length ∧ 0 < k ∧ c' = adv (j + k) c ∧ lexOne u (adv j c).rest = .tok t.typ k ∧
        t = mkTok t.typ c' (adv j c).pos ∧ t.typ ≠ .eof ∧ t.raw = (c.rest.drop j).take k))) ?_ ?_ ?_ ?_ hc h t rfl
  · rintro c _ hl t ht; cases ht; exact ⟨by cases fl; rfl, Or.inl ⟨rfl, rfl, hl, rfl⟩⟩
  · rintro c _ _ t ht; cases ht
  · rintro c ty k c' o hc hl _ _ ih t ht
    refine ⟨(ih t ht).1, ?_⟩
    rcases (ih t ht).2 with h | ⟨j, k', h1, h2, h3, h4, h5, h6, h7⟩
    · exact Or.inl h
    · refine Or.inr ⟨k + j, k', ?_, h2, ?_, ?_, ?_, h6, ?_⟩
      · rw [adv_rest, List.length_drop] at h1; have := lexOne_bounds hl; omega
      · rw [h3, ← adv_add, Nat.add_assoc]
      · rw [adv_add]; exact h4
      · rw [adv_add]; exact h5
      · rw [h7, adv_rest, List.drop_drop]
  · rintro c ty k hc hl hs t ht; cases ht
    have hb := lexOne_bounds hl
    refine ⟨hs, Or.inr ⟨0, k, by omega, hb.1, by rw [Nat.zero_add], hl, rfl, hb.2.2, ?_⟩⟩
    rw [mkTok_raw _ hb.2.1]; rfl

end TP
