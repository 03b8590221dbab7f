import Verif.Lemmas.Tokens

/-!
# Calls from cursors with the same remaining text
-/

namespace TP
open Cursor Spec

variable (u : Uni) (order : List (Char × Char)) (ho : IsOrder order) (fl : Flags)
include ho

theorem gets_same_rest (ho' : IsOrder order') (c d c' : Cursor) (hc : c.WF) (hd : d.WF) (hr : c.rest = d.rest) (o : Option Token)
    (h : Gets u order fl c c' o) :
    ∃ k, k ≤ c.rest.length ∧ c' = adv k c ∧ ∃ o', Gets u order' fl d (adv k d) o' ∧ o.map Token.view = o'.map Token.view ∧
      ∀ t t', o = some t → o' = some t' → t.start.index + d.pos.index = t'.start.index + c.pos.index ∧
        t.stop.index + d.pos.index = t'.stop.index + c.pos.index := by
  have := gets_induction ho (P := fun c c' o => ∀ d : Cursor, d.WF → c.rest = d.rest →
    ∃ k, k ≤ c.rest.length ∧ c' = adv k c ∧ ∃ o', Gets u order' fl d (adv k d) o' ∧ o.map Token.view = o'.map Token.view ∧
      ∀ t t', o = some t → o' = some t' → t.start.index + d.pos.index = t'.start.index + c.pos.index ∧
        t.stop.index + d.pos.index = t'.stop.index + c.pos.index)
    ?_ ?_ ?_ ?_ hc h d hd hr
  · exact this
  · intro c hc hl d hd hr
    refine ⟨0, by omega, rfl, some (mkTok .eof d d.pos), ?_, ?_, ?_⟩
    · rw [gets_iff ho' hd, ← hr, hl]; exact ⟨rfl, rfl⟩
    · have h1 := mkTok_raw (c := c) (n := 0) .eof (by omega)
      have h2 := mkTok_raw (c := d) (n := 0) .eof (by omega)
      simp only [adv_zero] at h1 h2
      simp [Token.view, h1, h2]; rfl
    · intro t t' ht ht'; cases ht; cases ht'; exact ⟨Nat.add_comm _ _, Nat.add_comm _ _⟩
  · intro c hc hl d hd hr
    refine ⟨0, by omega, rfl, none, ?_, rfl, ?_⟩
    · rw [gets_iff ho' hd, ← hr, hl]; exact ⟨rfl, rfl⟩
    · intro t t' ht; cases ht
  · rintro c ty k c' o hc hl hs _ ih d hd hr
    have hb := lexOne_bounds hl
    have hbd : k ≤ d.rest.length := by rw [← hr]; exact hb.2.1
    obtain ⟨k', h1, h2, o', h3, h4, h5⟩ := ih (adv k d) (adv_wf hd k) (by rw [adv_rest, adv_rest, hr])
    rw [adv_rest, List.length_drop] at h1
    refine ⟨k + k', by omega, by rw [h2, adv_add], o', ?_, h4, ?_⟩
    · rw [gets_iff ho' hd, ← hr, hl]; simp only [hs, if_true]; rw [adv_add]; exact h3
    · intro t t' ht ht'
      have := h5 t t' ht ht'
      rw [adv_index hbd, adv_index hb.2.1] at this
      omega
  · intro c ty k hc hl hs d hd hr
    have hb := lexOne_bounds hl
    have hbd : k ≤ d.rest.length := by rw [← hr]; exact hb.2.1
    refine ⟨k, hb.2.1, rfl, some (mkTok ty (adv k d) d.pos), ?_, ?_, ?_⟩
    · rw [gets_iff ho' hd, ← hr, hl]; simp [hs]
    · simp only [Option.map_some, Token.view, mkTok_raw _ hb.2.1, mkTok_raw _ hbd, hr]; rfl
    · intro t t' ht ht'; cases ht; cases ht'
      simp only [mkTok, adv_index hb.2.1, adv_index hbd]; omega

end TP
