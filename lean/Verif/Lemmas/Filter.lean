import Verif.Lemmas.Tokens

/-!
# Calls with skipping as several calls without
-/

namespace TP
open Cursor Spec

theorem kept_eq (fl : Flags) (t : Token) : kept fl t = !fl.skips t.typ := by
  simp only [kept, Flags.skips, skipped]
  generalize t.typ = ty
  rcases fl with ⟨_ | _, _ | _⟩ <;> cases ty <;> rfl

theorem filter_none {α : Type} {p : α → Bool} {l : List α} (h : ∀ x ∈ l, p x = false) : l.filter p = [] := by
  rw [List.filter_eq_nil_iff]; intro x hx; rw [h x hx]; simp

variable (u : Uni) (order : List (Char × Char)) (ho : IsOrder order) (fl : Flags)
include ho

theorem gets_all_of_tok {c : Cursor} (hc : c.WF) {ty : TType} {k : Nat} (hl : lexOne u c.rest = .tok ty k) :
    Gets u order Flags.all c (adv k c) (some (mkTok ty (adv k c) c.pos)) := by
  rw [gets_iff ho hc, hl]
  simp [not_skips_all]

/-- One call with the flags is some calls with both flags set, of which only the last is kept. -/
theorem gets_all_iff (c c' : Cursor) (hc : c.WF) (o : Option Token) :
    Gets u order fl c c' o ↔
      ∃ ts c1, Run u order Flags.all c ts c1 ∧ (∀ t ∈ ts, kept fl t = false) ∧
        Gets u order Flags.all c1 c' o ∧ (∀ t, o = some t → kept fl t = true) := by
  constructor
  · intro h
    refine gets_induction ho (P := fun c c' o => ∃ ts c1, Run u order Flags.all c ts c1 ∧
      (∀ t ∈ ts, kept fl t = false) ∧ Gets u order Flags.all c1 c' o ∧ (∀ t, o = some t → kept fl t = true))
      ?_ ?_ ?_ ?_ hc h
    · intro c hc hl
      refine ⟨[], c, .nil c, by simp, ?_, ?_⟩
      · rw [gets_iff ho hc, hl]; exact ⟨rfl, rfl⟩
      · intro t ht; cases ht; rw [kept_eq]; rcases fl with ⟨_ | _, _ | _⟩ <;> rfl
    · intro c hc hl
      refine ⟨[], c, .nil c, by simp, ?_, by simp⟩
      rw [gets_iff ho hc, hl]; exact ⟨rfl, rfl⟩
    · rintro c ty k c' o hc hl hs _ ⟨ts, c1, h1, h2, h3, h4⟩
      refine ⟨mkTok ty (adv k c) c.pos :: ts, c1, .cons (gets_all_of_tok u order ho hc hl) h1, ?_, h3, h4⟩
      intro t ht
      cases ht with
      | head => rw [kept_eq]; show (!fl.skips ty) = false; rw [hs]; rfl
      | tail _ ht => exact h2 t ht
    · intro c ty k hc hl hs
      refine ⟨[], c, .nil c, by simp, gets_all_of_tok u order ho hc hl, ?_⟩
      intro t ht; cases ht; rw [kept_eq]; show (!fl.skips ty) = true; rw [hs]; rfl
  · rintro ⟨ts, c1, h1, h2, h3, h4⟩
    induction h1 with
    | nil c =>
      rw [gets_iff ho hc] at h3 ⊢
      cases hl : lexOne u c.rest with
      | eof => rw [hl] at h3; exact h3
      | stuck => rw [hl] at h3; exact h3
      | unterminated => rw [hl] at h3; exact h3
      | tok ty k =>
        rw [hl] at h3
        simp only [not_skips_all] at h3
        obtain ⟨rfl, rfl⟩ := h3
        have := h4 _ rfl
        rw [kept_eq] at this
        have hs : fl.skips ty = false := by simpa [mkTok] using this
        simp [hs]
    | @cons c c1 c2 t ts hg _ ih =>
      have hw := gets_wf ho hc hg
      have := ih hw (fun x hx => h2 x (by simp [hx])) h3
      have hk := h2 t (by simp)
      rw [gets_iff ho hc] at hg ⊢
      cases hl : lexOne u c.rest with
      | eof =>
        rw [hl] at hg; obtain ⟨rfl, e⟩ := hg; cases e
        rw [kept_eq] at hk
        exfalso; revert hk; rcases fl with ⟨_ | _, _ | _⟩ <;> exact (fun h => nomatch h)
      | stuck => rw [hl] at hg; cases hg.2
      | unterminated => rw [hl] at hg; exact hg.elim
      | tok ty k =>
        rw [hl] at hg
        simp only [not_skips_all] at hg
        obtain ⟨rfl, e⟩ := hg; cases e
        rw [kept_eq] at hk
        have hs : fl.skips ty = true := by simpa [mkTok] using hk
        simp only [hs, if_true]; exact this

end TP
