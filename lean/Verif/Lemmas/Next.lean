import Verif.Lemmas.Lex

/-!
# `GetNext` against the lexical specification
-/

namespace TP
open Cursor Spec

variable {u : Uni} {order : List (Char × Char)} {fl : Flags}

theorem Reachable.wf {c : Cursor} (h : Reachable c) : c.WF := by
  induction h with
  | new t => exact new_wf t
  | next _ ih => exact next_wf ih
  | clone _ ih => exact clone_wf ih

theorem Reachable.adv {c : Cursor} (h : Reachable c) (n : Nat) : Reachable (c.adv n) := by
  induction n generalizing c with
  | zero => exact h
  | succ n ih => exact ih h.next

/-- is the lexeme skipped under the flags -/
def Flags.skips (fl : Flags) (ty : TType) : Bool := skipped fl.loadSpace fl.loadComment ty

theorem getNext_succ (ho : IsOrder order) {c : Cursor} (hc : c.WF) {n : Nat} (hn : c.rest.length < n) :
    getNext u order fl (n + 1) c =
      match lexOne u c.rest with
      | .eof => some (c, some (mkTok .eof c c.pos))
      | .stuck => some (c, none)
      | .unterminated => none
      | .tok ty k =>
        if fl.skips ty then getNext u order fl n (adv k c)
        else some (adv k c, some (mkTok ty (adv k c) c.pos)) := by
  simp only [getNext, runProcs_spec u ho hc hn]
  cases h : lexOne u c.rest with
  | eof => simp [outcome, mkTok]
  | stuck => simp [outcome]
  | unterminated => simp [outcome]
  | tok ty k =>
    simp only [outcome, mkTok, Flags.skips, skipped]
    generalize getNext u order fl n (adv k c) = g
    rcases fl with ⟨_ | _, _ | _⟩ <;> cases ty <;> rfl

theorem gets_iff (ho : IsOrder order) {c : Cursor} (hc : c.WF) {c' : Cursor} {t : Option Token} :
    Gets u order fl c c' t ↔
      match lexOne u c.rest with
      | .eof => c' = c ∧ t = some (mkTok .eof c c.pos)
      | .stuck => c' = c ∧ t = none
      | .unterminated => False
      | .tok ty k =>
        if fl.skips ty then Gets u order fl (adv k c) c' t
        else c' = adv k c ∧ t = some (mkTok ty (adv k c) c.pos) := by
  have key : Gets u order fl c c' t ↔
      ∃ n, c.rest.length < n ∧ getNext u order fl (n + 1) c = some (c', t) := by
    constructor
    · rintro ⟨n, h⟩
      exact ⟨n + c.rest.length + 1, by omega, getNext_mono (by omega) h⟩
    · rintro ⟨n, _, h⟩; exact ⟨_, h⟩
  rw [key]
  constructor
  · rintro ⟨n, hn, h⟩
    rw [getNext_succ ho hc hn] at h
    cases hl : lexOne u c.rest with
    | eof => rw [hl] at h; simp at h; exact ⟨h.1.symm, h.2.symm⟩
    | stuck => rw [hl] at h; simp at h; exact ⟨h.1.symm, h.2.symm⟩
    | unterminated => rw [hl] at h; simp at h
    | tok ty k =>
      rw [hl] at h; simp only at h ⊢
      split
      · rename_i h1; rw [if_pos h1] at h; exact ⟨_, h⟩
      · rename_i h1; rw [if_neg h1] at h; simp at h; exact ⟨h.1.symm, h.2.symm⟩
  · intro h
    cases hl : lexOne u c.rest with
    | eof =>
      rw [hl] at h; refine ⟨c.rest.length + 1, by omega, ?_⟩
      rw [getNext_succ ho hc (by omega), hl]; simp [h]
    | stuck =>
      rw [hl] at h; refine ⟨c.rest.length + 1, by omega, ?_⟩
      rw [getNext_succ ho hc (by omega), hl]; simp [h]
    | unterminated => rw [hl] at h; exact h.elim
    | tok ty k =>
      rw [hl] at h; simp only at h
      split at h
      · rename_i h1
        obtain ⟨m, h⟩ := h
        refine ⟨m + c.rest.length + 1, by omega, ?_⟩
        rw [getNext_succ ho hc (by omega), hl]; simp only [h1, if_true]
        exact getNext_mono (by omega) h
      · rename_i h1
        refine ⟨c.rest.length + 1, by omega, ?_⟩
        rw [getNext_succ ho hc (by omega), hl]; simp [h1, h]

theorem gets_unique {c c1 c2 : Cursor} {t1 t2 : Option Token} (h1 : Gets u order fl c c1 t1)
    (h2 : Gets u order fl c c2 t2) : c1 = c2 ∧ t1 = t2 := by
  obtain ⟨n, h1⟩ := h1; obtain ⟨m, h2⟩ := h2
  have e1 := getNext_mono (Nat.le_max_left n m) h1
  have e2 := getNext_mono (Nat.le_max_right n m) h2
  rw [e1] at e2; simp at e2; exact e2

/-- Induction over the skipped lexemes of a call. -/
theorem gets_induction (ho : IsOrder order) {P : Cursor → Cursor → Option Token → Prop}
    (heof : ∀ c, c.WF → lexOne u c.rest = .eof → P c c (some (mkTok .eof c c.pos)))
    (hstuck : ∀ c, c.WF → lexOne u c.rest = .stuck → P c c none)
    (hskip : ∀ c ty k c' t, c.WF → lexOne u c.rest = .tok ty k → fl.skips ty = true →
      Gets u order fl (adv k c) c' t → P (adv k c) c' t → P c c' t)
    (htok : ∀ c ty k, c.WF → lexOne u c.rest = .tok ty k → fl.skips ty = false →
      P c (adv k c) (some (mkTok ty (adv k c) c.pos)))
    {c c' : Cursor} {t : Option Token} (hc : c.WF) (h : Gets u order fl c c' t) : P c c' t := by
  generalize hm : c.rest.length = m
  induction m using Nat.strongRecOn generalizing c with
  | ind m ih =>
    have h' := (gets_iff ho hc).mp h
    cases hl : lexOne u c.rest with
    | eof => rw [hl] at h'; obtain ⟨rfl, rfl⟩ := h'; exact heof _ hc hl
    | stuck => rw [hl] at h'; obtain ⟨rfl, rfl⟩ := h'; exact hstuck _ hc hl
    | unterminated => rw [hl] at h'; exact h'.elim
    | tok ty k =>
      rw [hl] at h'; simp only at h'
      split at h'
      · rename_i h1
        have hb := lexOne_bounds hl
        refine hskip c ty k c' t hc hl h1 h' ?_
        refine ih (adv k c).rest.length ?_ (adv_wf hc k) h' rfl
        rw [adv_rest, List.length_drop]; omega
      · rename_i h1
        obtain ⟨rfl, rfl⟩ := h'
        exact htok c ty k hc hl (by simpa using h1)

/-- A call only advances the cursor. -/
theorem gets_adv (ho : IsOrder order) {c c' : Cursor} {t : Option Token} (hc : c.WF)
    (h : Gets u order fl c c' t) : ∃ k, k ≤ c.rest.length ∧ c' = adv k c := by
  refine gets_induction ho (P := fun c c' _ => ∃ k, k ≤ c.rest.length ∧ c' = adv k c) ?_ ?_ ?_ ?_ hc h
  · intro c _ _; exact ⟨0, by omega, rfl⟩
  · intro c _ _; exact ⟨0, by omega, rfl⟩
  · rintro c ty k c' t hc hl _ _ ⟨k', hk, rfl⟩
    have hb := lexOne_bounds hl
    rw [adv_rest, List.length_drop] at hk
    exact ⟨k + k', by omega, by rw [adv_add]⟩
  · intro c ty k hc hl _; exact ⟨k, (lexOne_bounds hl).2.1, rfl⟩

theorem gets_wf (ho : IsOrder order) {c c' : Cursor} {t : Option Token} (hc : c.WF)
    (h : Gets u order fl c c' t) : c'.WF := by
  obtain ⟨k, _, rfl⟩ := gets_adv ho hc h; exact adv_wf hc k

theorem gets_reachable (ho : IsOrder order) {c c' : Cursor} {t : Option Token} (hc : Reachable c)
    (h : Gets u order fl c c' t) : Reachable c' := by
  obtain ⟨k, _, rfl⟩ := gets_adv ho hc.wf h; exact hc.adv k

theorem run_adv (ho : IsOrder order) {c c' : Cursor} {ts : List Token} (hc : c.WF)
    (h : Run u order fl c ts c') : ∃ k, k ≤ c.rest.length ∧ c' = adv k c := by
  induction h with
  | nil => exact ⟨0, by omega, rfl⟩
  | cons hg _ ih =>
    obtain ⟨k, hk, rfl⟩ := gets_adv ho hc hg
    obtain ⟨k', hk', rfl⟩ := ih (adv_wf hc k)
    rw [adv_rest, List.length_drop] at hk'
    exact ⟨k + k', by omega, by rw [adv_add]⟩

theorem run_append {c c' c'' : Cursor} {ts ts' : List Token} (h : Run u order fl c ts c')
    (h' : Run u order fl c' ts' c'') : Run u order fl c (ts ++ ts') c'' := by
  induction h with
  | nil => exact h'
  | cons hg _ ih => exact .cons hg (ih h')

end TP
