import Verif.Basic.Uni

/-!
# Names that differ only in the case of ASCII letters
-/

namespace TP

/-- the names differ at most in the case of ASCII letters -/
def SameName (a b : Str) : Prop := a.map asciiUp = b.map asciiUp

theorem asciiUp_cases (x : Char) :
    (asciiUp x = x ∧ asciiLower x = false) ∨
      (97 ≤ x.toNat ∧ x.toNat ≤ 122 ∧ (asciiUp x).toNat = x.toNat - 32) := by
  unfold asciiUp
  split
  · rename_i hx
    unfold asciiLower at hx
    simp only [Bool.and_eq_true, decide_eq_true_eq] at hx
    right; refine ⟨hx.1, hx.2, ?_⟩
    have hv : (x.toNat - 32).isValidChar := by left; omega
    unfold Char.ofNat; rw [dif_pos hv]; rfl
  · rename_i hx; left; exact ⟨rfl, by simpa using hx⟩

theorem char_ext {a b : Char} (h : a.toNat = b.toNat) : a = b := by
  apply Char.ext
  exact UInt32.toNat_inj.mp h

theorem asciiLow_lower {x : Char} (h : 97 ≤ x.toNat) : asciiLow x = x := by
  unfold asciiLow asciiUpper
  rw [if_neg]; simp; omega

theorem asciiLow_upper {x : Char} (h1 : 65 ≤ x.toNat) (h2 : x.toNat ≤ 90) : (asciiLow x).toNat = x.toNat + 32 := by
  unfold asciiLow asciiUpper
  rw [if_pos (by simp; omega)]
  have hv : (x.toNat + 32).isValidChar := by left; omega
  unfold Char.ofNat; rw [dif_pos hv]; rfl

theorem asciiUp_inj {a b : Char} (h : asciiUp a = asciiUp b) :
    a = b ∨ (a.toNat < 128 ∧ b.toNat < 128 ∧ asciiLow a = asciiLow b) := by
  rcases asciiUp_cases a with ⟨ha, _⟩ | ⟨a1, a2, a3⟩ <;> rcases asciiUp_cases b with ⟨hb, _⟩ | ⟨b1, b2, b3⟩
  · left; rw [ha, hb] at h; exact h
  · right
    rw [ha] at h
    have e := congrArg Char.toNat h
    rw [b3] at e
    refine ⟨by omega, by omega, ?_⟩
    apply char_ext
    rw [asciiLow_upper (by omega) (by omega), asciiLow_lower b1]; omega
  · right
    rw [hb] at h
    have e := congrArg Char.toNat h
    rw [a3] at e
    refine ⟨by omega, by omega, ?_⟩
    apply char_ext
    rw [asciiLow_upper (x := b) (by omega) (by omega), asciiLow_lower a1]; omega
  · left
    have e := congrArg Char.toNat h
    rw [a3, b3] at e
    apply char_ext; omega

theorem SameName.map_eq {a b : Str} (h : SameName a b) {β : Type} (f : Char → β)
    (hf : ∀ x y, asciiUp x = asciiUp y → f x = f y) : a.map f = b.map f := by
  unfold SameName at h
  induction a generalizing b with
  | nil =>
    cases b with
    | nil => rfl
    | cons y b => simp at h
  | cons x a ih =>
    cases b with
    | nil => simp at h
    | cons y b =>
      simp only [List.map_cons, List.cons.injEq] at h ⊢
      exact ⟨hf x y h.1, ih h.2⟩

theorem SameName.lower {a b : Str} (u : Uni) (h : SameName a b) : u.toLower a = u.toLower b := by
  refine h.map_eq u.low (fun x y e => ?_)
  rcases asciiUp_inj e with rfl | ⟨h1, h2, h3⟩
  · rfl
  · rw [u.low_ascii x h1, u.low_ascii y h2, h3]

theorem SameName.upper {a b : Str} (u : Uni) (h : SameName a b) : u.toUpper a = u.toUpper b := by
  refine h.map_eq u.up (fun x y e => ?_)
  rcases asciiUp_inj e with rfl | ⟨h1, h2, _⟩
  · rfl
  · rw [u.up_ascii x h1, u.up_ascii y h2, e]

theorem SameName.rfl' (a : Str) : SameName a a := rfl
theorem SameName.symm {a b : Str} (h : SameName a b) : SameName b a := Eq.symm h

end TP
