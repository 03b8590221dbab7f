import Verif.Props.C18

/-!
# C19  A failing declaration has no effect

False for declarations of several names (`var a, b: Integer`): `C19_refuted`.
-/

namespace TP.Props
open TP Spec Maps

/-- The full claim is false: Set of `b, a` where `a` is present fails, but `b` is declared afterwards. -/
theorem C19_refuted : ∃ (h : Maps Nat) (ds : List (Decl Nat)),
    (h.set asciiUni 0 ds).2 = .err ∧ h.get asciiUni 0 r!"b" = none ∧
      (h.set asciiUni 0 ds).1.get asciiUni 0 r!"b" = some ⟨r!"b", 2⟩ :=
  ⟨[.impl [(r!"a", ⟨r!"a", 1⟩)]], [⟨r!"b", 2⟩, ⟨r!"a", 2⟩], by decide, by decide, by decide⟩

variable {ν : Type} [EmbNode ν] (u : Uni)

omit [EmbNode ν] in
theorem upd_same (h : Maps ν) (t : Nat) : upd h t (tbl h t) = h := by
  induction h with
  | nil => rfl
  | cons o h ih =>
    simp only [upd, tbl]
    split
    · cases o <;> rfl
    · rw [ih]

omit [EmbNode ν] in
/-- A failing Set of one name has no effect at all.  (Missing for the full claim: declarations of several
names.) -/
theorem C19_partial (h : Maps ν) (i : Nat) (d : Decl ν) (hs : (h.set u i [d]).2 ≠ .ok) :
    (h.set u i [d]).1 = h := by
  have h1 := set_eq u h i [d]
  cases ht : target h i with
  | none => rw [ht] at h1; exact h1.1
  | some t =>
    rw [ht] at h1
    rw [h1] at hs ⊢
    cases hf : Tbl.find (tbl h t) (Tbl.regularize u d.name) with
    | none =>
      have e : (Tbl.set u (tbl h t) [d]).2 = true := by simp [Tbl.set, hf]
      rw [e] at hs; simp at hs
    | some x =>
      have e : (Tbl.set u (tbl h t) [d]).1 = tbl h t := by simp [Tbl.set, hf]
      rw [e]; exact upd_same h t

/-- For several names: whatever was declared before keeps its meaning in every map whose innermost scope is the
one declared to, and a failing Set adds at most the names in front of the first duplicate. -/
theorem C19_prefix_partial (h : Maps ν) (i t : Nat) (ht : target h i = some t) (ds : List (Decl ν)) :
    ∃ pre post, ds = pre ++ post ∧ ((h.set u i ds).2 = .ok ↔ post = []) ∧
      ∀ name, own u (h.set u i ds).1 t name =
        match own u h t name with
        | some old => some old
        | none => pre.find? (fun d => u.toLower d.name == u.toLower name) := by
  have h1 := set_eq u h i ds
  rw [ht] at h1
  obtain ⟨pre, post, e1, e2, e3, e4, e5, e6⟩ := Tbl.set_spec u ds (tbl h t) _ _ rfl
  refine ⟨pre, post, e1, ?_, ?_⟩
  · rw [h1]
    cases hb : (Tbl.set u (tbl h t) ds).2 with
    | true => simp [e5 hb]
    | false =>
      obtain ⟨d, p, hp, _⟩ := e6 hb
      simp [hp]
  · intro name
    rw [h1, own_upd_target u ht, own_target u ht, Tbl.get, Tbl.get, Tbl.regularize, e2]
    cases hf : Tbl.find (tbl h t) (u.toLower name) with
    | none => simp only; cases pre.find? (fun d => u.toLower d.name == u.toLower name) <;> rfl
    | some old =>
      have : pre.find? (fun x => u.toLower x.name == u.toLower name) = none := by
        rw [List.find?_eq_none]
        intro x hx hbe
        have := e3 x hx
        rw [beq_iff_eq.mp hbe, hf] at this; cases this
      rw [this]; rfl

/-- non-vacuity: a failing Set of one name. -/
example : (Maps.set asciiUni [MapObj.impl [(r!"a", (⟨r!"a", 1⟩ : Decl Nat))]] 0 [⟨r!"A", 2⟩]).2 ≠ .ok := by decide

end TP.Props
