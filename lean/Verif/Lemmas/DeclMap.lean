import Verif.Spec.Scope

namespace TP
open Spec
variable {ν : Type}

/-! ## tables -/
namespace Tbl

theorem find_cons (m : Tbl ν) (k k' : Str) (d : Decl ν) :
    Tbl.find ((k', d) :: m) k = if k' = k then some d else m.find k := rfl

/-- What `Set` does: it takes declarations while their names are new. -/
theorem set_spec (u : Uni) (ds : List (Decl ν)) : ∀ (m m' : Tbl ν) (b : Bool), m.set u ds = (m', b) →
    ∃ pre post, ds = pre ++ post ∧
      (∀ k, m'.find k = ((pre.find? (fun d => u.toLower d.name == k)).or (m.find k))) ∧
      (∀ d ∈ pre, m.find (u.toLower d.name) = none) ∧
      (pre.map (fun d => u.toLower d.name)).Nodup ∧
      (b = true → post = []) ∧
      (b = false → ∃ d post', post = d :: post' ∧ m'.find (u.toLower d.name) ≠ none) := by
  induction ds with
  | nil =>
    intro m m' b h
    simp only [set, Prod.mk.injEq] at h
    obtain ⟨rfl, rfl⟩ := h
    exact ⟨[], [], rfl, by simp, by simp, by simp, by simp, by simp⟩
  | cons d ds ih =>
    intro m m' b h
    simp only [set, regularize] at h
    cases hf : m.find (u.toLower d.name) with
    | some x =>
      rw [hf] at h
      simp only [Prod.mk.injEq] at h
      obtain ⟨rfl, rfl⟩ := h
      exact ⟨[], d :: ds, rfl, by simp, by simp, by simp, by simp, fun _ => ⟨d, ds, rfl, by simp [hf]⟩⟩
    | none =>
      rw [hf] at h
      obtain ⟨pre, post, h1, h2, h3, h4, h5, h6⟩ := ih _ _ _ h
      refine ⟨d :: pre, post, by rw [h1]; rfl, ?_, ?_, ?_, h5, h6⟩
      · intro k
        rw [h2, find_cons, List.find?_cons]
        by_cases hk : u.toLower d.name = k
        · subst hk
          have hn : pre.find? (fun d' => u.toLower d'.name == u.toLower d.name) = none := by
            rw [List.find?_eq_none]
            intro x hx hbe
            have := h3 x hx
            rw [find_cons, if_pos (by simpa using (beq_iff_eq.mp hbe).symm)] at this; cases this
          simp [hn]
        · have : (u.toLower d.name == k) = false := by simpa using hk
          simp [hk, this]
      · intro x hx
        cases hx with
        | head => exact hf
        | tail _ hx =>
          have := h3 x hx
          rw [find_cons] at this
          split at this
          · cases this
          · exact this
      · rw [List.map_cons, List.nodup_cons]
        refine ⟨?_, h4⟩
        intro hm
        obtain ⟨x, hx, e⟩ := List.mem_map.mp hm
        have := h3 x hx
        rw [find_cons, if_pos e.symm] at this; cases this

end Tbl

/-! ## the heap -/
namespace Maps

/-- put another table into an object -/
def withTbl (m : Tbl ν) : MapObj ν → MapObj ν
  | .impl _ => .impl m
  | .chained p _ => .chained p m
  | o => o

/-- put another table into the object with reference `t` -/
def upd : Maps ν → Nat → Tbl ν → Maps ν
  | [], _, _ => []
  | o :: h, t, m => if t = h.length then withTbl m o :: h else o :: upd h t m

/-- the table of the object with reference `t` -/
def tbl : Maps ν → Nat → Tbl ν
  | [], _ => []
  | o :: h, t => if t = h.length then
      match o with
      | .impl m => m
      | .chained _ m => m
      | _ => []
    else tbl h t

@[simp] theorem upd_length (h : Maps ν) (t : Nat) (m : Tbl ν) : (upd h t m).length = h.length := by
  induction h with
  | nil => rfl
  | cons o h ih => simp only [upd]; split <;> simp [ih]

theorem obj_lt {h : Maps ν} {i : Nat} {o : MapObj ν} (e : h.obj i = some o) : i < h.length := by
  induction h with
  | nil => cases e
  | cons o' h ih =>
    simp only [obj] at e
    split at e
    · rename_i hi; simp [hi]
    · have := ih e; simp; omega

theorem obj_none {h : Maps ν} {i : Nat} (hi : h.length ≤ i) : h.obj i = none := by
  cases e : h.obj i with
  | none => rfl
  | some o => have := obj_lt e; omega

theorem layers_lt {h : Maps ν} {i j : Nat} (hj : j ∈ layers h i) : j < h.length := by
  induction h generalizing i j with
  | nil => simp [layers] at hj
  | cons o h ih =>
    simp only [layers] at hj
    split at hj
    · rename_i hi
      cases o with
      | impl m => simp at hj; simp [hj, hi]
      | chained p m =>
        simp at hj
        rcases hj with rfl | hj
        · simp [hi]
        · have := ih hj; simp; omega
      | composite ms =>
        simp only [List.mem_flatMap] at hj
        obtain ⟨k, _, hk⟩ := hj
        have := ih hk; simp; omega
      | embedded => simp at hj; simp [hj, hi]
    · have := ih hj; simp; omega

theorem target_lt {h : Maps ν} {i t : Nat} (ht : target h i = some t) : t < h.length := by
  induction h generalizing i t with
  | nil => cases ht
  | cons o h ih =>
    simp only [target] at ht
    split at ht
    · rename_i hi
      cases o with
      | impl m => simp at ht; simp [← ht, hi]
      | chained p m => simp at ht; simp [← ht, hi]
      | composite ms =>
        cases ms with
        | nil => cases ht
        | cons j ms => have := ih ht; simp; omega
      | embedded => cases ht
    · have := ih ht; simp; omega

theorem target_mem_layers {h : Maps ν} {i t : Nat} (ht : target h i = some t) : t ∈ layers h i := by
  induction h generalizing i t with
  | nil => cases ht
  | cons o h ih =>
    simp only [target] at ht
    simp only [layers]
    split at ht
    · rename_i hi
      rw [if_pos hi]
      cases o with
      | impl m => simp at ht; simp [ht]
      | chained p m => simp at ht; simp [ht]
      | composite ms =>
        cases ms with
        | nil => cases ht
        | cons j ms => simp [ih ht]
      | embedded => cases ht
    · rename_i hi
      rw [if_neg hi]; exact ih ht

variable [EmbNode ν] (u : Uni)

theorem own_cons_lt {o : MapObj ν} {h : Maps ν} {i : Nat} (hi : i < h.length) (name : Str) :
    own u (o :: h) i name = own u h i name := by
  have : ¬ i = h.length := by omega
  simp only [own, obj, this, if_false]

/-- Get searches the layers in order. -/
theorem get_layers (h : Maps ν) (i : Nat) (name : Str) :
    h.get u i name = (layers h i).findSome? (fun j => own u h j name) := by
  induction h generalizing i with
  | nil => rfl
  | cons o h ih =>
    have ext : ∀ l : List Nat, (∀ j ∈ l, j < h.length) →
        l.findSome? (fun j => own u (o :: h) j name) = l.findSome? (fun j => own u h j name) := by
      intro l hl
      induction l with
      | nil => rfl
      | cons a l ihl =>
        rw [List.findSome?_cons, List.findSome?_cons, own_cons_lt u (hl a (by simp)),
          ihl (fun j hj => hl j (by simp [hj]))]
    have extl : ∀ k, (layers h k).findSome? (fun j => own u (o :: h) j name) =
        (layers h k).findSome? (fun j => own u h j name) := fun k => ext _ (fun j hj => layers_lt hj)
    simp only [get, layers]
    split
    · rename_i hi
      have hown : own u (o :: h) i name = ownTable u o name := by simp [own, obj, hi]
      cases o with
      | impl m => simp [hown, ownTable]
      | chained p m =>
        rw [List.findSome?_cons, hown, extl, ← ih]
        simp only [ownTable]
        cases m.get u name <;> rfl
      | composite ms =>
        simp only
        clear hown ext
        generalize MapObj.composite ms :: h = hh at extl
        induction ms with
        | nil => rfl
        | cons k ms ihm =>
          rw [List.findSome?_cons, List.flatMap_cons, List.findSome?_append, extl, ← ih, ← ihm]
          cases get u h k name <;> rfl
      | embedded => simp [hown, ownTable]
    · rw [extl, ← ih]

omit [EmbNode ν] in
theorem set_eq (h : Maps ν) (i : Nat) (ds : List (Decl ν)) :
    match target h i with
    | some t => h.set u i ds = (upd h t ((tbl h t).set u ds).1, if ((tbl h t).set u ds).2 then .ok else .err)
    | none => (h.set u i ds).1 = h ∧ (h.set u i ds).2 ≠ .ok := by
  induction h generalizing i with
  | nil => simp [target, set]
  | cons o h ih =>
    simp only [target]
    by_cases hi : i = h.length
    · simp only [if_pos hi]
      cases o with
      | impl m => simp [set, upd, tbl, hi, withTbl]
      | chained p m => simp [set, upd, tbl, hi, withTbl]
      | composite ms =>
        cases ms with
        | nil => simp [set, hi]
        | cons j ms =>
          have := ih j
          simp only
          cases ht : target h j with
          | none => rw [ht] at this; simp only [set, hi, if_true]; exact ⟨by rw [this.1], this.2⟩
          | some t =>
            rw [ht] at this
            have hlt := target_lt ht
            have hne : ¬ t = h.length := by omega
            simp only [set, hi, if_true, upd, tbl, hne, if_false]
            rw [this]
      | embedded => simp [set, hi]
    · simp only [if_neg hi]
      have := ih i
      cases ht : target h i with
      | none => rw [ht] at this; simp only [set, hi, if_false]; exact ⟨by rw [this.1], this.2⟩
      | some t =>
        rw [ht] at this
        have hlt := target_lt ht
        have hne : ¬ t = h.length := by omega
        simp only [set, hi, if_false, upd, tbl, hne]
        rw [this]

omit [EmbNode ν] in
theorem overwrite_eq (h : Maps ν) (i : Nat) (name : Str) (d : Decl ν) :
    match target h i with
    | some t => h.overwrite u i name d = (upd h t ((tbl h t).overwrite u name d), .ok)
    | none => (h.overwrite u i name d).1 = h := by
  induction h generalizing i with
  | nil => simp [target, overwrite]
  | cons o h ih =>
    simp only [target]
    by_cases hi : i = h.length
    · simp only [if_pos hi]
      cases o with
      | impl m => simp [overwrite, upd, tbl, hi, withTbl]
      | chained p m => simp [overwrite, upd, tbl, hi, withTbl]
      | composite ms =>
        cases ms with
        | nil => simp [overwrite, hi]
        | cons j ms =>
          have := ih j
          simp only
          cases ht : target h j with
          | none => rw [ht] at this; simp only [overwrite, hi, if_true]; rw [this]
          | some t =>
            rw [ht] at this
            have hlt := target_lt ht
            have hne : ¬ t = h.length := by omega
            simp only [overwrite, hi, if_true, upd, tbl, hne, if_false]
            rw [this]
      | embedded => simp [overwrite, hi]
    · simp only [if_neg hi]
      have := ih i
      cases ht : target h i with
      | none => rw [ht] at this; simp only [overwrite, hi, if_false]; rw [this]
      | some t =>
        rw [ht] at this
        have hlt := target_lt ht
        have hne : ¬ t = h.length := by omega
        simp only [overwrite, hi, if_false, upd, tbl, hne]
        rw [this]

omit [EmbNode ν] in
theorem obj_upd (h : Maps ν) (t : Nat) (m : Tbl ν) (j : Nat) :
    (upd h t m).obj j = if j = t then (h.obj j).map (withTbl m) else h.obj j := by
  induction h with
  | nil => simp [upd, obj]
  | cons o h ih =>
    simp only [upd]
    by_cases ht : t = h.length
    · simp only [if_pos ht, obj]
      by_cases hj : j = h.length
      · simp [hj, ht]
      · have : ¬ j = t := by omega
        simp [hj, this]
    · simp only [if_neg ht, obj, upd_length]
      by_cases hj : j = h.length
      · have : ¬ j = t := by omega
        simp [hj]; intro e; exact absurd e.symm ht
      · simp [hj, ih]

omit [EmbNode ν] in
theorem layers_upd (h : Maps ν) (t : Nat) (m : Tbl ν) (j : Nat) : layers (upd h t m) j = layers h j := by
  induction h generalizing j with
  | nil => rfl
  | cons o h ih =>
    simp only [upd]
    have ihf : layers (upd h t m) = layers h := funext ih
    split
    · simp only [layers]
      cases o <;> rfl
    · simp only [layers, upd_length, ihf]

omit [EmbNode ν] in
theorem target_upd (h : Maps ν) (t : Nat) (m : Tbl ν) (j : Nat) : target (upd h t m) j = target h j := by
  induction h generalizing j with
  | nil => rfl
  | cons o h ih =>
    simp only [upd]
    have ihf : target (upd h t m) = target h := funext ih
    split
    · simp only [target]
      cases o <;> rfl
    · simp only [target, upd_length, ihf]

theorem own_upd_ne {h : Maps ν} {t : Nat} {m : Tbl ν} {j : Nat} (hj : j ≠ t) (name : Str) :
    own u (upd h t m) j name = own u h j name := by
  simp only [own, obj_upd, if_neg hj]

omit [EmbNode ν] in
/-- the target holds a table -/
theorem target_obj {h : Maps ν} {i t : Nat} (ht : target h i = some t) :
    (h.obj t = some (.impl (tbl h t)) ∨ ∃ p, h.obj t = some (.chained p (tbl h t))) := by
  induction h generalizing i t with
  | nil => cases ht
  | cons o h ih =>
    simp only [target] at ht
    by_cases hi : i = h.length
    · rw [if_pos hi] at ht
      cases o with
      | impl m => simp at ht; subst ht; subst hi; left; simp [obj, tbl]
      | chained p m => simp at ht; subst ht; subst hi; right; exact ⟨p, by simp [obj, tbl]⟩
      | composite ms =>
        cases ms with
        | nil => cases ht
        | cons j ms =>
          have hlt := target_lt ht
          have hne : ¬ t = h.length := by omega
          simp only [obj, tbl, hne, if_false]; exact ih ht
      | embedded => cases ht
    · rw [if_neg hi] at ht
      have hlt := target_lt ht
      have hne : ¬ t = h.length := by omega
      simp only [obj, tbl, hne, if_false]; exact ih ht

theorem own_target {h : Maps ν} {i t : Nat} (ht : target h i = some t) (name : Str) :
    own u h t name = (tbl h t).get u name := by
  rcases target_obj ht with e | ⟨p, e⟩ <;> simp [own, e, ownTable]

theorem own_upd_target {h : Maps ν} {i t : Nat} (ht : target h i = some t) (m : Tbl ν) (name : Str) :
    own u (upd h t m) t name = m.get u name := by
  rcases target_obj ht with e | ⟨p, e⟩ <;> simp [own, obj_upd, e, ownTable, withTbl]

omit [EmbNode ν] in
/-- the target is the first layer -/
theorem layers_target {h : Maps ν} {i t : Nat} (ht : target h i = some t) : ∃ l, layers h i = t :: l := by
  induction h generalizing i t with
  | nil => cases ht
  | cons o h ih =>
    simp only [target] at ht
    simp only [layers]
    by_cases hi : i = h.length
    · rw [if_pos hi] at ht ⊢
      cases o with
      | impl m => simp at ht; exact ⟨[], by rw [ht]⟩
      | chained p m => simp at ht; exact ⟨_, by rw [ht]⟩
      | composite ms =>
        cases ms with
        | nil => cases ht
        | cons j ms => obtain ⟨l, hl⟩ := ih ht; exact ⟨l ++ ms.flatMap (layers h), by simp [hl]⟩
      | embedded => cases ht
    · rw [if_neg hi] at ht ⊢; exact ih ht

/-- Summary: `Set` only changes the table of the target layer. -/
theorem set_frame (h : Maps ν) (i : Nat) (ds : List (Decl ν)) :
    (h.set u i ds).1.length = h.length ∧
    (∀ j, layers (h.set u i ds).1 j = layers h j) ∧
    (∀ j, target (h.set u i ds).1 j = target h j) ∧
    (∀ j name, target h i ≠ some j → own u (h.set u i ds).1 j name = own u h j name) := by
  have h1 := set_eq u h i ds
  cases ht : target h i with
  | none =>
    rw [ht] at h1
    rw [h1.1]
    exact ⟨rfl, fun _ => rfl, fun _ => rfl, fun _ _ _ => rfl⟩
  | some t =>
    rw [ht] at h1
    rw [h1]
    exact ⟨upd_length _ _ _, layers_upd _ _ _, target_upd _ _ _,
      fun j name hj => own_upd_ne u (fun e => hj (by rw [e])) name⟩

theorem overwrite_frame (h : Maps ν) (i : Nat) (name' : Str) (d : Decl ν) :
    (h.overwrite u i name' d).1.length = h.length ∧
    (∀ j, layers (h.overwrite u i name' d).1 j = layers h j) ∧
    (∀ j, target (h.overwrite u i name' d).1 j = target h j) ∧
    (∀ j name, target h i ≠ some j → own u (h.overwrite u i name' d).1 j name = own u h j name) := by
  have h1 := overwrite_eq u h i name' d
  cases ht : target h i with
  | none =>
    rw [ht] at h1
    rw [h1]
    exact ⟨rfl, fun _ => rfl, fun _ => rfl, fun _ _ _ => rfl⟩
  | some t =>
    rw [ht] at h1
    rw [h1]
    exact ⟨upd_length _ _ _, layers_upd _ _ _, target_upd _ _ _,
      fun j name hj => own_upd_ne u (fun e => hj (by rw [e])) name⟩

end Maps
end TP
