import Verif.Lemmas.PScope
import Verif.Lemmas.DeclSound
import Verif.Model.Goal

/-!
# The declaration maps while declarations are parsed
-/

namespace TP
open Spec Maps

/-! ## What is stored -/

section
variable (u : Uni)

theorem tblSet_mem (ds : List (Decl Node)) : ∀ (m : Tbl Node), ∀ p ∈ (m.set u ds).1,
    p ∈ m ∨ p.2 ∈ ds ∧ p.1 = u.toLower p.2.name := by
  induction ds with
  | nil => intro m p h; exact .inl h
  | cons d ds ih =>
    intro m p h
    unfold Tbl.set at h
    cases e : m.find (Tbl.regularize u d.name) with
    | some _ => rw [e] at h; exact .inl h
    | none =>
      rw [e] at h
      rcases ih _ p h with h | ⟨h, h'⟩
      · rcases List.mem_cons.1 h with rfl | h
        · exact .inr ⟨List.mem_cons_self, rfl⟩
        · exact .inl h
      · exact .inr ⟨List.mem_cons_of_mem _ h, h'⟩

theorem intfTable_mem (nodes : List (List (Decl Node))) : ∀ (m : Tbl Node), ∀ p ∈ World.intfTable u nodes m,
    p ∈ m ∨ p.2 ∈ nodes.flatten ∧ p.1 = u.toLower p.2.name := by
  induction nodes with
  | nil => intro m p h; exact .inl h
  | cons ds nodes ih =>
    intro m p h
    unfold World.intfTable at h
    rcases ih _ p h with h | ⟨h, h'⟩
    · rcases tblSet_mem u ds m p h with h | ⟨h, h'⟩
      · exact .inl h
      · exact .inr ⟨by simp [h], h'⟩
    · exact .inr ⟨by rw [List.flatten_cons]; exact List.mem_append_right _ h, h'⟩

theorem find_mem {m : Tbl Node} {k : Str} {d : Decl Node} (h : m.find k = some d) : (k, d) ∈ m := by
  induction m with
  | nil => cases h
  | cons p m ih =>
    obtain ⟨k', d'⟩ := p
    unfold Tbl.find at h
    by_cases e : k' = k
    · rw [if_pos e] at h
      injection h with h
      subst h e
      exact List.mem_cons_self
    · rw [if_neg e] at h
      exact List.mem_cons_of_mem _ (ih h)

/-- every declaration stored under a name satisfies `P` -/
def Kept (P : Str → Node → Prop) (h : Maps Node) : Prop := ∀ j, ∀ p ∈ tbl h j, P p.1 p.2.node

variable {P : Str → Node → Prop}

theorem Kept.mono {P' : Str → Node → Prop} {h : Maps Node} (hs : Kept P h) (hp : ∀ k n, P k n → P' k n) : Kept P' h :=
  fun j p hm => hp _ _ (hs j p hm)

/-- the table of an object -/
def objTbl : MapObj Node → Tbl Node
  | .impl m => m
  | .chained _ m => m
  | _ => []

theorem tbl_cons (o : MapObj Node) (h : Maps Node) (j : Nat) :
    tbl (o :: h) j = if j = h.length then objTbl o else tbl h j := by
  conv => lhs; unfold tbl
  cases o <;> rfl

theorem Kept.cons {h : Maps Node} (hs : Kept P h) {o : MapObj Node} (ho : ∀ p ∈ objTbl o, P p.1 p.2.node) :
    Kept P (o :: h) := by
  intro j p hm
  rw [tbl_cons] at hm
  split at hm
  · exact ho p hm
  · exact hs j p hm

theorem tbl_none {h : Maps Node} {j : Nat} (hj : h.length ≤ j) : tbl h j = [] := by
  induction h with
  | nil => rfl
  | cons o h ih =>
    simp only [List.length_cons] at hj
    rw [tbl_cons, if_neg (by omega)]
    exact ih (by omega)

theorem tbl_upd {h : Maps Node} {t : Nat} {m : Tbl Node} (j : Nat) :
    tbl (upd h t m) j = if j = t then (match h.obj t with
      | some (.impl _) => m
      | some (.chained _ _) => m
      | _ => []) else tbl h j := by
  induction h with
  | nil => simp [upd, tbl, Maps.obj]
  | cons o h ih =>
    simp only [upd, Maps.obj]
    by_cases ht : t = h.length
    · rw [if_pos ht, if_pos ht, tbl_cons]
      by_cases hj : j = h.length
      · rw [if_pos hj, if_pos (hj.trans ht.symm)]
        cases o <;> rfl
      · rw [if_neg hj, if_neg (by omega), tbl_cons, if_neg hj]
    · rw [if_neg ht, if_neg ht, tbl_cons, tbl_cons, upd_length, ih]
      by_cases hj : j = h.length
      · have : ¬ j = t := by omega
        rw [if_pos hj, if_neg this, if_pos hj]
      · rw [if_neg hj]
        by_cases c : j = t
        · rw [if_pos c, if_pos c]
        · rw [if_neg c, if_neg c, if_neg hj]

theorem Kept.upd {h : Maps Node} (hs : Kept P h) {t : Nat} {m : Tbl Node} (hm : ∀ p ∈ m, P p.1 p.2.node) :
    Kept P (upd h t m) := by
  intro j p hp
  rw [tbl_upd] at hp
  split at hp
  · split at hp
    · exact hm p hp
    · exact hm p hp
    · cases hp
  · exact hs j p hp

theorem tbl_obj {h : Maps Node} {j : Nat} {o : MapObj Node} (e : h.obj j = some o) : tbl h j = objTbl o := by
  induction h with
  | nil => cases e
  | cons a h ih =>
    rw [tbl_cons]
    simp only [Maps.obj] at e
    split at e
    · rename_i c; cases e; rw [if_pos c]
    · rename_i c; rw [if_neg c]; exact ih e

/-- a declaration found is stored under its name, or an embedded type -/
theorem get_stored {h : Maps Node} (hs : Kept P h) {i : Nat} {name : Str} {d : Decl Node} (e : h.get u i name = some d) :
    P (u.toLower name) d.node ∨ ∃ k n, d.node = .embedded k n := by
  rw [get_layers] at e
  obtain ⟨j, -, hj⟩ := List.exists_of_findSome?_eq_some e
  unfold own at hj
  cases ho : h.obj j with
  | none => rw [ho] at hj; cases hj
  | some o =>
    rw [ho] at hj
    have ht := tbl_obj ho
    cases o with
    | impl m => exact .inl (hs j _ (by rw [ht]; exact find_mem hj))
    | chained p m => exact .inl (hs j _ (by rw [ht]; exact find_mem hj))
    | composite ms => cases hj
    | embedded =>
      have := find_mem (show (embTable u Node).find (u.toUpper name) = some d from hj)
      unfold embTable at this
      obtain ⟨kn, -, he⟩ := List.mem_map.1 this
      injection he with _ he
      subst he
      exact .inr ⟨kn.1, kn.2, rfl⟩

theorem ctxGet_stored {h : Maps Node} (hs : Kept P h) : ∀ {cs : Ctxs} {i : Nat} {name : Str} {d : Decl Node},
    Ctxs.get u h cs i name = some d → P (u.toLower name) d.node ∨ ∃ k n, d.node = .embedded k n
  | [], _, _, _, e => by cases e
  | o :: cs, i, name, d, e => by
    unfold Ctxs.get at e
    split at e
    · cases o with
      | program p us m => exact get_stored u hs e
      | unit p q m => exact get_stored u hs e
      | stackable p q m =>
        simp only at e
        cases hg : h.get u m name with
        | some r => rw [hg] at e; cases e; exact get_stored u hs hg
        | none => rw [hg] at e; exact ctxGet_stored hs e
    · exact ctxGet_stored hs e

end

/-! ## The invariant -/

/-- the contexts in `M` declare into tables in `S` -/
def Owns (S M : Nat → Prop) (w : World Node) : Prop :=
  ∀ i o, w.ctxs.obj i = some o → M i → ∃ t, target w.maps o.dm = some t ∧ S t

/-- From `k0` to `k` the parser has only added declarations to tables in `S`, where the contexts in `M` declare; tables and
contexts added belong to `S` and `M`.  All declarations stored satisfy `P`. -/
structure Heap (P : Str → Node → Prop) (S M : Nat → Prop) (k0 k : DS) : Prop where
  owns : Owns S M k.w
  cur : M k.cur
  here : k.cur < k.w.ctxs.length
  newS : ∀ t, k.w.maps.length ≤ t → S t
  newM : ∀ i, k.w.ctxs.length ≤ i → M i
  stored : Kept P k.w.maps
  frame : Frame S k0.w.maps k.w.maps
  len : k0.w.ctxs.length ≤ k.w.ctxs.length
  ctx : ∀ i < k0.w.ctxs.length, k.w.ctxs.obj i = k0.w.ctxs.obj i
  units : k0.w.units <+: k.w.units
  dms : ∀ j, k.w.unitDm j = k0.w.unitDm j
  items : ∀ i : Nat, (k.items[i]?).join = (k0.items[i]?).join
  program : k.program = k0.program
  types : k0.types <+: k.types

theorem target_lt' {h : Maps Node} {i t : Nat} (e : target h i = some t) : i < h.length := by
  induction h generalizing i t with
  | nil => cases e
  | cons o h ih =>
    simp only [target] at e
    split at e
    · rename_i c; simp [c]
    · have := ih e; simp only [List.length_cons]; omega

/-- what holds after a declaration is made -/
def SetAfter (Q : DS → Prop) : SetR DS → Prop
  | .ok k => Q k
  | .err => True
  | .panic => False

namespace Heap
variable {P : Str → Node → Prop} {S M : Nat → Prop} {k0 k : DS}

theorem start (h : Heap P S M k0 k) : Heap P S M k k :=
  ⟨h.owns, h.cur, h.here, h.newS, h.newM, h.stored, .refl _ _, Nat.le_refl _, fun _ _ => rfl, List.prefix_rfl, fun _ => rfl, fun _ => rfl, rfl, List.prefix_rfl⟩

theorem target (h : Heap P S M k0 k) : ∃ d t, k.w.dm k.cur = some d ∧ target k.w.maps d = some t ∧ S t := by
  obtain ⟨o, ho⟩ := Ctxs.obj_some h.here
  obtain ⟨t, h1, h2⟩ := h.owns _ o ho h.cur
  exact ⟨o.dm, t, World.dm_eq.2 ⟨o, ho, rfl⟩, h1, h2⟩

/-- a new table in the innermost scope -/
theorem upd (h : Heap P S M k0 k) {t : Nat} (ht : S t) {m : Tbl Node} (hm : ∀ p ∈ m, P p.1 p.2.node) {ts : List (PType (Decl Node))}
    (hts : k.types <+: ts) {ac : List (Nat × Nat)} :
    Heap P S M k0 { k with w := { k.w with maps := Maps.upd k.w.maps t m }, types := ts, actual := ac } where
  owns := by
    intro i o ho hM
    obtain ⟨t', h1, h2⟩ := h.owns i o ho hM
    exact ⟨t', by simp only [target_upd]; exact h1, h2⟩
  cur := h.cur
  here := h.here
  newS := by simp only [upd_length]; exact h.newS
  newM := h.newM
  stored := h.stored.upd hm
  frame := h.frame.trans (Frame.upd _ _ _ ht)
  len := h.len
  ctx := h.ctx
  units := h.units
  dms := h.dms
  items := h.items
  program := h.program
  types := h.types.trans hts

/-- nothing but numbers and pending references changed -/
theorem same (h : Heap P S M k0 k) {k' : DS} (hw : k'.w = k.w) (hc : k'.cur = k.cur) (hi : k'.items = k.items)
    (hp : k'.program = k.program) (ht : k'.types = k.types) : Heap P S M k0 k' := by
  obtain ⟨w, cur, types, actual, refs, pending, items, program⟩ := k
  obtain ⟨w', cur', types', actual', refs', pending', items', program'⟩ := k'
  simp only at hw hc hi hp ht
  subst hw hc hi hp ht
  exact ⟨h.owns, h.cur, h.here, h.newS, h.newM, h.stored, h.frame, h.len, h.ctx, h.units, h.dms, h.items, h.program, h.types⟩

theorem rollback (h : Heap P S M k0 k) : Heap P S M k0 k.rollback := by
  unfold DS.rollback World.clone
  obtain ⟨o, ho⟩ := Ctxs.obj_some h.here
  rw [ho]
  have hod : o.clone.dm = o.dm := by cases o <;> rfl
  refine ⟨?_, h.newM _ (Nat.le_refl _), by simp, h.newS, fun i hi => h.newM i (by simp at hi; omega), h.stored, h.frame,
    Nat.le_trans h.len (by simp), fun i hi => ?_, h.units, h.dms, h.items, h.program, h.types⟩
  · intro i o' ho' hM
    simp only [Ctxs.obj] at ho'
    split at ho'
    · cases ho'
      rw [hod]; exact h.owns _ o ho h.cur
    · exact h.owns i o' ho' hM
  · rw [← h.ctx i hi]
    exact Ctxs.obj_cons_lt _ (Nat.lt_of_lt_of_le hi h.len)

theorem set (u : Uni) (h : Heap P S M k0 k) (hP : ∀ key n, (∀ i, n ≠ .uses i) → (∀ i, n ≠ .unit i) → n ≠ .program → P key n)
    (is : List Ident) (kind : DKind (Decl Node)) : SetAfter (Heap P S M k0) (k.set u is kind) := by
  obtain ⟨d, t, h1, h2, h3⟩ := h.target
  have hset := set_eq u k.w.maps d (is.map fun i => ⟨i.name, k.mkNode kind i⟩)
  rw [h2] at hset
  have hm : ∀ p ∈ ((tbl k.w.maps t).set u (is.map fun i => ⟨i.name, k.mkNode kind i⟩)).1, P p.1 p.2.node := by
    intro p hp
    rcases tblSet_mem u _ _ p hp with hp | ⟨hp, -⟩
    · exact h.stored t p hp
    · obtain ⟨i, -, he⟩ := List.mem_map.1 hp
      rw [← he]
      cases kind <;> exact hP _ _ (fun _ h => by cases h) (fun _ h => by cases h) (fun h => by cases h)
  unfold DS.set DS.setR World.set
  rw [h1]
  simp only
  rw [hset]
  simp only
  by_cases c : ((tbl k.w.maps t).set u (is.map fun i => ⟨i.name, k.mkNode kind i⟩)).2 = true
  · rw [if_pos c]
    cases kind with
    | type ty => exact h.upd h3 hm (List.prefix_append _ _)
    | _ => exact h.upd h3 hm List.prefix_rfl
  · rw [if_neg c]
    trivial

theorem setUses (u : Uni) (h : Heap P S M k0 k) (hP : ∀ key i, P key (.uses i)) (i : Ident) :
    SetAfter (Heap P S M k0) (k.setUses u i) := by
  obtain ⟨d, t, h1, h2, h3⟩ := h.target
  have hset := set_eq u k.w.maps d [⟨i.name, .uses k.items.length⟩]
  rw [h2] at hset
  have hm : ∀ p ∈ ((tbl k.w.maps t).set u [⟨i.name, .uses k.items.length⟩]).1, P p.1 p.2.node := by
    intro p hp
    rcases tblSet_mem u _ _ p hp with hp | ⟨hp, -⟩
    · exact h.stored t p hp
    · rw [List.mem_singleton.1 hp]; exact hP _ _
  unfold DS.setUses DS.setR World.set
  rw [h1]
  simp only
  rw [hset]
  simp only
  by_cases c : ((tbl k.w.maps t).set u [⟨i.name, .uses k.items.length⟩]).2 = true
  · rw [if_pos c]
    have g := h.upd h3 hm List.prefix_rfl (ac := k.actual)
    refine ⟨g.owns, g.cur, g.here, g.newS, g.newM, g.stored, g.frame, g.len, g.ctx, g.units, g.dms, fun j => ?_, g.program,
      g.types⟩
    rw [← h.items j]
    show (((k.items ++ [none])[j]?).join : Option Nat) = _
    rw [List.getElem?_append]
    split
    · rfl
    · rename_i c
      rw [List.getElem?_eq_none (l := k.items) (by omega)]
      cases j - k.items.length <;> rfl
  · rw [if_neg c]
    trivial

theorem newUnit (h : Heap P S M k0 k) (i : Ident) : Heap P S M k0 (k.newUnit i) := by
  refine ⟨h.owns, h.cur, h.here, h.newS, h.newM, h.stored, h.frame, h.len, h.ctx, h.units.trans (List.prefix_append _ _),
    fun j => ?_, h.items, h.program, h.types⟩
  rw [← h.dms j]
  unfold DS.newUnit World.unitDm
  simp only
  rw [List.getElem?_append]
  by_cases c : j < k.w.units.length
  · rw [if_pos c]
  · rw [if_neg c, List.getElem?_eq_none (l := k.w.units) (by omega)]
    cases j - k.w.units.length <;> rfl

theorem complete (u : Uni) (h : Heap P S M k0 k) (hP : ∀ key n, (∀ i, n ≠ .uses i) → (∀ i, n ≠ .unit i) → n ≠ .program → P key n)
    (old : Decl Node) (i : Ident) (ty : PType (Decl Node)) : SetAfter (Heap P S M k0) (k.complete u old i ty) := by
  obtain ⟨d, t, h1, h2, h3⟩ := h.target
  have key : ∀ (x : Decl Node) (ts : List (PType (Decl Node))) (ac : List (Nat × Nat)), k.types <+: ts →
      (∃ j, x.node = .type j) → SetAfter (Heap P S M k0) (({ k with types := ts, actual := ac } : DS).setR (k.w.overwrite u k.cur i.name x)) := by
    rintro x ts ac hts ⟨j, hj⟩
    have how := overwrite_eq u k.w.maps d i.name x
    rw [h2] at how
    unfold DS.setR World.overwrite
    rw [h1]
    simp only
    rw [how]
    refine h.upd h3 ?_ hts
    intro p hp
    rcases List.mem_cons.1 hp with rfl | hp
    · exact hP _ _ (by rw [hj]; exact fun _ h => by cases h) (by rw [hj]; exact fun _ h => by cases h)
        (by rw [hj]; exact fun h => by cases h)
    · exact h.stored t p hp
  unfold DS.complete
  split
  · split
    · exact key _ _ _ (List.prefix_append _ _) ⟨_, rfl⟩
    · trivial
  · trivial

theorem stack_eq (h : Heap P S M k0 k) : ∃ d, k.w.dm k.cur = some d ∧ k.stack =
    { k with w := (k.w.newMap (.chained d [])).1.setDm k.cur k.w.maps.length } := by
  obtain ⟨d, t, h1, h2, h3⟩ := h.target
  refine ⟨d, h1, ?_⟩
  unfold DS.stack World.stack
  rw [h1]
  rfl

theorem withDm_dm (d : Nat) (o : CtxObj) : (CtxObj.withDm d o).dm = d := by cases o <;> rfl

/-- the state at the beginning of a scope -/
theorem stack (h : Heap P S M k0 k) : Heap P S M k.stack k.stack := by
  obtain ⟨d, h1, e⟩ := h.stack_eq
  obtain ⟨o, ho, hod⟩ := World.dm_eq.1 h1
  rw [e]
  refine ⟨?_, h.cur, ?_, fun t ht => h.newS t (by simp [World.setDm, World.newMap] at ht; omega), ?_, ?_, .refl _ _, Nat.le_refl _,
    fun _ _ => rfl, List.prefix_rfl, fun _ => rfl, fun _ => rfl, rfl, List.prefix_rfl⟩
  · intro i o' ho' hM
    simp only [World.setDm, World.newMap, Ctxs.obj_modify] at ho' ⊢
    by_cases c : i = k.cur
    · rw [if_pos c, Option.map_eq_some_iff] at ho'
      obtain ⟨x, -, rfl⟩ := ho'
      rw [withDm_dm]
      exact ⟨k.w.maps.length, by simp [Spec.target], h.newS _ (Nat.le_refl _)⟩
    · rw [if_neg c] at ho'
      obtain ⟨t, h1, h2⟩ := h.owns i o' ho' hM
      exact ⟨t, by rw [target_cons_lt _ _ (target_lt' h1)]; exact h1, h2⟩
  · simp only [World.setDm, World.newMap, Ctxs.length_modify]; exact h.here
  · simp only [World.setDm, World.newMap, Ctxs.length_modify]; exact h.newM
  · exact h.stored.cons (by intro p hp; cases hp)

/-- the state after a scope -/
theorem restore (h : Heap P S M k0 k) {k' : DS} (h' : Heap P S M k.stack k') : Heap P S M k0 (k.restore k') := by
  obtain ⟨d, h1, e⟩ := h.stack_eq
  obtain ⟨o, ho, hod⟩ := World.dm_eq.1 h1
  rw [e] at h'
  have hlen : ((k.w.newMap (.chained d [])).1.setDm k.cur k.w.maps.length).ctxs.length = k.w.ctxs.length := by
    simp [World.setDm, World.newMap, Ctxs.length_modify]
  have fr : Frame S k.w.maps k'.w.maps := (Frame.cons S (.chained d []) k.w.maps).trans h'.frame
  have hle : k.w.ctxs.length ≤ k'.w.ctxs.length := by rw [← hlen]; exact h'.len
  have hcur : k'.w.ctxs.obj k.cur = (k.w.ctxs.obj k.cur).map (CtxObj.withDm k.w.maps.length) := by
    rw [h'.ctx k.cur (by rw [hlen]; exact h.here)]
    show Ctxs.obj (Ctxs.modify _ _ _) _ = _
    rw [Ctxs.obj_modify, if_pos rfl]; rfl
  unfold DS.restore
  rw [h1]
  refine ⟨?_, h'.cur, ?_, h'.newS, ?_, h'.stored, h.frame.trans fr, ?_, ?_, h.units.trans h'.units,
    fun j => (h'.dms j).trans (h.dms j), fun j => (h'.items j).trans (h.items j), h'.program.trans h.program, h.types.trans h'.types⟩
  · intro i o' ho' hM
    simp only [World.restore, World.setDm, Ctxs.obj_modify] at ho' ⊢
    by_cases c : i = k.cur
    · rw [if_pos c, Option.map_eq_some_iff] at ho'
      obtain ⟨x, -, rfl⟩ := ho'
      rw [withDm_dm]
      obtain ⟨t, h2, h3⟩ := h.owns _ o ho h.cur
      rw [hod] at h2
      exact ⟨t, by rw [fr.tgt d (target_lt' h2)]; exact h2, h3⟩
    · rw [if_neg c] at ho'
      exact h'.owns i o' ho' hM
  · simp only [World.restore, World.setDm, Ctxs.length_modify]; exact h'.here
  · simp only [World.restore, World.setDm, Ctxs.length_modify]; exact h'.newM
  · simp only [World.restore, World.setDm, Ctxs.length_modify]; exact Nat.le_trans h.len hle
  · intro i hi
    have hi' := Nat.lt_of_lt_of_le hi h.len
    rw [← h.ctx i hi]
    simp only [World.restore, World.setDm, Ctxs.obj_modify]
    by_cases c : i = k.cur
    · subst c
      rw [if_pos rfl, hcur, ho]
      show some (CtxObj.withDm d (CtxObj.withDm _ o)) = some o
      rw [← hod]; cases o <;> rfl
    · rw [if_neg c, h'.ctx i (by rw [hlen]; exact hi')]
      show Ctxs.obj (Ctxs.modify _ _ _) _ = _
      rw [Ctxs.obj_modify, if_neg c]
      rfl

theorem runRef (u : Uni) (h : Heap P S M k0 k) (r : Nat × Str) : Heap P S M k0 (k.runRef u r) := by
  unfold DS.runRef
  cases k.get u r.2 with
  | none => exact h
  | some d => exact h.same rfl rfl rfl rfl rfl

theorem runSection (u : Uni) (h : Heap P S M k0 k) : Heap P S M k0 (k.runSection u) := by
  unfold DS.runSection
  generalize k.pending = l
  induction l generalizing k with
  | nil => exact h
  | cons r l ih => exact ih (h.runRef u r)

end Heap

/-- the namespace has no declaration map -/
def NilMap (k : DS) : Node → Prop
  | .uses i => ∃ j, (k.items[i]?).join = some j ∧ k.w.unitDm j = none
  | .unit j => k.w.unitDm j = none
  | .program => k.program = none
  | _ => False

theorem inMap_panic {u : Uni} {k : DS} {dm : Option Nat} {name : Str} (h : DS.inMap u k dm name = .panic) : dm = none := by
  cases dm with
  | none => rfl
  | some i =>
    unfold DS.inMap at h
    simp only at h
    cases e : k.w.maps.get u i name <;> rw [e] at h <;> cases h

theorem member_panic {u : Uni} {k : DS} {d : Decl Node} {name : Str} (h : k.member u d name = .panic) : NilMap k d.node := by
  unfold DS.member at h
  cases e : d.node with
  | uses i =>
    rw [e] at h
    simp only at h
    cases e2 : (k.items[i]?).join with
    | none => rw [e2] at h; cases h
    | some j => rw [e2] at h; exact ⟨j, e2, inMap_panic h⟩
  | unit j => rw [e] at h; exact inMap_panic h
  | program => rw [e] at h; exact inMap_panic h
  | _ => rw [e] at h; cases h

variable {u : Uni} {P : Str → Node → Prop} {S M : Nat → Prop} {Good : List Token → Prop} {tl : Tail} {Pp : Prop}

/-- The parser of declarations keeps `Heap`.  It panics only on a `nil` token or where the name of a namespace without
declaration map is followed by a period. -/
theorem heapBase (k0 : DS) (hP : ∀ key n, (∀ i, n ≠ .uses i) → (∀ i, n ≠ .unit i) → n ≠ .program → P key n)
    (hgood : ∀ t ts, Good (t :: ts) → Good ts) (hnil : tl = .nil → Pp)
    (hns : ∀ t1 t2 t3 ts n, Good (t1 :: t2 :: t3 :: ts) → t1.typ = .ident → IsSym r!"." t2 → P (u.toLower t1.raw) n →
      NilMap k0 n → Pp) : DBase u (declEnv u) (Heap P S M k0) Good tl Pp True := by
  refine .of (F := fun J => ∃ k1 : DS, (∀ j, k1.w.unitDm j = k0.w.unitDm j) ∧ (∀ i : Nat, (k1.items[i]?).join = (k0.items[i]?).join) ∧ k1.program = k0.program ∧ J = Heap P S M k1)
    ?_ ⟨k0, fun _ => rfl, fun _ => rfl, rfl, rfl⟩
  rintro J ⟨k1, e1, e2, e3, rfl⟩
  refine ⟨?_, fun c h => ?_, fun _ _ _ _ c h => ?_⟩
  · exact {
      roll := fun c h => h.rollback
      nil := hnil
      hang := fun _ => trivial
      ns := by
        intro c h t1 t2 t3 ts d g c1 c2 hg hm
        have hn := member_panic hm
        have hn' : NilMap k0 d.node := by
          have h1 := fun j => (h.dms j).trans (e1 j)
          have h2 := fun j => (h.items j).trans (e2 j)
          have h3 := h.program.trans e3
          cases e : d.node <;> rw [e] at hn
          all_goals first
            | (have hn : False := hn
               exact hn.elim)
            | (simp only [NilMap] at hn ⊢
               simp only [h1, h2, h3] at hn
               exact hn)
        rcases ctxGet_stored u h.stored hg with hp | ⟨k, n, he⟩
        · exact hns t1 t2 t3 ts d.node g c1 c2 hp hn'
        · rw [he] at hn'; exact hn'.elim
      set := by
        intro c h is kind _
        have := h.set u hP is kind
        rw [show (declEnv u).set c is kind = DS.set u c is kind from rfl]
        cases e : DS.set u c is kind with
        | ok k' => rw [e] at this; exact this
        | err => trivial
        | panic => rw [e] at this; exact this.elim
      newRef := fun c name h => h.same rfl rfl rfl rfl rfl
      ordinal := fun _ _ _ _ => trivial
      findMember := fun _ _ _ _ _ _ => trivial
      findProp := fun _ _ _ _ _ _ => trivial
      good := hgood
      asm := fun _ _ _ _ _ => trivial }
  · refine ⟨Heap P S M c.stack, ⟨c.stack, ?_, ?_, ?_, rfl⟩, h.stack, fun c' h' => h.restore h'⟩
    all_goals
      obtain ⟨d, -, e⟩ := h.stack_eq
      rw [e]
    · exact fun j => (h.dms j).trans (e1 j)
    · exact fun j => (h.items j).trans (e2 j)
    · exact h.program.trans e3
  · refine ⟨Heap P S M k1, _, ⟨k1, e1, e2, e3, rfl⟩, ⟨h.same rfl rfl rfl rfl rfl, trivial, fun c' h' => ?_⟩, .any ?_ ?_⟩
    · exact (h'.runSection u).same rfl rfl rfl rfl rfl
    · intro c h i ty
      have := h.set u hP [i] (.type ty)
      rw [show (declEnv u).set c [i] (.type ty) = DS.set u c [i] (.type ty) from rfl]
      cases e : DS.set u c [i] (.type ty) with
      | ok k' => rw [e] at this; exact this
      | err => trivial
      | panic => rw [e] at this; exact this.elim
    · intro c h d i ty
      have := h.complete u hP d i ty
      rw [show (declEnv u).complete c d i ty = DS.complete u c d i ty from rfl]
      cases e : DS.complete u c d i ty with
      | ok k' => rw [e] at this; exact this
      | err => trivial
      | panic => rw [e] at this; exact this.elim

end TP
