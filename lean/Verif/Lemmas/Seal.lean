import Verif.Lemmas.Fine

/-!
# Tables into which nothing is declared any more
-/

namespace TP
open Spec Maps

/-- no context declares into the tables in `X` -/
structure Seal (X : Nat → Prop) (k : DS) : Prop where
  owns : Owns (fun t => ¬ X t) (fun _ => True) k.w
  old : ∀ t, X t → t < k.w.maps.length

/-- a step that leaves the tables in `X` and the maps of the units -/
structure Onward (X : Nat → Prop) (k k' : DS) : Prop where
  fin : Seal X k'
  len : k.w.ctxs.length ≤ k'.w.ctxs.length
  obj : ∀ t, X t → k'.w.maps.obj t = k.w.maps.obj t
  units : k.w.units.length ≤ k'.w.units.length
  dms : ∀ j, k'.w.unitDm j = k.w.unitDm j

variable {X : Nat → Prop} {k k' k'' : DS}

theorem Onward.refl (h : Seal X k) : Onward X k k := ⟨h, Nat.le_refl _, fun _ _ => rfl, Nat.le_refl _, fun _ => rfl⟩

theorem Onward.trans (h : Onward X k k') (h' : Onward X k' k'') : Onward X k k'' :=
  ⟨h'.fin, Nat.le_trans h.len h'.len, fun t ht => (h'.obj t ht).trans (h.obj t ht), Nat.le_trans h.units h'.units,
    fun j => (h'.dms j).trans (h.dms j)⟩

theorem Onward.switch (h : Onward X k k') (cur cur' : Nat) (p p' : List (Nat × Str)) :
    Onward X { k with cur := cur, pending := p } { k' with cur := cur', pending := p' } :=
  ⟨⟨h.fin.owns, h.fin.old⟩, h.len, h.obj, h.units, h.dms⟩

namespace Seal

theorem switch (h : Seal X k) (cur : Nat) (p : List (Nat × Str)) : Seal X { k with cur := cur, pending := p } :=
  ⟨h.owns, h.old⟩

theorem items (h : Seal X k) (is : List (Option Nat)) : Onward X k { k with items := is } :=
  ⟨⟨h.owns, h.old⟩, Nat.le_refl _, fun _ _ => rfl, Nat.le_refl _, fun _ => rfl⟩

theorem newMap (h : Seal X k) (o : MapObj Node) : Onward X k { k with w := (k.w.newMap o).1 } where
  fin := ⟨fun i o' ho' _ => by
      obtain ⟨t, h1, h2⟩ := h.owns i o' ho' trivial
      exact ⟨t, by show Spec.target (_ :: _) _ = _; rw [target_cons_lt _ _ (target_lt' h1)]; exact h1, h2⟩,
    fun t ht => Nat.lt_succ_of_lt (h.old t ht)⟩
  len := Nat.le_refl _
  obj t ht := obj_cons_lt' _ _ (h.old t ht)
  units := Nat.le_refl _
  dms _ := rfl

theorem setDm (h : Seal X k) {cu d t : Nat} (hd : Spec.target k.w.maps d = some t) (ht : ¬ X t) :
    Onward X k { k with w := k.w.setDm cu d } where
  fin := ⟨fun i o' ho' _ => by
      simp only [World.setDm, Ctxs.obj_modify] at ho' ⊢
      split at ho'
      · obtain ⟨x, -, rfl⟩ := Option.map_eq_some_iff.1 ho'
        rw [Heap.withDm_dm]; exact ⟨t, hd, ht⟩
      · exact h.owns i o' ho' trivial, h.old⟩
  len := by simp [World.setDm, Ctxs.length_modify]
  obj _ _ := rfl
  units := Nat.le_refl _
  dms _ := rfl

theorem fresh (h : Seal X k) : ¬ X k.w.maps.length := fun hx => Nat.lt_irrefl _ (h.old _ hx)
theorem fresh' (h : Seal X k) (i : Nat) : ¬ X (k.w.maps.length + i) := fun hx => by have := h.old _ hx; omega

theorem newUnitContext (h : Seal X k) (cp : Nat) (path : Str) : Onward X k (k.newUnitContext cp path).1 where
  fin := ⟨fun i o ho _ => by
      simp only [DS.newUnitContext, World.newMap, Ctxs.obj] at ho ⊢
      split at ho
      · cases ho
        exact ⟨k.w.maps.length, by simp [Spec.target, CtxObj.dm], h.fresh⟩
      · obtain ⟨t, h1, h2⟩ := h.owns i o ho trivial
        exact ⟨t, by rw [target_cons_lt _ _ (target_lt' h1)]; exact h1, h2⟩,
    fun t ht => Nat.lt_succ_of_lt (h.old t ht)⟩
  len := by simp [DS.newUnitContext, World.newMap]
  obj t ht := obj_cons_lt' _ _ (h.old t ht)
  units := Nat.le_refl _
  dms _ := rfl

theorem addUnit (h : Seal X k) (cp j : Nat) : Onward X k (k.addUnit cp j) where
  fin := ⟨fun i o ho _ => by
      simp only [DS.addUnit, Ctxs.obj_modify] at ho ⊢
      split at ho
      · obtain ⟨x, hx, rfl⟩ := Option.map_eq_some_iff.1 ho
        rw [Fine.addUnit_dm]; exact h.owns i x hx trivial
      · exact h.owns i o ho trivial, h.old⟩
  len := by simp [DS.addUnit, Ctxs.length_modify]
  obj _ _ := rfl
  units := Nat.le_refl _
  dms _ := rfl

variable (u : Uni)

theorem assignUnits {cu : Nat} : ∀ {es : List UsesEntry} {k : DS}, ∃ is, k.assignUnits u cu es = { k with items := is }
  | [], k => ⟨k.items, rfl⟩
  | e :: es, k => by
    unfold DS.assignUnits
    cases hb : k.w.byName u (k.parentUnits cu) e.ident.name with
    | none => exact assignUnits
    | some j =>
      obtain ⟨is, h⟩ := assignUnits (es := es) (cu := cu) (k := { k with items := k.items.set e.no (some j) })
      exact ⟨is, h⟩

theorem importUnits (h : Seal X k) {cu : Nat} {es : List UsesEntry} (e : k.importUnits u cu es = some k') :
    Onward X k k' ∧ k'.cur = k.cur ∧ k'.w.units = k.w.units := by
  obtain ⟨is, e1⟩ := assignUnits u (cu := cu) (es := es) (k := k)
  unfold DS.importUnits at e
  simp only [e1] at e
  have o1 := h.items is
  split at e
  · rename_i d ms hd hms
    cases e
    refine ⟨?_, rfl, rfl⟩
    have o2 := o1.fin.newMap (.impl [])
    have o3 := o2.fin.newMap (.composite (k.w.maps.length :: ms ++ [d]))
    have o4 := o3.fin.setDm (cu := cu) (d := k.w.maps.length + 1) (t := k.w.maps.length) (by simp [World.newMap, Spec.target]) h.fresh
    exact ((o1.trans o2).trans o3).trans o4
  · cases e

theorem setAny (h : Seal X k) {cu : Nat} {ds : List (Decl Node)} {w : World Node} (e : k.w.set u cu ds = (w, .ok)) :
    Onward X k { k with w := w } ∧ w.units = k.w.units := by
  unfold World.set at e
  cases hd : k.w.dm cu with
  | none => rw [hd] at e; cases e
  | some d =>
    rw [hd] at e
    obtain ⟨o, ho, rfl⟩ := World.dm_eq.1 hd
    obtain ⟨t, h1, h2⟩ := h.owns cu o ho trivial
    have hset := set_eq u k.w.maps o.dm ds
    rw [h1] at hset
    simp only at e hset
    rw [hset] at e
    injection e with e _
    subst e
    refine ⟨⟨⟨fun i o ho _ => ?_, fun t ht => by simp only [upd_length]; exact h.old t ht⟩, Nat.le_refl _, fun t' ht' => ?_,
      Nat.le_refl _, fun _ => rfl⟩, rfl⟩
    · obtain ⟨t', h1, h2⟩ := h.owns i o ho trivial
      exact ⟨t', by simp only [target_upd]; exact h1, h2⟩
    · simp only
      rw [obj_upd, if_neg]
      rintro rfl
      exact h2 ht'

theorem setUnit (h : Seal X k) {cu : Nat} {hd : UnitHead} (e : k.setUnit u cu hd = .ok k') :
    Onward X k k' ∧ k'.cur = k.cur ∧ k'.w.units = k.w.units := by
  unfold DS.setUnit DS.setR at e
  cases hs : k.w.set u cu [⟨hd.ident.name, .unit hd.no⟩] with
  | mk w out =>
    rw [hs] at e
    cases out <;> simp only at e
    · cases e
      obtain ⟨o, e⟩ := h.setAny u hs
      exact ⟨o, rfl, e⟩
    · cases e
    · cases e

/-- the map of a unit becomes final -/
theorem finishIntf (h : Seal X k) (no : Nat) (ds : List (IntfDecl (Decl Node))) (hno : no < k.w.units.length) :
    let k' := k.finishIntf u no ds
    let X' := fun t => X t ∨ t = k.w.maps.length
    Seal X' k' ∧ (∀ t, X t → k'.w.maps.obj t = k.w.maps.obj t) ∧ k'.w.ctxs = k.w.ctxs ∧ k'.w.units.length = k.w.units.length ∧
      k'.cur = k.cur ∧ (∀ j, j ≠ no → k'.w.unitDm j = k.w.unitDm j) ∧ k'.w.unitDm no = some k.w.maps.length ∧
      k'.w.maps.obj k.w.maps.length = some (.impl (World.intfTable u (ds.flatMap DS.declNodes) [])) := by
  intro k' X'
  have o1 := h.newMap (.impl (World.intfTable u (ds.flatMap DS.declNodes) []))
  have hm : k'.w.maps = .impl (World.intfTable u (ds.flatMap DS.declNodes) []) :: k.w.maps := (setUnitDm_eqs _ _ _).1
  have hc : k'.w.ctxs = k.w.ctxs := (setUnitDm_eqs _ _ _).2
  have hu : k.w.units[no]? = some k.w.units[no] := List.getElem?_eq_getElem hno
  refine ⟨⟨fun i o ho hM => ?_, fun t ht => ?_⟩, fun t ht => ?_, hc, ?_, rfl, fun j hj => ?_, ?_, ?_⟩
  · rw [hc] at ho
    rw [hm]
    obtain ⟨t, h1, h2⟩ := h.owns i o ho hM
    refine ⟨t, by rw [target_cons_lt _ _ (target_lt' h1)]; exact h1, ?_⟩
    rintro (hx | rfl)
    · exact h2 hx
    · exact Nat.lt_irrefl _ (target_lt h1)
  · rw [hm]
    rcases ht with ht | rfl
    · exact Nat.lt_succ_of_lt (h.old t ht)
    · exact Nat.lt_succ_self _
  · rw [hm]; exact obj_cons_lt' _ _ (h.old t ht)
  · show (World.setUnitDm _ _ _).units.length = _
    unfold World.setUnitDm
    split <;> simp [World.newMap]
  · show ((k.w.newMap _).1.setUnitDm no (some k.w.maps.length)).unitDm j = _
    rw [unitDm_set, if_neg (fun h => hj h.1.symm)]; rfl
  · show ((k.w.newMap _).1.setUnitDm no (some k.w.maps.length)).unitDm no = _
    rw [unitDm_set, if_pos ⟨rfl, by show (k.w.units[no]?).isSome = true; rw [hu]; rfl⟩]
  · rw [hm]; simp [Maps.obj]

theorem stackAt (h : Seal X k) (cu : Nat) : Onward X k (k.stackAt cu) ∧ (k.stackAt cu).cur = k.cur := by
  unfold DS.stackAt World.stack
  cases hd : k.w.dm cu with
  | none => exact ⟨.refl h, rfl⟩
  | some d =>
    refine ⟨?_, rfl⟩
    have o1 := h.newMap (.chained d [])
    exact o1.trans (o1.fin.setDm (t := k.w.maps.length) (by simp [World.newMap, Spec.target]) h.fresh)

theorem openImpl (h : Seal X k) {cu unit um : Nat} {es : List UsesEntry} (e : k.openImpl u cu unit es = some (k', um)) :
    Seal X k' ∧ k.w.ctxs.length ≤ k'.w.ctxs.length ∧ (∀ t, X t → k'.w.maps.obj t = k.w.maps.obj t) ∧
      k'.w.units.length = k.w.units.length ∧ k'.cur = k.cur ∧ k.w.unitDm unit = some um ∧
      (∀ j, j ≠ unit → k'.w.unitDm j = k.w.unitDm j) := by
  obtain ⟨is, e1⟩ := assignUnits u (cu := cu) (es := es) (k := k)
  unfold DS.openImpl at e
  simp only [e1] at e
  have o1 := h.items is
  split at e
  · rename_i d um' ms hd hum hms
    cases e
    have o2 := o1.fin.newMap (.impl [])
    have o3 := o2.fin.newMap (.composite [k.w.maps.length, um])
    let k3 : DS := { k with items := is, w := ((k.w.newMap (.impl [])).1.newMap (.composite [k.w.maps.length, um])).1.setUnitDm unit (some (k.w.maps.length + 1)) }
    have em : k3.w.maps = .composite [k.w.maps.length, um] :: .impl [] :: k.w.maps := (setUnitDm_eqs _ _ _).1
    have ec : k3.w.ctxs = k.w.ctxs := (setUnitDm_eqs _ _ _).2
    have s3 : Seal X k3 := by
      refine ⟨?_, ?_⟩
      · unfold Owns
        rw [em, ec]; exact o3.fin.owns
      · rw [em]; exact o3.fin.old
    have o4 := s3.newMap (.composite (k.w.maps.length :: d :: ms))
    have o5 := o4.fin.setDm (cu := cu) (d := k.w.maps.length + 2) (t := k.w.maps.length)
      (by simp [World.newMap, Spec.target, em]) h.fresh
    have hlen : ((k.w.newMap (.impl [])).1.newMap (.composite [k.w.maps.length, um])).1.setUnitDm unit (some (k.w.maps.length + 1)) = k3.w := rfl
    have hk : (({ k with items := is } : DS).w.newMap (.impl [])).2 = k.w.maps.length := rfl
    have hn : (k3.w.newMap (.composite (k.w.maps.length :: d :: ms))).2 = k.w.maps.length + 2 := by
      show k3.w.maps.length = _
      rw [em]; rfl
    have e5 : ({ k with items := is, w := (k3.w.newMap (.composite (k.w.maps.length :: d :: ms))).1.setDm cu (k3.w.newMap (.composite (k.w.maps.length :: d :: ms))).2 } : DS) =
        { k3 with w := (k3.w.newMap (.composite (k.w.maps.length :: d :: ms))).1.setDm cu (k.w.maps.length + 2) } := by
      rw [hn]
    have o45 := o4.trans o5
    have s5 := o5.fin
    rw [← e5] at s5
    refine ⟨s5, ?_, fun t ht => ?_, ?_, rfl, hum, fun j hj => ?_⟩
    · rw [← ec]
      have := o45.len
      rw [← e5] at this
      exact this
    · have := o45.obj t ht
      rw [← e5] at this
      exact this.trans (by rw [em]; exact (o2.trans o3).obj t ht)
    · show (World.setUnitDm _ _ _).units.length = _
      unfold World.setUnitDm
      split <;> simp [World.newMap]
    · have := o45.dms j
      rw [← e5] at this
      refine this.trans ?_
      show (World.setUnitDm _ _ _).unitDm j = _
      rw [unitDm_set, if_neg (fun h => hj h.1.symm)]; rfl
  · cases e

theorem closeImpl (h : Seal X k) (unit um : Nat) : Seal X (k.closeImpl unit um) ∧ (k.closeImpl unit um).w.maps = k.w.maps ∧
    (k.closeImpl unit um).w.ctxs = k.w.ctxs ∧ (k.closeImpl unit um).w.units.length = k.w.units.length ∧
    (∀ j, j ≠ unit → (k.closeImpl unit um).w.unitDm j = k.w.unitDm j) ∧
    (unit < k.w.units.length → (k.closeImpl unit um).w.unitDm unit = some um) := by
  have em : (k.closeImpl unit um).w.maps = k.w.maps := (setUnitDm_eqs _ _ _).1
  have ec : (k.closeImpl unit um).w.ctxs = k.w.ctxs := (setUnitDm_eqs _ _ _).2
  refine ⟨⟨?_, ?_⟩, em, ec, ?_, fun j hj => ?_, fun hu => ?_⟩
  · unfold Owns
    rw [em, ec]; exact h.owns
  · rw [em]; exact h.old
  · show (World.setUnitDm _ _ _).units.length = _
    unfold World.setUnitDm
    split <;> simp
  · show (World.setUnitDm _ _ _).unitDm j = _
    rw [unitDm_set, if_neg (fun h => hj h.1.symm)]
  · show (World.setUnitDm _ _ _).unitDm unit = _
    rw [unitDm_set, if_pos ⟨rfl, by rw [List.getElem?_eq_getElem hu]; rfl⟩]

theorem usesMap {es : List UsesEntry} : ∀ {hs : List UnitHead} {k k' : DS} {m m' : Tbl Node},
    k.usesMap u es hs m = some (k', m') → ∃ is, k' = { k with items := is }
  | [], k, k', m, m', e => by cases e; exact ⟨k.items, rfl⟩
  | hd :: hs, k, k', m, m', e => by
    unfold DS.usesMap at e
    cases e1 : DS.findUses u es hd.ident.name with
    | none => rw [e1] at e; cases e
    | some x =>
      rw [e1] at e
      obtain ⟨is, h⟩ := usesMap e
      exact ⟨is, h⟩

theorem mapM_ne {w : World Node} : ∀ {l : List Nat} {ms : List Nat}, l.mapM w.unitDm = some ms → ∀ j ∈ l, w.unitDm j ≠ none
  | [], _, _, j, hj => by cases hj
  | a :: l, ms, e, j, hj => by
    rw [List.mapM_cons] at e
    cases ha : w.unitDm a with
    | none => rw [ha] at e; cases e
    | some m =>
      rw [ha] at e
      cases hl : l.mapM w.unitDm with
      | none => rw [hl] at e; cases e
      | some ms' =>
        rcases List.mem_cons.1 hj with rfl | hj
        · rw [ha]; exact nofun
        · exact mapM_ne hl j hj

theorem enterProgram (h : Seal X k) {cp : Nat} {i : Ident} {hs : List UnitHead} {m : Tbl Node}
    (e : k.enterProgram u cp i hs m = some k') : Onward X k k' ∧ k'.cur = k.cur ∧ ∀ x ∈ hs, k.w.unitDm x.no ≠ none := by
  unfold DS.enterProgram at e
  cases hd : k.w.dm cp with
  | none => rw [hd] at e; cases e
  | some d =>
    cases hms : k.w.usedMaps (hs.map fun h => some h.no) with
    | none => rw [hd, hms] at e; cases e
    | some ms =>
      rw [hd, hms] at e
      cases e
      refine ⟨?_, rfl, fun x hx => ?_⟩
      · have o1 := h.newMap (.impl m)
        have o2 := o1.fin.newMap (.impl (Tbl.set u [] [⟨i.name, .program⟩]).1)
        have o3 := o2.fin.newMap (.composite ((k.w.maps.length + 1) :: k.w.maps.length :: ms ++ [d]))
        have o4 := o3.fin.setDm (cu := cp) (d := k.w.maps.length + 2) (t := k.w.maps.length + 1)
          (by simp [World.newMap, Spec.target]) (h.fresh' 1)
        have o := ((o1.trans o2).trans o3).trans o4
        exact ⟨⟨o.fin.owns, o.fin.old⟩, o.len, o.obj, o.units, o.dms⟩
      · unfold World.usedMaps at hms
        obtain ⟨ms', hms', -⟩ := Option.map_eq_some_iff.1 hms
        refine mapM_ne hms' _ ?_
        rw [List.mem_filterMap]
        exact ⟨some x.no, List.mem_map.2 ⟨x, hx, rfl⟩, rfl⟩

/-! ## Parsing -/

/-- the state of a parser that does not declare into `X` -/
abbrev _root_.TP.Sealed (X : Nat → Prop) (k0 k : DS) : Prop := Heap (fun _ _ => True) (fun t => ¬ X t) (fun _ => True) k0 k

theorem start (h : Seal X k) (hc : k.cur < k.w.ctxs.length) : Sealed X k k :=
  ⟨h.owns, trivial, hc, fun t ht hx => by have := h.old t hx; omega, fun _ _ => trivial, fun _ _ _ => trivial, .refl _ _,
    Nat.le_refl _, fun _ _ => rfl, List.prefix_rfl, fun _ => rfl, fun _ => rfl, rfl, List.prefix_rfl⟩

theorem _root_.TP.Sealed.onward {k0 : DS} (h0 : Seal X k0) (h : Sealed X k0 k) : Onward X k0 k where
  fin := ⟨h.owns, fun t ht => Nat.lt_of_lt_of_le (h0.old t ht) h.frame.len⟩
  len := h.len
  obj t ht := h.frame.obj t (h0.old t ht) (fun hn => hn ht)
  units := h.units.length_le
  dms := h.dms

theorem base (X : Nat → Prop) (k0 : DS) (tl : Tail) :
    DBase u (declEnv u) (Sealed X k0) (fun _ => True) tl True True :=
  heapBase k0 (fun _ _ _ _ _ => trivial) (fun _ _ _ => trivial) (fun _ => trivial) (fun _ _ _ _ _ _ _ _ _ _ => trivial)

end Seal

end TP
