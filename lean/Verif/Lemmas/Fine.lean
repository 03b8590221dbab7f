import Verif.Lemmas.Heap
import Verif.Lemmas.ProgramSound

/-!
# The state between the files of a program
-/

namespace TP
open Spec Maps

theorem setUnitDm_eqs (w : World Node) (i : Nat) (d : Option Nat) :
    (w.setUnitDm i d).maps = w.maps ∧ (w.setUnitDm i d).ctxs = w.ctxs := by
  unfold World.setUnitDm; split <;> exact ⟨rfl, rfl⟩

/-- the namespaces that may be declared: those that have a map, and the unit `c` (its name and number) being entered -/
def Known (k : DS) (c : Option (Str × Nat)) (key : Str) : Node → Prop
  | .unit j => k.w.unitDm j ≠ none ∨ c = some (key, j)
  | .program => k.program ≠ none
  | _ => True

/-- Every context has an innermost scope, namespaces are `Known`, and items of uses clauses refer to units with a map. -/
structure Fine (c : Option (Str × Nat)) (k : DS) : Prop where
  owns : Owns (fun _ => True) (fun _ => True) k.w
  stored : Kept (Known k c) k.w.maps
  items : ∀ i j : Nat, (k.items[i]?).join = some j → k.w.unitDm j ≠ none

/-- what does not get lost -/
structure Later (k k' : DS) : Prop where
  len : k.w.ctxs.length ≤ k'.w.ctxs.length
  shape : ∀ i < k.w.ctxs.length, (k'.w.ctxs.obj i).map (CtxObj.withDm 0) = (k.w.ctxs.obj i).map (CtxObj.withDm 0)
  names : ∀ (j : Nat) (o : UnitObj), k.w.units[j]? = some o → ∃ o' : UnitObj, k'.w.units[j]? = some o' ∧ o'.name = o.name
  dms : ∀ j, k.w.unitDm j ≠ none → k'.w.unitDm j ≠ none

theorem Later.refl (k : DS) : Later k k := ⟨Nat.le_refl _, fun _ _ => rfl, fun _ o h => ⟨o, h, rfl⟩, fun _ h => h⟩

theorem Later.trans {k k' k'' : DS} (h : Later k k') (h' : Later k' k'') : Later k k'' where
  len := Nat.le_trans h.len h'.len
  shape i hi := (h'.shape i (Nat.lt_of_lt_of_le hi h.len)).trans (h.shape i hi)
  names j o e := by
    obtain ⟨o1, e1, n1⟩ := h.names j o e
    obtain ⟨o2, e2, n2⟩ := h'.names j o1 e1
    exact ⟨o2, e2, n2.trans n1⟩
  dms j e := h'.dms j (h.dms j e)

/-- the context `cu` belongs to a unit of the program context `cp` -/
def IsUnit (k : DS) (cu cp : Nat) : Prop := ∃ p d, k.w.ctxs.obj cu = some (.unit cp p d)
/-- the context `cp` belongs to a program with the units `us` -/
def IsProg (k : DS) (cp : Nat) (us : List Nat) : Prop := ∃ p d, k.w.ctxs.obj cp = some (.program p us d)

theorem IsUnit.later {k k' : DS} {cu cp : Nat} (h : IsUnit k cu cp) (l : Later k k') : IsUnit k' cu cp := by
  obtain ⟨p, d, e⟩ := h
  have := l.shape cu (Ctxs.obj_lt e)
  rw [e] at this
  obtain ⟨o, ho, ho'⟩ := Option.map_eq_some_iff.1 this
  cases o with
  | unit a b d' => cases ho'; exact ⟨_, _, ho⟩
  | program a b d' => cases ho'
  | stackable a b d' => cases ho'

theorem IsProg.later {k k' : DS} {us : List Nat} {cp : Nat} (h : IsProg k cp us) (l : Later k k') : IsProg k' cp us := by
  obtain ⟨p, d, e⟩ := h
  have := l.shape cp (Ctxs.obj_lt e)
  rw [e] at this
  obtain ⟨o, ho, ho'⟩ := Option.map_eq_some_iff.1 this
  cases o with
  | program a b d' => cases ho'; exact ⟨_, _, ho⟩
  | unit a b d' => cases ho'
  | stackable a b d' => cases ho'

theorem parentUnits_eq {k : DS} {cu cp : Nat} {us : List Nat} (h : IsUnit k cu cp) (h' : IsProg k cp us) :
    k.parentUnits cu = us := by
  obtain ⟨p, d, e⟩ := h
  obtain ⟨p', d', e'⟩ := h'
  unfold DS.parentUnits
  rw [e]; simp only; rw [e']

namespace Fine
variable {c : Option (Str × Nat)} {k : DS}

/-- the invariant of a parser that works in such a state -/
theorem heap (h : Fine c k) (hc : k.cur < k.w.ctxs.length) : Heap (Known k c) (fun _ => True) (fun _ => True) k k :=
  ⟨h.owns, trivial, hc, fun _ _ => trivial, fun _ _ => trivial, h.stored, .refl _ _, Nat.le_refl _, fun _ _ => rfl,
    List.prefix_rfl, fun _ => rfl, fun _ => rfl, rfl, List.prefix_rfl⟩

theorem _root_.TP.Known.of {k k' : DS} (h : ∀ j, k.w.unitDm j ≠ none → k'.w.unitDm j ≠ none)
    (hp : k.program ≠ none → k'.program ≠ none) (key : Str) (n : Node) (hk : Known k c key n) : Known k' c key n := by
  cases n with
  | unit j => exact hk.imp_left (h j)
  | program => exact hp hk
  | _ => trivial

theorem _root_.TP.Heap.fine {k0 : DS} (h0 : Fine c k0) (h : Heap (Known k0 c) (fun _ => True) (fun _ => True) k0 k) : Fine c k where
  owns := h.owns
  stored := h.stored.mono (Known.of (fun j hj => by rw [h.dms]; exact hj) (fun hj => by rw [h.program]; exact hj))
  items i j e := by
    rw [h.items] at e
    rw [h.dms]; exact h0.items i j e

theorem _root_.TP.Heap.later {P : Str → Node → Prop} {S M : Nat → Prop} {k0 : DS} (h : Heap P S M k0 k) : Later k0 k where
  len := h.len
  shape i hi := by rw [h.ctx i hi]
  names j o e := by
    obtain ⟨r, hr⟩ := h.units
    refine ⟨o, ?_, rfl⟩
    rw [← hr, List.getElem?_append_left]
    · exact e
    · by_contra c
      rw [List.getElem?_eq_none (by omega)] at e; cases e
  dms j hj := by rw [h.dms]; exact hj

/-- only the parser in charge changes -/
theorem switch (h : Fine c k) (cur : Nat) (pending : List (Nat × Str)) : Fine c { k with cur := cur, pending := pending } :=
  ⟨h.owns, h.stored.mono (Known.of (fun _ h => h) (fun h => h)), h.items⟩

theorem _root_.TP.Later.switch {k k' : DS} (h : Later k k') (cur cur' : Nat) (pending pending' : List (Nat × Str)) :
    Later { k with cur := cur, pending := pending } { k' with cur := cur', pending := pending' } :=
  ⟨h.len, h.shape, h.names, h.dms⟩

theorem newMap (h : Fine c k) {o : MapObj Node} (ho : ∀ p ∈ objTbl o, Known k c p.1 p.2.node) :
    Fine c { k with w := (k.w.newMap o).1 } where
  owns i o' ho' _ := by
    obtain ⟨t, h1, -⟩ := h.owns i o' ho' trivial
    exact ⟨t, by show Spec.target (_ :: _) _ = _; rw [target_cons_lt _ _ (target_lt' h1)]; exact h1, trivial⟩
  stored := (h.stored.cons ho).mono (Known.of (fun _ h => h) (fun h => h))
  items := h.items

theorem newMap_later (k : DS) (o : MapObj Node) : Later k { k with w := (k.w.newMap o).1 } :=
  ⟨Nat.le_refl _, fun _ _ => rfl, fun _ o h => ⟨o, h, rfl⟩, fun _ h => h⟩

theorem setDm (h : Fine c k) {cu d t : Nat} (hd : Spec.target k.w.maps d = some t) : Fine c { k with w := k.w.setDm cu d } where
  owns i o' ho' _ := by
    simp only [World.setDm, Ctxs.obj_modify] at ho' ⊢
    split at ho'
    · obtain ⟨x, -, rfl⟩ := Option.map_eq_some_iff.1 ho'
      rw [Heap.withDm_dm]; exact ⟨t, hd, trivial⟩
    · exact h.owns i o' ho' trivial
  stored := h.stored.mono (Known.of (fun _ h => h) (fun h => h))
  items := h.items

theorem setDm_later (k : DS) (cu d : Nat) : Later k { k with w := k.w.setDm cu d } where
  len := by simp [World.setDm, Ctxs.length_modify]
  shape i _ := by
    simp only [World.setDm, Ctxs.obj_modify]
    split
    · cases k.w.ctxs.obj i with
      | none => rfl
      | some o => cases o <;> rfl
    · rfl
  names _ o h := ⟨o, h, rfl⟩
  dms _ h := h

theorem setItem (h : Fine c k) {i j : Nat} (hj : k.w.unitDm j ≠ none) : Fine c { k with items := k.items.set i (some j) } where
  owns := h.owns
  stored := h.stored.mono (Known.of (fun _ h => h) (fun h => h))
  items i' j' e := by
    simp only [List.getElem?_set] at e
    split at e
    · split at e
      · cases e; exact hj
      · cases e
    · exact h.items i' j' e

theorem setItem_later (k : DS) (is : List (Option Nat)) : Later k { k with items := is } :=
  ⟨Nat.le_refl _, fun _ _ => rfl, fun _ o h => ⟨o, h, rfl⟩, fun _ h => h⟩

theorem _root_.TP.unitDm_set (w : World Node) (i d j : Nat) : (w.setUnitDm i (some d)).unitDm j =
    if i = j ∧ (w.units[i]?).isSome then some d else w.unitDm j := by
  unfold World.setUnitDm
  cases e : w.units[i]? with
  | none => simp
  | some o =>
    unfold World.unitDm
    simp only [List.getElem?_set, Option.isSome_some, and_true]
    have : i < w.units.length := by
      by_contra c
      rw [List.getElem?_eq_none (by omega)] at e; cases e
    by_cases c : i = j
    · subst c; simp [this]
    · simp [c]

theorem setUnitDm_later (k : DS) (i d : Nat) : Later k { k with w := k.w.setUnitDm i (some d) } where
  len := by rw [(setUnitDm_eqs k.w i (some d)).2]; exact Nat.le_refl _
  shape j _ := by simp only [(setUnitDm_eqs k.w i (some d)).2]
  names j o e := by
    simp only [World.setUnitDm]
    cases e2 : k.w.units[i]? with
    | none => exact ⟨o, e, rfl⟩
    | some x =>
      simp only [List.getElem?_set]
      by_cases c : i = j
      · subst c
        rw [e] at e2; cases e2
        have : i < k.w.units.length := by
          by_contra c
          rw [List.getElem?_eq_none (by omega)] at e; cases e
        rw [if_pos rfl, if_pos this]; exact ⟨_, rfl, rfl⟩
      · rw [if_neg c]; exact ⟨o, e, rfl⟩
  dms j h := by
    simp only [unitDm_set]
    split
    · exact fun h => by cases h
    · exact h

theorem setUnitDm (h : Fine c k) (i d : Nat) : Fine c { k with w := k.w.setUnitDm i (some d) } where
  owns := by
    unfold Owns
    rw [(setUnitDm_eqs k.w i (some d)).1, (setUnitDm_eqs k.w i (some d)).2]
    exact h.owns
  stored := by
    show Kept _ (k.w.setUnitDm i (some d)).maps
    rw [(setUnitDm_eqs k.w i (some d)).1]
    exact h.stored.mono (Known.of (setUnitDm_later k i d).dms (fun h => h))
  items i' j e := (setUnitDm_later k i d).dms j (h.items i' j e)

/-- a unit that has a map need not be mentioned -/
theorem entered {key : Str} {j : Nat} (h : Fine (some (key, j)) k) (hj : k.w.unitDm j ≠ none) : Fine none k where
  owns := h.owns
  stored := h.stored.mono fun key n hn => by
    cases n with
    | unit i =>
      rcases hn with hn | hn
      · exact .inl hn
      · cases hn; exact .inl hj
    | program => exact hn
    | _ => trivial
  items := h.items

theorem enter (h : Fine none k) (x : Str × Nat) : Fine (some x) k where
  owns := h.owns
  stored := h.stored.mono fun key n hn => by
    cases n with
    | unit i =>
      rcases hn with hn | hn
      · exact .inl hn
      · cases hn
    | program => exact hn
    | _ => trivial
  items := h.items

/-! ## The steps -/

variable (u : Uni)

theorem dm (h : Fine c k) {cu : Nat} (hc : cu < k.w.ctxs.length) : ∃ d t, k.w.dm cu = some d ∧ Spec.target k.w.maps d = some t := by
  obtain ⟨o, ho⟩ := Ctxs.obj_some hc
  obtain ⟨t, h1, -⟩ := h.owns _ o ho trivial
  exact ⟨o.dm, t, World.dm_eq.2 ⟨o, ho, rfl⟩, h1⟩

theorem newUnitContext (h : Fine c k) (cp : Nat) (path : Str) : Fine c (k.newUnitContext cp path).1 where
  owns i o ho _ := by
    simp only [DS.newUnitContext, World.newMap, Ctxs.obj] at ho ⊢
    split at ho
    · cases ho
      exact ⟨k.w.maps.length, by simp [Spec.target, CtxObj.dm], trivial⟩
    · obtain ⟨t, h1, -⟩ := h.owns i o ho trivial
      exact ⟨t, by rw [target_cons_lt _ _ (target_lt' h1)]; exact h1, trivial⟩
  stored := (h.stored.cons (o := .chained 0 []) (by intro p hp; cases hp)).mono (Known.of (fun _ h => h) (fun h => h))
  items := h.items

theorem newUnitContext_later (k : DS) (cp : Nat) (path : Str) : Later k (k.newUnitContext cp path).1 where
  len := by simp [DS.newUnitContext, World.newMap]
  shape i hi := by
    simp only [DS.newUnitContext, World.newMap]
    rw [Ctxs.obj_cons_lt _ hi]
  names _ o h := ⟨o, h, rfl⟩
  dms _ h := h

theorem newUnitContext_unit (k : DS) (cp : Nat) (path : Str) :
    IsUnit (k.newUnitContext cp path).1 (k.newUnitContext cp path).2 cp := by
  refine ⟨path, k.w.maps.length, ?_⟩
  simp [DS.newUnitContext, World.newMap, Ctxs.obj]

theorem addUnit_dm (j : Nat) (o : CtxObj) : (CtxObj.addUnit j o).dm = o.dm := by cases o <;> rfl

theorem addUnit (h : Fine c k) (cp j : Nat) : Fine c (k.addUnit cp j) where
  owns i o ho _ := by
    simp only [DS.addUnit, Ctxs.obj_modify] at ho ⊢
    split at ho
    · obtain ⟨x, hx, rfl⟩ := Option.map_eq_some_iff.1 ho
      rw [addUnit_dm]; exact h.owns i x hx trivial
    · exact h.owns i o ho trivial
  stored := h.stored.mono (Known.of (fun _ h => h) (fun h => h))
  items := h.items

theorem addUnit_unit {cu cp : Nat} (h : IsUnit k cu cp) (cp' j : Nat) : IsUnit (k.addUnit cp' j) cu cp := by
  obtain ⟨p, d, e⟩ := h
  refine ⟨p, d, ?_⟩
  simp only [DS.addUnit, Ctxs.obj_modify, e]
  split <;> rfl

theorem addUnit_prog {cp : Nat} {us : List Nat} (h : IsProg k cp us) (j : Nat) : IsProg (k.addUnit cp j) cp (us ++ [j]) := by
  obtain ⟨p, d, e⟩ := h
  refine ⟨p, d, ?_⟩
  simp only [DS.addUnit, Ctxs.obj_modify, e, if_true]
  rfl

theorem byName_mem (w : World Node) {us : List Nat} {name : Str} {j : Nat} (h : w.byName u us name = some j) :
    j ∈ us ∧ ∃ o : UnitObj, w.units[j]? = some o ∧ u.toLower o.name = u.toLower name := by
  induction us with
  | nil => cases h
  | cons i us ih =>
    unfold World.byName at h
    cases e : w.units[i]? with
    | none => rw [e] at h; exact ⟨List.mem_cons_of_mem _ (ih h).1, (ih h).2⟩
    | some o =>
      rw [e] at h
      simp only at h
      split at h
      · rename_i c; cases h; exact ⟨List.mem_cons_self, o, e, c⟩
      · exact ⟨List.mem_cons_of_mem _ (ih h).1, (ih h).2⟩

/-- the used units that are loaded have maps -/
def Maps' (k : DS) (cu : Nat) (es : List UsesEntry) : Prop :=
  ∀ e ∈ es, ∀ j, k.w.byName u (k.parentUnits cu) e.ident.name = some j → k.w.unitDm j ≠ none

theorem assignUnits {cu : Nat} : ∀ {es : List UsesEntry} {k : DS}, Fine c k → Maps' u k cu es →
    Fine c (k.assignUnits u cu es) ∧ ∃ is, k.assignUnits u cu es = { k with items := is }
  | [], k, h, _ => ⟨h, k.items, rfl⟩
  | e :: es, k, h, hm => by
    unfold DS.assignUnits
    cases hb : k.w.byName u (k.parentUnits cu) e.ident.name with
    | none => exact assignUnits h fun x hx => hm x (List.mem_cons_of_mem _ hx)
    | some j =>
      have hj := hm e List.mem_cons_self j hb
      obtain ⟨h1, is, h2⟩ := assignUnits (h.setItem (i := e.no) hj) (es := es) (cu := cu)
        fun x hx => hm x (List.mem_cons_of_mem _ hx)
      exact ⟨h1, is, h2⟩

theorem usedMaps (h : Fine c k) (es : List UsesEntry) : ∃ ms, k.w.usedMaps (k.unitsOf es) = some ms := by
  unfold World.usedMaps
  suffices ∃ ms, ((k.unitsOf es).filterMap id).mapM k.w.unitDm = some ms by
    obtain ⟨ms, e⟩ := this
    exact ⟨ms.reverse, by rw [e]; rfl⟩
  have : ∀ l : List Nat, (∀ j ∈ l, k.w.unitDm j ≠ none) → ∃ ms, l.mapM k.w.unitDm = some ms := by
    intro l hl
    induction l with
    | nil => exact ⟨[], rfl⟩
    | cons j l ih =>
      obtain ⟨ms, e⟩ := ih fun x hx => hl x (List.mem_cons_of_mem _ hx)
      obtain ⟨m, hm⟩ := Option.ne_none_iff_exists'.1 (hl j List.mem_cons_self)
      exact ⟨m :: ms, by rw [List.mapM_cons, hm, e]; rfl⟩
  refine this _ fun j hj => ?_
  obtain ⟨o, ho, rfl⟩ := List.mem_filterMap.1 hj
  unfold DS.unitsOf at ho
  obtain ⟨e, -, he⟩ := List.mem_map.1 ho
  exact h.items _ _ (by simpa using he)

theorem importUnits (h : Fine c k) {cu : Nat} (hc : cu < k.w.ctxs.length) {es : List UsesEntry} (hm : Maps' u k cu es) :
    ∃ k', k.importUnits u cu es = some k' ∧ Fine c k' ∧ Later k k' ∧ k'.cur = k.cur := by
  obtain ⟨h1, is, e1⟩ := assignUnits u h hm
  have l1 := setItem_later k is
  unfold DS.importUnits
  simp only
  rw [← e1] at l1
  obtain ⟨d, t, hd, ht⟩ := h1.dm (cu := cu) (Nat.lt_of_lt_of_le hc l1.len)
  obtain ⟨ms, hms⟩ := h1.usedMaps es
  rw [hd, hms]
  refine ⟨_, rfl, ?_, ?_, by rw [e1]⟩
  · have h2 := h1.newMap (o := .impl []) (by intro p hp; cases hp)
    have h3 := h2.newMap (o := .composite ((k.assignUnits u cu es).w.maps.length :: ms ++ [d])) (by intro p hp; cases hp)
    exact h3.setDm (cu := cu) (d := (k.assignUnits u cu es).w.maps.length + 1) (t := (k.assignUnits u cu es).w.maps.length)
      (by simp [World.newMap, Spec.target])
  · exact ((l1.trans (newMap_later _ _)).trans (newMap_later _ _)).trans (setDm_later _ _ _)

theorem setUnit (h : Fine none k) {cu : Nat} (hc : cu < k.w.ctxs.length) (hd : UnitHead) :
    SetAfter (fun k' => Fine (some (u.toLower hd.ident.name, hd.no)) k' ∧ Later k k' ∧ k'.cur = k.cur) (k.setUnit u cu hd) := by
  obtain ⟨d, t, h1, h2⟩ := h.dm hc
  have hset := set_eq u k.w.maps d [⟨hd.ident.name, .unit hd.no⟩]
  rw [h2] at hset
  unfold DS.setUnit DS.setR World.set
  rw [h1]
  simp only
  rw [hset]
  simp only
  have h := h.enter (u.toLower hd.ident.name, hd.no)
  by_cases c : ((tbl k.w.maps t).set u [⟨hd.ident.name, .unit hd.no⟩]).2 = true
  · rw [if_pos c]
    refine ⟨⟨?_, ?_, h.items⟩, ⟨Nat.le_refl _, fun _ _ => rfl, fun _ o h => ⟨o, h, rfl⟩, fun _ h => h⟩, rfl⟩
    · intro i o ho _
      obtain ⟨t', h1, -⟩ := h.owns i o ho trivial
      exact ⟨t', by simp only [target_upd]; exact h1, trivial⟩
    · refine Kept.upd (P := Known k _) h.stored ?_
      intro p hp
      rcases tblSet_mem u _ _ p hp with hp | ⟨hp, hk⟩
      · exact h.stored t p hp
      · rw [List.mem_singleton.1 hp] at hk ⊢
        exact .inr (by rw [hk])
  · rw [if_neg c]
    trivial

theorem finishIntf {key : Str} {j : Nat} (h : Fine (some (key, j)) k) (hj : ∃ o, k.w.units[j]? = some o) (ds : List (IntfDecl (Decl Node))) :
    Fine none (k.finishIntf u j ds) ∧ Later k (k.finishIntf u j ds) ∧ (k.finishIntf u j ds).w.unitDm j ≠ none := by
  have hk : ∀ p ∈ objTbl (.impl (World.intfTable u (ds.flatMap DS.declNodes) [])), Known k (some (key, j)) p.1 p.2.node := by
    intro p hp
    rcases intfTable_mem u _ [] p hp with hp | ⟨hp, -⟩
    · cases hp
    · obtain ⟨l, hl, hpl⟩ := List.mem_flatten.1 hp
      obtain ⟨x, -, hx⟩ := List.mem_flatMap.1 hl
      cases x with
      | const ds =>
        obtain ⟨a, -, rfl⟩ := List.mem_map.1 hx
        rw [List.mem_singleton.1 hpl]; trivial
      | type first ds =>
        obtain ⟨a, -, rfl⟩ := List.mem_map.1 hx
        rw [List.mem_singleton.1 hpl]; trivial
      | var ds =>
        obtain ⟨a, -, rfl⟩ := List.mem_map.1 hx
        obtain ⟨b, -, hb⟩ := List.mem_map.1 hpl
        rw [← hb]; trivial
      | threadVar ds =>
        obtain ⟨a, -, rfl⟩ := List.mem_map.1 hx
        obtain ⟨b, -, hb⟩ := List.mem_map.1 hpl
        rw [← hb]; trivial
      | heading hd o =>
        rw [List.mem_singleton.1 hx] at hpl
        rw [List.mem_singleton.1 hpl]; trivial
  have h1 := (h.newMap hk).setUnitDm j k.w.maps.length
  have l1 := (newMap_later k (.impl (World.intfTable u (ds.flatMap DS.declNodes) []))).trans (setUnitDm_later _ j k.w.maps.length)
  have hd : (k.finishIntf u j ds).w.unitDm j ≠ none := by
    show ((k.w.newMap _).1.setUnitDm j (some k.w.maps.length)).unitDm j ≠ none
    rw [unitDm_set, if_pos ⟨rfl, by
      obtain ⟨o, ho⟩ := hj
      show (k.w.units[j]?).isSome = true
      rw [ho]; rfl⟩]
    exact fun h => by cases h
  exact ⟨Fine.entered h1 hd, l1, hd⟩

theorem stackAt (h : Fine c k) {cu : Nat} (hc : cu < k.w.ctxs.length) : Fine c (k.stackAt cu) ∧ Later k (k.stackAt cu) ∧
    (k.stackAt cu).cur = k.cur := by
  obtain ⟨d, t, hd, ht⟩ := h.dm hc
  unfold DS.stackAt World.stack
  rw [hd]
  exact ⟨(h.newMap (o := .chained d []) (by intro p hp; cases hp)).setDm (t := k.w.maps.length) (by simp [World.newMap, Spec.target]),
    (newMap_later _ _).trans (setDm_later _ _ _), rfl⟩

theorem openImpl (h : Fine c k) {cu unit : Nat} (hc : cu < k.w.ctxs.length) (hu : k.w.unitDm unit ≠ none) {es : List UsesEntry}
    (hm : Maps' u k cu es) : ∃ k' um, k.openImpl u cu unit es = some (k', um) ∧ Fine c k' ∧ Later k k' ∧ k'.cur = k.cur := by
  obtain ⟨h1, is, e1⟩ := assignUnits u h hm
  have l1 := setItem_later k is
  unfold DS.openImpl
  simp only
  rw [← e1] at l1
  obtain ⟨d, t, hd, ht⟩ := h1.dm (cu := cu) (Nat.lt_of_lt_of_le hc l1.len)
  obtain ⟨ms, hms⟩ := h1.usedMaps es
  obtain ⟨um, hum⟩ := Option.ne_none_iff_exists'.1 (l1.dms _ hu)
  rw [hd, hms, hum]
  refine ⟨_, _, rfl, ?_, ?_, by rw [e1]⟩
  · have h2 := h1.newMap (o := .impl []) (by intro p hp; cases hp)
    have h3 := h2.newMap (o := .composite [(k.assignUnits u cu es).w.maps.length, um]) (by intro p hp; cases hp)
    have h4 := h3.setUnitDm unit ((k.assignUnits u cu es).w.maps.length + 1)
    have h5 := h4.newMap (o := .composite ((k.assignUnits u cu es).w.maps.length :: d :: ms)) (by intro p hp; cases hp)
    refine h5.setDm (cu := cu) (t := (k.assignUnits u cu es).w.maps.length) ?_
    simp [World.newMap, Spec.target, (setUnitDm_eqs _ _ _).1]
  · exact ((((l1.trans (newMap_later _ _)).trans (newMap_later _ _)).trans (setUnitDm_later _ _ _)).trans (newMap_later _ _)).trans
      (setDm_later _ _ _)

theorem usesMap {es : List UsesEntry} : ∀ {hs : List UnitHead} {k k' : DS} {m m' : Tbl Node}, Fine c k → (∀ h ∈ hs, k.w.unitDm h.no ≠ none) →
    (∀ p ∈ m, ∃ i, p.2.node = .uses i) → k.usesMap u es hs m = some (k', m') →
    Fine c k' ∧ (∃ is, k' = { k with items := is }) ∧ ∀ p ∈ m', ∃ i, p.2.node = .uses i
  | [], k, k', m, m', h, _, hm, e => by cases e; exact ⟨h, ⟨k.items, rfl⟩, hm⟩
  | hd :: hs, k, k', m, m', h, hh, hm, e => by
    unfold DS.usesMap at e
    cases e1 : DS.findUses u es hd.ident.name with
    | none => rw [e1] at e; cases e
    | some x =>
      rw [e1] at e
      obtain ⟨g1, ⟨is, g2⟩, g3⟩ := usesMap (h.setItem (i := x.no) (hh hd List.mem_cons_self))
        (fun y hy => hh y (List.mem_cons_of_mem _ hy)) (by
          intro p hp
          rcases tblSet_mem u _ _ p hp with hp | ⟨hp, -⟩
          · exact hm p hp
          · rw [List.mem_singleton.1 hp]; exact ⟨_, rfl⟩) e
      exact ⟨g1, ⟨is, g2⟩, g3⟩

theorem mapM_some {k : DS} : ∀ {l : List Nat}, (∀ j ∈ l, k.w.unitDm j ≠ none) → ∃ ms, l.mapM k.w.unitDm = some ms
  | [], _ => ⟨[], rfl⟩
  | j :: l, hl => by
    obtain ⟨ms, e⟩ := mapM_some (l := l) fun x hx => hl x (List.mem_cons_of_mem _ hx)
    obtain ⟨m, hm⟩ := Option.ne_none_iff_exists'.1 (hl j List.mem_cons_self)
    exact ⟨m :: ms, by rw [List.mapM_cons, hm, e]; rfl⟩

theorem enterProgram (h : Fine none k) {cp : Nat} (hc : cp < k.w.ctxs.length) {i : Ident} {hs : List UnitHead} {m : Tbl Node}
    (hh : ∀ h ∈ hs, k.w.unitDm h.no ≠ none) (hm : ∀ p ∈ m, ∃ i, p.2.node = .uses i) :
    ∃ k', k.enterProgram u cp i hs m = some k' ∧ Fine none k' ∧ Later k k' ∧ k'.cur = k.cur := by
  obtain ⟨d, t, hd, ht⟩ := h.dm hc
  obtain ⟨ms, hms⟩ : ∃ ms, k.w.usedMaps (hs.map fun h => some h.no) = some ms := by
    unfold World.usedMaps
    obtain ⟨ms, e⟩ := mapM_some (k := k) (l := (hs.map fun h => some h.no).filterMap id) (by
      intro j hj
      obtain ⟨o, ho, rfl⟩ := List.mem_filterMap.1 hj
      obtain ⟨x, hx, hx'⟩ := List.mem_map.1 ho
      cases hx'
      exact hh x hx)
    exact ⟨ms.reverse, by rw [e]; rfl⟩
  unfold DS.enterProgram
  rw [hd, hms]
  refine ⟨_, rfl, ?_, ?_, rfl⟩
  · let k1 : DS := { k with program := some (k.w.maps.length + 1) }
    have h1 : Fine none k1 :=
      ⟨h.owns, h.stored.mono (Known.of (fun _ h => h) (fun _ => fun h => by cases h)), h.items⟩
    have h2 := h1.newMap (o := .impl m) (by
      intro p hp
      obtain ⟨i, hi⟩ := hm p hp
      rw [hi]; trivial)
    have h3 := h2.newMap (o := .impl (Tbl.set u [] [⟨i.name, .program⟩]).1) (by
      intro p hp
      rcases tblSet_mem u _ _ p hp with hp | ⟨hp, -⟩
      · cases hp
      · rw [List.mem_singleton.1 hp]; exact fun h => by cases h)
    have h4 := h3.newMap (o := .composite ((k.w.maps.length + 1) :: k.w.maps.length :: ms ++ [d])) (by intro p hp; cases hp)
    exact h4.setDm (cu := cp) (d := k.w.maps.length + 2) (t := k.w.maps.length + 1) (by simp [World.newMap, Spec.target, k1])
  · exact (((newMap_later k (.impl m)).trans (newMap_later _ (.impl (Tbl.set u [] [⟨i.name, .program⟩]).1))).trans
      (newMap_later _ (.composite ((k.w.maps.length + 1) :: k.w.maps.length :: ms ++ [d])))).trans
      ⟨(setDm_later _ cp (k.w.maps.length + 2)).len, (setDm_later _ cp (k.w.maps.length + 2)).shape,
        (setDm_later _ cp (k.w.maps.length + 2)).names, (setDm_later _ cp (k.w.maps.length + 2)).dms⟩

end Fine

theorem fine_init (path : Str) : Fine none (DS.init path) where
  owns i o ho _ := by
    simp only [DS.init, Ctxs.obj] at ho ⊢
    split at ho
    · cases ho; exact ⟨1, by simp [Spec.target, CtxObj.dm], trivial⟩
    · cases ho
  stored j p hp := by
    simp only [DS.init] at hp
    rw [tbl_cons, tbl_cons] at hp
    split at hp
    · cases hp
    · split at hp <;> cases hp
  items i j e := by cases e

end TP
