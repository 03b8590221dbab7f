import Verif.Lemmas.PScope
import Verif.Props.C23

/-!
# C25  Implementation declarations stay private to the unit
-/

namespace TP.Props
open TP Spec Maps
variable {ν : Type} (u : Uni)

/-- declaring one after the other as a history -/
def setAllCmd : List (Decl ν) → PCmd ν
  | [] => .nop
  | d :: ds => .seq (.set [d]) (setAllCmd ds)

theorem setAll_run (w : World ν) (c : Nat) (ds : List (Decl ν)) :
    (setAllCmd ds).run u ⟨w, c⟩ = (⟨(w.setAll u c ds).1, c⟩, (w.setAll u c ds).2) := by
  induction ds generalizing w with
  | nil => rfl
  | cons d ds ih =>
    simp only [setAllCmd, PCmd.run, World.setAll]
    cases hr : w.set u c [d] with
    | mk w1 out => cases out <;> simp_all

theorem setUnitDm_maps (w : World ν) (i : Nat) (d : Option Nat) :
    (w.setUnitDm i d).maps = w.maps ∧ (w.setUnitDm i d).ctxs = w.ctxs := by
  unfold World.setUnitDm; split <;> exact ⟨rfl, rfl⟩

/-- which tables an implementation part may change: new ones, and the innermost scope of the parser's context if
that is no longer the unit's context -/
def Mutable (p : PCtx ν) (cu : Nat) (t : Nat) : Prop :=
  p.w.maps.length ≤ t ∨ (p.cur ≠ cu ∧ ∃ o, p.w.ctxs.obj p.cur = some o ∧ target p.w.maps o.dm = some t)

theorem pinv_stack (p : PCtx ν) (hw : p.w.WF) (cu : Nat) (w1 : World ν) (bak : Nat)
    (hs : p.w.stack cu = some (w1, bak)) :
    PInv (Mutable p cu) p.w.maps p.cur p.w.ctxs.length ⟨w1, p.cur⟩ ∧ w1.units = p.w.units ∧
      w1.ctxs.length = p.w.ctxs.length ∧ cu < p.w.ctxs.length := by
  unfold World.stack at hs
  cases hd : p.w.dm cu with
  | none => rw [hd] at hs; cases hs
  | some d =>
    rw [hd] at hs
    simp only [Option.some.injEq, Prod.mk.injEq] at hs
    obtain ⟨rfl, rfl⟩ := hs
    obtain ⟨oc, hoc, hocd⟩ := World.dm_eq.mp hd
    have hlen : ((p.w.newMap (.chained d [])).1.setDm cu (p.w.newMap (.chained d [])).2).ctxs.length = p.w.ctxs.length := by
      simp [World.setDm, World.newMap, Ctxs.length_modify]
    refine ⟨⟨by simp only [World.setDm, World.newMap]; exact Frame.cons _ _ _, Or.inl rfl, Nat.le_of_eq hlen.symm, ?_, ?_⟩,
      rfl, hlen, Ctxs.obj_lt hoc⟩
    · intro i o ho _
      simp only [World.setDm, World.newMap, Ctxs.obj_modify, List.length_cons] at ho ⊢
      by_cases hic : i = cu
      · rw [if_pos hic, Option.map_eq_some_iff] at ho
        obtain ⟨x, _, hx⟩ := ho
        rw [← hx]
        have : (CtxObj.withDm p.w.maps.length x).dm = p.w.maps.length := by cases x <;> rfl
        omega
      · rw [if_neg hic] at ho
        have := hw i o ho
        omega
    · intro i o ho hi t ht
      have hil := Ctxs.obj_lt ho
      have hil' : i < p.w.ctxs.length := Nat.lt_of_lt_of_eq hil hlen
      have hicur : i = p.cur := by rcases hi with h | h <;> omega
      simp only [World.setDm, World.newMap, Ctxs.obj_modify] at ho ht
      by_cases hic : i = cu
      · rw [if_pos hic, Option.map_eq_some_iff] at ho
        obtain ⟨x, _, hx⟩ := ho
        rw [← hx] at ht
        have : (CtxObj.withDm p.w.maps.length x).dm = p.w.maps.length := by cases x <;> rfl
        rw [this] at ht
        simp only [target, if_true, Option.some.injEq] at ht
        exact Or.inl (by omega)
      · rw [if_neg hic] at ho
        rw [target_cons_lt _ _ (hw i o ho)] at ht
        right
        rw [hicur] at ho hic
        exact ⟨hic, o, ho, ht⟩

/-- facts about the state in which the implementation is parsed -/
theorem implStart_spec (p : PCtx ν) (hw : p.w.WF) (cu i : Nat) (items : List (Decl ν))
    (q : PCtx ν) (um : Nat) (hq : implStart u p cu i items = .ok (q, um)) :
    PInv (Mutable p cu) p.w.maps p.cur p.w.ctxs.length q ∧ p.w.unitDm i = some um ∧ q.cur = p.cur ∧
      q.w.setUnitDm i (some um) = { q.w with units := p.w.units } ∧
      ∃ (l : Nat) (w2 : World ν) (cm : Nat) (ms : List Nat), l = w2.maps.length ∧ p.w.maps.length ≤ l ∧
        q.w.maps = .composite (l :: cm :: ms) :: .composite [l, um] :: .impl [] :: w2.maps ∧
        q.w.unitDm i = some (l + 1) ∧
        (∃ o, q.w.ctxs.obj cu = some o ∧ o.dm = l + 2) ∧ Frame (Mutable p cu) p.w.maps w2.maps := by
  unfold implStart at hq
  cases hs : p.w.stack cu with
  | none => rw [hs] at hq; cases hq
  | some r =>
    obtain ⟨w1, bak⟩ := r
    rw [hs] at hq
    simp only at hq
    obtain ⟨i1, i2, i3, i4⟩ := pinv_stack p hw cu w1 bak hs
    have hrun := setAll_run u w1 p.cur items
    obtain ⟨r1, _, r3, r4, r5⟩ := i1.run u (fun t ht => Or.inl ht) (setAllCmd items)
    rw [hrun] at r1 r3 r4 r5
    cases ha : w1.setAll u p.cur items with
    | mk w2 out =>
      rw [ha] at hq r1 r3 r4 r5
      cases out with
      | err => simp only at hq; cases hq
      | panic => simp only at hq; cases hq
      | ok =>
        simp only at hq r1 r3 r4 r5
        cases hcm : w2.dm cu with
        | none => rw [hcm] at hq; simp only at hq; cases hq
        | some cm =>
          cases hum : w2.unitDm i with
          | none => rw [hcm, hum] at hq; simp only at hq; cases hq
          | some um' =>
            cases hms : w2.usedMaps (w2.usedUnits u cu (items.map Decl.name)) with
            | none => rw [hcm, hum, hms] at hq; simp only at hq; cases hq
            | some ms =>
              rw [hcm, hum, hms] at hq
              simp only [Except.ok.injEq, Prod.mk.injEq] at hq
              obtain ⟨hq, rfl⟩ := hq
              have hunits : w2.units = p.w.units := by rw [r5]; exact i2
              have hump : p.w.unitDm i = some um' := by
                unfold World.unitDm at hum ⊢; rw [← hunits]; exact hum
              obtain ⟨uo, huo⟩ : ∃ uo, w2.units[i]? = some uo := by
                unfold World.unitDm at hum
                cases h : w2.units[i]? with
                | none => rw [h] at hum; cases hum
                | some uo => exact ⟨uo, rfl⟩
              have huod : uo.dm = some um' := by
                unfold World.unitDm at hum; rw [huo] at hum; exact hum
              have hqm : q.w.maps = .composite (w2.maps.length :: cm :: ms) :: .composite [w2.maps.length, um'] ::
                  .impl [] :: w2.maps := by
                rw [← hq]
                simp [World.setDm, World.newMap, (setUnitDm_maps _ _ _).1]
              have hqu : q.w.units = w2.units.set i { uo with dm := some (w2.maps.length + 1) } := by
                rw [← hq]
                simp [World.setDm, World.newMap, World.setUnitDm, huo]
              have hqc : q.w.ctxs = Ctxs.modify (CtxObj.withDm (w2.maps.length + 2)) w2.ctxs cu := by
                rw [← hq]
                simp [World.setDm, World.newMap, (setUnitDm_maps _ _ _).2, (setUnitDm_maps _ _ _).1]
              have hqcur : q.cur = p.cur := by rw [← hq]
              have hil : i < w2.units.length := by
                rw [List.getElem?_eq_some_iff] at huo; exact huo.1
              have hfr := r1.frame
              have hfl : p.w.maps.length ≤ w2.maps.length := hfr.len
              have hqf : Frame (Mutable p cu) w2.maps q.w.maps := by
                rw [hqm]
                exact ((Frame.cons _ _ _).trans (Frame.cons _ _ _)).trans (Frame.cons _ _ _)
              refine ⟨⟨hfr.trans hqf, Or.inl hqcur, ?_, ?_, ?_⟩, hump, hqcur, ?_, w2.maps.length, w2, cm, ms, rfl, hfl, hqm, ?_, ?_, hfr⟩
              · rw [hqc, Ctxs.length_modify]; exact Nat.le_trans (Nat.le_of_eq i3.symm) r3
              · intro j o ho hj
                rw [hqc, Ctxs.obj_modify] at ho
                have hl := hqf.len
                have hl3 : q.w.maps.length = w2.maps.length + 3 := by rw [hqm]; simp
                by_cases hjc : j = cu
                · rw [if_pos hjc, Option.map_eq_some_iff] at ho
                  obtain ⟨x, _, hx⟩ := ho
                  rw [← hx]
                  have : (CtxObj.withDm (w2.maps.length + 2) x).dm = w2.maps.length + 2 := by cases x <;> rfl
                  omega
                · rw [if_neg hjc] at ho
                  have := r1.dmlt j o ho hj
                  simp only at this
                  omega
              · intro j o ho hj t ht
                rw [hqc, Ctxs.obj_modify] at ho
                by_cases hjc : j = cu
                · rw [if_pos hjc, Option.map_eq_some_iff] at ho
                  obtain ⟨x, _, hx⟩ := ho
                  rw [← hx] at ht
                  have : (CtxObj.withDm (w2.maps.length + 2) x).dm = w2.maps.length + 2 := by cases x <;> rfl
                  rw [this, hqm] at ht
                  simp [target] at ht
                  exact Or.inl (by omega)
                · rw [if_neg hjc] at ho
                  rw [hqf.tgt o.dm (r1.dmlt j o ho hj)] at ht
                  exact r1.inner j o ho hj t ht
              · unfold World.setUnitDm
                rw [hqu, List.getElem?_set_self hil]
                simp only [List.set_set]
                congr 1
                rw [← hunits]
                apply List.ext_getElem?
                intro k
                rw [List.getElem?_set]
                by_cases hk : i = k
                · subst hk
                  simp only [if_true, hil, if_true]
                  rw [huo, ← huod]
                · rw [if_neg hk]
              · unfold World.unitDm
                rw [hqu, List.getElem?_set_self hil]
              · obtain ⟨o2, ho2, _⟩ := World.dm_eq.mp hcm
                refine ⟨CtxObj.withDm (w2.maps.length + 2) o2, by rw [hqc, Ctxs.obj_modify, if_pos rfl, ho2]; rfl, ?_⟩
                cases o2 <;> rfl

theorem unitDm_eq_of_units {w w' : World ν} (h : w'.units = w.units) (i : Nat) : w'.unitDm i = w.unitDm i := by
  unfold World.unitDm; rw [h]

/-- Whatever the outcome of parsing the implementation, and whatever declarations, scopes and rollbacks happen in
it: afterwards every unit has the declaration map it had before, and this map resolves every name as before, if it
does not search the table that the parser declares to.  (The map of a unit is made by `ParseUnitIntfBody` from
scratch, no context searches or changes it except through uses clauses; so this holds for all units.) -/
theorem C25_private [EmbNode ν] (p : PCtx ν) (hw : p.w.WF) (cu i : Nat) (items : List (Decl ν))
    (body : PCmd ν) :
    let p' := (processImplAndInit u p cu i items (body.run u)).1
    p'.w.units = p.w.units ∧
      ∀ m < p.w.maps.length, (p.cur ≠ cu → ∀ o t, p.w.ctxs.obj p.cur = some o → target p.w.maps o.dm = some t →
          t ∉ layers p.w.maps m) →
        ∀ name, p'.w.maps.get u m name = p.w.maps.get u m name := by
  intro p'
  have hS : ∀ t, p.w.maps.length ≤ t → Mutable p cu t := fun t ht => Or.inl ht
  have hfin : ∀ h : Maps ν, Frame (Mutable p cu) p.w.maps h → ∀ m < p.w.maps.length,
      (p.cur ≠ cu → ∀ o t, p.w.ctxs.obj p.cur = some o → target p.w.maps o.dm = some t → t ∉ layers p.w.maps m) →
        ∀ name, h.get u m name = p.w.maps.get u m name := by
    intro h hf m hm hno name
    refine hf.get u hm ?_ name
    intro k hk hmut
    rcases hmut with hge | ⟨hne, o, ho, ht⟩
    · have := layers_lt hk; omega
    · exact hno hne o k ho ht hk
  show p'.w.units = p.w.units ∧ _
  have hp' : p' = (processImplAndInit u p cu i items (body.run u)).1 := rfl
  clear_value p'
  unfold processImplAndInit at hp'
  cases hq : implStart u p cu i items with
  | ok r =>
    obtain ⟨q, um⟩ := r
    rw [hq] at hp'
    simp only at hp'
    obtain ⟨h1, h2, h3, h4, l, w2, cm, ms, _, _, hqm, _⟩ := implStart_spec u p hw cu i items q um hq
    obtain ⟨r1, _, _, _, r5⟩ := h1.run u hS body
    rw [hp']
    have hm : ((body.run u q).1.w.setUnitDm i (some um)).maps = (body.run u q).1.w.maps := (setUnitDm_maps _ _ _).1
    refine ⟨?_, fun m hm' hno name => ?_⟩
    · have h5 : ((body.run u q).1.w.setUnitDm i (some um)).units = (q.w.setUnitDm i (some um)).units := by
        unfold World.setUnitDm; rw [r5]
        cases q.w.units[i]? with
        | none => exact r5
        | some o => rfl
      simp only
      rw [h5, h4]
    · simp only [hm]
      exact hfin _ r1.frame m hm' hno name
  | error r =>
    rw [hq] at hp'
    simp only at hp'
    rw [hp']
    -- the early results
    unfold implStart at hq
    cases hs : p.w.stack cu with
    | none => rw [hs] at hq; simp only [Except.error.injEq] at hq; rw [← hq]; exact ⟨rfl, fun _ _ _ _ => rfl⟩
    | some r0 =>
      obtain ⟨w1, bak⟩ := r0
      rw [hs] at hq
      simp only at hq
      obtain ⟨i1, i2, i3, i4⟩ := pinv_stack p hw cu w1 bak hs
      have hrun := setAll_run u w1 p.cur items
      obtain ⟨r1, _, r3, r4, r5⟩ := i1.run u hS (setAllCmd items)
      rw [hrun] at r1 r5
      cases ha : w1.setAll u p.cur items with
      | mk w2 out =>
        rw [ha] at hq r1 r5
        have hw2 : r.1.w = w2 := by
          cases out with
          | err => simp only [Except.error.injEq] at hq; rw [← hq]
          | panic => simp only [Except.error.injEq] at hq; rw [← hq]
          | ok =>
            simp only at hq
            split at hq
            · cases hq
            · simp only [Except.error.injEq] at hq; rw [← hq]
        rw [hw2]
        exact ⟨by rw [r5]; exact i2, fun m hm' hno name => hfin _ r1.frame m hm' hno name⟩

/-- If the parser still has the context of the unit parser: a declaration made through the context of the parser
in the implementation (outside routines), after any history without rollback, is visible through the unit. -/
theorem C25_visible_partial [EmbNode ν] (p : PCtx ν) (hw : p.w.WF) (cu i : Nat) (items : List (Decl ν))
    (hsame : p.cur = cu) (q : PCtx ν) (um : Nat)
    (hq : implStart u p cu i items = .ok (q, um)) (b : PCmd ν) (hb : b.NoBack) (ds : List (Decl ν))
    (hok : ((b.run u q).1.w.set u (b.run u q).1.cur ds).2 = .ok) (d : Decl ν) (hd : d ∈ ds) (name : Str)
    (hn : SameName name d.name) :
    let w' := ((b.run u q).1.w.set u (b.run u q).1.cur ds).1
    ∃ m, w'.unitDm i = some m ∧ w'.maps.get u m name = some d := by
  intro w'
  obtain ⟨h1, h2, h3, h4, l, w2, cm, ms, hl, hle, hqm, hqu, ⟨o, ho, hod⟩, hfr⟩ := implStart_spec u p hw cu i items q um hq
  have hS : ∀ t, p.w.maps.length ≤ t → Mutable p cu t := fun t ht => Or.inl ht
  obtain ⟨r1, r2, r3, r4, r5⟩ := h1.run u hS b
  have hqcu : q.cur = cu := by rw [h3, hsame]
  have hcur1 : (b.run u q).1.cur = cu := by rw [run_toCmd u b hb]; exact hqcu
  have hobj : (b.run u q).1.w.ctxs.obj cu = some o := by rw [r4 cu (Ctxs.obj_lt ho)]; exact ho
  have hlen : q.w.maps.length = l + 3 := by rw [hqm, hl]; simp
  have htgq : target q.w.maps (l + 2) = some l := by rw [hqm]; subst hl; simp [target]
  have htg : target (b.run u q).1.w.maps (l + 2) = some l := by rw [r2.tgt _ (by omega), htgq]
  have hdm : (b.run u q).1.w.dm (b.run u q).1.cur = some (l + 2) := by
    rw [hcur1]; exact World.dm_eq.mpr ⟨o, hobj, hod⟩
  have hset : (b.run u q).1.w.set u (b.run u q).1.cur ds =
      ({ (b.run u q).1.w with maps := (Maps.set u (b.run u q).1.w.maps (l + 2) ds).1 },
        (Maps.set u (b.run u q).1.w.maps (l + 2) ds).2) := by
    unfold World.set; rw [hdm]
  have hw' : w' = { (b.run u q).1.w with maps := (Maps.set u (b.run u q).1.w.maps (l + 2) ds).1 } := by
    show ((b.run u q).1.w.set u (b.run u q).1.cur ds).1 = _
    rw [hset]
  rw [hset] at hok
  have hown := own_set_ok u _ _ l htg ds hok d hd name hn
  refine ⟨l + 1, ?_, ?_⟩
  · rw [hw']; exact (unitDm_eq_of_units (w := q.w) r5 i).trans hqu
  · rw [hw']
    simp only
    obtain ⟨_, f2, _, _⟩ := set_frame u (b.run u q).1.w.maps (l + 2) ds
    have hlay : layers q.w.maps (l + 1) = l :: (layers (MapObj.impl [] :: w2.maps) um) := by
      rw [hqm, layers_cons_lt _ _ (by subst hl; simp)]
      subst hl
      simp [layers]
    rw [get_layers, f2, r2.lay (l + 1) (by omega), hlay, List.findSome?_cons, hown]

/-- The interface declarations stay visible through the unit while the implementation is parsed: a name of the
interface resolves to its interface declaration or to an implementation declaration of the same name. -/
theorem C25_interface_visible [EmbNode ν] (p : PCtx ν) (hw : p.w.WF) (cu i : Nat) (items : List (Decl ν))
    (q : PCtx ν) (um : Nat) (hq : implStart u p cu i items = .ok (q, um))
    (hum : um < p.w.maps.length)
    (hno : p.cur ≠ cu → ∀ o t, p.w.ctxs.obj p.cur = some o → target p.w.maps o.dm = some t → t ∉ layers p.w.maps um)
    (b : PCmd ν) (name : Str) (x : Decl ν) (hx : p.w.maps.get u um name = some x) :
    ∃ m l, (b.run u q).1.w.unitDm i = some m ∧ p.w.maps.length ≤ l ∧ (b.run u q).1.w.maps.get u m name =
      match own u (b.run u q).1.w.maps l name with
      | some y => some y
      | none => some x := by
  obtain ⟨h1, h2, h3, h4, l, w2, cm, ms, hl, hle, hqm, hqu, ⟨o, ho, hod⟩, hfr⟩ := implStart_spec u p hw cu i items q um hq
  have hS : ∀ t, p.w.maps.length ≤ t → Mutable p cu t := fun t ht => Or.inl ht
  obtain ⟨r1, r2, r3, r4, r5⟩ := h1.run u hS b
  have hlen : q.w.maps.length = l + 3 := by rw [hqm, hl]; simp
  refine ⟨l + 1, l, ?_, hle, ?_⟩
  · rw [unitDm_eq_of_units (w := q.w) r5]; exact hqu
  have hlay : layers q.w.maps (l + 1) = l :: (layers q.w.maps um) := by
    have e1 : um < w2.maps.length := Nat.lt_of_lt_of_le hum hfr.len
    have e2 : layers q.w.maps um = layers w2.maps um := by
      rw [hqm, layers_cons_lt _ _ (by simp; omega), layers_cons_lt _ _ (by simp; omega), layers_cons_lt _ _ e1]
    rw [e2, hqm, layers_cons_lt _ _ (by subst hl; simp)]
    subst hl
    have : ¬ um = w2.maps.length := by omega
    simp [layers, this]
  rw [get_layers, r2.lay (l + 1) (by omega), hlay, List.findSome?_cons]
  cases hown : own u (b.run u q).1.w.maps l name with
  | some y => rfl
  | none =>
    simp only
    have hf := (h1.frame).trans (Frame.refl _ _)
    have hql : layers q.w.maps um = layers p.w.maps um := h1.frame.lay um hum
    have hget : (b.run u q).1.w.maps.get u um name = some x := by
      rw [← hx]
      refine r1.frame.get u hum ?_ name
      intro k hk hmut
      rcases hmut with hge | ⟨hne, o', ho', ht'⟩
      · have := layers_lt hk; omega
      · exact hno hne o' k ho' ht' hk
    rw [get_layers, r1.frame.lay um hum, ← hql] at hget
    exact hget

/-- The map made from the interface: with distinct names it resolves exactly the declarations of the interface. -/
theorem C25_interface_exact [EmbNode ν] (w : World ν) (i : Nat) (hi : i < w.units.length) (nodes : List (List (Decl ν)))
    (hnd : (nodes.flatten.map (fun d => u.toLower d.name)).Nodup) (name : Str) :
    ∃ m, (w.finishIntf u i nodes).unitDm i = some m ∧ (w.finishIntf u i nodes).maps.get u m name =
      nodes.flatten.find? (fun d => u.toLower d.name == u.toLower name) := by
  have hu : w.units[i]? = some w.units[i] := List.getElem?_eq_getElem hi
  refine ⟨w.maps.length, ?_, ?_⟩
  · unfold World.finishIntf World.unitDm World.setUnitDm World.newMap
    simp only [hu]
    rw [List.getElem?_set_self hi]
  · have hm : (w.finishIntf u i nodes).maps = .impl (World.intfTable u nodes []) :: w.maps := by
      unfold World.finishIntf; rw [(setUnitDm_maps _ _ _).1]; rfl
    rw [hm]
    have hg : Maps.get u (.impl (World.intfTable u nodes []) :: w.maps) w.maps.length name =
        Tbl.get u (World.intfTable u nodes []) name := by simp [Maps.get]
    rw [hg]
    have key : ∀ (nodes : List (List (Decl ν))) (m : Tbl ν),
        (nodes.flatten.map (fun d => u.toLower d.name)).Nodup →
        (∀ d ∈ nodes.flatten, m.find (u.toLower d.name) = none) →
        Tbl.get u (World.intfTable u nodes m) name =
          match nodes.flatten.find? (fun d => u.toLower d.name == u.toLower name) with
          | some d => some d
          | none => m.find (u.toLower name) := by
      intro nodes
      induction nodes with
      | nil => intro m _ _; rfl
      | cons ds nodes ih =>
        intro m hn hm
        rw [List.flatten_cons] at hn hm ⊢
        rw [List.map_append, List.nodup_append] at hn
        obtain ⟨n1, n2, n3⟩ := hn
        have hset : ∀ (ds : List (Decl ν)) (m : Tbl ν), (ds.map (fun d => u.toLower d.name)).Nodup →
            (∀ d ∈ ds, m.find (u.toLower d.name) = none) → ∀ k, (Tbl.set u m ds).1.find k =
              match ds.find? (fun d => u.toLower d.name == k) with
              | some d => some d
              | none => m.find k := by
          intro ds
          induction ds with
          | nil => intro m _ _ k; rfl
          | cons d ds ih2 =>
            intro m hn hm k
            rw [List.map_cons, List.nodup_cons] at hn
            simp only [Tbl.set, Tbl.regularize, hm d (by simp)]
            rw [ih2 _ hn.2, List.find?_cons]
            · by_cases hk : u.toLower d.name = k
              · have : ds.find? (fun d => u.toLower d.name == k) = none := by
                  rw [List.find?_eq_none]
                  intro x hx hxe
                  apply hn.1
                  rw [hk, ← beq_iff_eq.mp hxe]
                  exact List.mem_map_of_mem (f := fun d : Decl ν => u.toLower d.name) hx
                rw [this, Tbl.find_cons]; simp [hk]
              · have : (u.toLower d.name == k) = false := by simpa using hk
                rw [this, Tbl.find_cons, if_neg hk]
            · intro d' hd'
              rw [Tbl.find_cons, if_neg]
              · exact hm d' (by simp [hd'])
              · intro e; exact hn.1 (by rw [e]; exact List.mem_map_of_mem (f := fun d : Decl ν => u.toLower d.name) hd')
        have hm1 : ∀ d ∈ ds, m.find (u.toLower d.name) = none := fun d hd => hm d (by simp [hd])
        simp only [World.intfTable]
        rw [ih _ n2, List.find?_append]
        · have hs := hset ds m n1 hm1 (u.toLower name)
          cases h1 : ds.find? (fun d => u.toLower d.name == u.toLower name) with
          | none =>
            rw [hs, h1]; simp
          | some d =>
            have h2 : nodes.flatten.find? (fun d => u.toLower d.name == u.toLower name) = none := by
              rw [List.find?_eq_none]
              intro x hx hxe
              have hd := List.mem_of_find?_eq_some h1
              have hde := List.find?_some h1
              refine n3 _ (List.mem_map_of_mem (f := fun d : Decl ν => u.toLower d.name) hd) _
                (List.mem_map_of_mem (f := fun d : Decl ν => u.toLower d.name) hx) ?_
              rw [beq_iff_eq.mp hde, beq_iff_eq.mp hxe]
            rw [hs, h1, h2]; rfl
        · intro d hd
          rw [hset ds m n1 hm1]
          have h1 : ds.find? (fun d' => u.toLower d'.name == u.toLower d.name) = none := by
            rw [List.find?_eq_none]
            intro x hx hxe
            exact n3 _ (List.mem_map_of_mem (f := fun d : Decl ν => u.toLower d.name) hx) _
              (List.mem_map_of_mem (f := fun d : Decl ν => u.toLower d.name) hd) (beq_iff_eq.mp hxe)
          rw [h1]; exact hm d (by simp [hd])
    rw [key nodes [] hnd (fun _ _ => rfl)]
    cases nodes.flatten.find? (fun d => u.toLower d.name == u.toLower name) <;> rfl

end TP.Props

namespace TP.Props
open TP Spec Maps

/-- a unit parser before the implementation; `cur = 1`: the parser still has the context of the unit parser,
`cur = 2`: it has a clone (made by a rollback in the interface) -/
def exImpl (cur : Nat) : PCtx Nat :=
  ⟨⟨[.composite [1, 3], .chained 0 [], .impl [], .impl [], .embedded], [⟨r!"U", some 2⟩],
    [.unit 0 [] 4, .unit 0 [] 4, .program [] [0] 3]⟩, cur⟩

/-- The full claim is false after a rollback in the interface part (the parser then has a clone of the unit's
context): a declaration of the implementation is not visible through the unit name. -/
theorem C25_refuted : ∃ (p : PCtx Nat) (q : PCtx Nat) (um : Nat), implStart asciiUni p 1 0 [] = .ok (q, um) ∧
    (q.w.set asciiUni q.cur [⟨r!"x", 1⟩]).2 = .ok ∧
    ∃ m, (q.w.set asciiUni q.cur [⟨r!"x", 1⟩]).1.unitDm 0 = some m ∧
      (q.w.set asciiUni q.cur [⟨r!"x", 1⟩]).1.maps.get asciiUni m r!"x" = none :=
  ⟨exImpl 2, ⟨⟨[.composite [6, 5], .composite [6, 2], .impl [], .chained 4 [], .composite [1, 3], .chained 0 [], .impl [],
    .impl [], .embedded], [⟨r!"U", some 7⟩], [.unit 0 [] 4, .unit 0 [] 8, .program [] [0] 3]⟩, 2⟩, 2, by rfl, by decide, 7, by decide, by decide⟩

/-- non-vacuity of `C25_visible_partial` -/
example : (exImpl 1).cur < (exImpl 1).w.ctxs.length ∧ ∃ q um, implStart asciiUni (exImpl 1) 1 0 [] = .ok (q, um) ∧
    (q.w.set asciiUni q.cur [⟨r!"x", 1⟩]).2 = .ok :=
  ⟨by decide, ⟨⟨[.composite [6, 5], .composite [6, 2], .impl [], .chained 4 [], .composite [1, 3], .chained 0 [], .impl [],
    .impl [], .embedded], [⟨r!"U", some 7⟩], [.unit 0 [] 4, .unit 0 [] 8, .program [] [0] 3]⟩, 1⟩, 2, by rfl, by decide⟩

end TP.Props
