import Verif.Props.C22

/-!
# C23  Parameters and locals do not leak out of a routine

False when a rollback happens while the routine is parsed: the rollback replaces the context of the parser by a
clone, and the deferred restore acts on the context object that is no longer used.
-/

namespace TP.Props
open TP Spec Maps
variable {ν : Type} [EmbNode ν] (u : Uni)

/-- parser histories without rollback as histories on the context of the parser -/
def toCmd (c : Nat) : PCmd ν → Cmd ν
  | .nop => .nop
  | .set ds => .set c ds
  | .overwrite n d => .overwrite c n d
  | .seq a b => .seq (toCmd c a) (toCmd c b)
  | .scope b => .scope c (toCmd c b)
  | .keep b => .seq (.clone c) (toCmd c b)
  | .back _ => .nop

omit [EmbNode ν] in
theorem run_toCmd (cmd : PCmd ν) (hnb : cmd.NoBack) (p : PCtx ν) :
    cmd.run u p = (⟨((toCmd p.cur cmd).run u p.w).1, p.cur⟩, ((toCmd p.cur cmd).run u p.w).2) := by
  induction cmd generalizing p with
  | nop => rfl
  | set ds => rfl
  | overwrite n d => rfl
  | seq a b iha ihb =>
    simp only [PCmd.run, toCmd, Cmd.run]
    rw [iha hnb.1 p]
    cases hr : (toCmd p.cur a).run u p.w with
    | mk w1 out =>
      cases out with
      | ok => simp only; rw [ihb hnb.2]
      | err => rfl
      | panic => rfl
  | scope b ih =>
    simp only [PCmd.run, toCmd, Cmd.run]
    cases hs : p.w.stack p.cur with
    | none => rfl
    | some r => obtain ⟨w1, bak⟩ := r; simp only; rw [ih hnb]
  | keep b ih =>
    simp only [PCmd.run, toCmd, Cmd.run]
    cases hs : p.w.clone p.cur with
    | none => rfl
    | some r => obtain ⟨w1, k⟩ := r; simp only; rw [ih hnb]
  | back b => exact absurd hnb (by simp [PCmd.NoBack])

omit [EmbNode ν] in
theorem within_toCmd (c n : Nat) (cmd : PCmd ν) : (toCmd c cmd).Within c n := by
  induction cmd with
  | nop => trivial
  | set ds => exact Or.inl rfl
  | overwrite n d => exact Or.inl rfl
  | seq a b iha ihb => exact ⟨iha, ihb⟩
  | scope b ih => exact ⟨Or.inl rfl, ih⟩
  | keep b ih => exact ⟨Or.inl rfl, ih⟩
  | back b => trivial

/-- A routine (scope) in which no rollback happens leaves the parser with the context it had, and every name
resolves as before.  (Missing for the full claim: rollbacks, for which it is false.) -/
theorem C23_partial (p : PCtx ν) (hw : p.w.WF) (body : PCmd ν) (hnb : body.NoBack) (hc : p.cur < p.w.ctxs.length) :
    ((PCmd.scope body).run u p).1.cur = p.cur ∧
      ∀ name, ((PCmd.scope body).run u p).1.w.get u p.cur name = p.w.get u p.cur name := by
  rw [run_toCmd u (.scope body) hnb]
  refine ⟨rfl, fun name => ?_⟩
  exact (C22_scope u p.w hw p.cur (toCmd p.cur body) (within_toCmd _ _ body)).1 p.cur hc name

/-- The full claim is false, for every parser whose context is a program or unit context: declare parameters in a
scope and roll back anything afterwards; when the scope is left, the context of the parser still resolves the
parameters (and a later declaration of such a name in the enclosing scope collides). -/
theorem C23_refuted (p : PCtx ν) (hw : p.w.WF) (o : CtxObj) (ho : p.w.ctxs.obj p.cur = some o)
    (hns : ∀ a b c, o ≠ .stackable a b c) (ds : List (Decl ν))
    (hnd : (ds.map (fun d => u.toLower d.name)).Nodup) (d : Decl ν) (hd : d ∈ ds) :
    let p' := ((PCmd.scope (.seq (.set ds) (.back .nop))).run u p).1
    p'.w.get u p'.cur d.name = some d ∧ (p'.w.set u p'.cur [d]).2 = .err := by
  obtain ⟨w1, hs, h1, h2, _⟩ := C22_inner u p.w hw p.cur o ho hns ds
  have hok := h1 hnd
  have hdm1 : w1.ctxs.obj p.cur = some (o.withDm p.w.maps.length) ∧ w1.maps.length = p.w.maps.length + 1 ∧
      target w1.maps p.w.maps.length = some p.w.maps.length := by
    have hdm : p.w.dm p.cur = some o.dm := World.dm_eq.mpr ⟨_, ho, rfl⟩
    simp only [World.stack, hdm, Option.some.injEq, Prod.mk.injEq, and_true] at hs
    rw [← hs]
    simp [World.setDm, World.newMap, Ctxs.obj_modify, ho, target]
  obtain ⟨hobj, _, htg⟩ := hdm1
  -- after the declarations
  have hr2 : w1.set u p.cur ds = ((w1.set u p.cur ds).1, .ok) := by rw [← hok]
  have hctx2 : (w1.set u p.cur ds).1.ctxs = w1.ctxs := by
    rcases World.set_cases u w1 p.cur ds with e | ⟨_, _, _, _, _, e⟩ <;> rw [e]
  generalize hw2 : (w1.set u p.cur ds).1 = w2 at hr2 hctx2 h2
  have hobj2 : w2.ctxs.obj p.cur = some (o.withDm p.w.maps.length) := by rw [hctx2]; exact hobj
  have hcl : (o.withDm p.w.maps.length).clone.dm = p.w.maps.length := by cases o <;> rfl
  have hdm0 : (o.withDm p.w.maps.length).dm = p.w.maps.length := by cases o <;> rfl
  have hns1 : ∀ a b c, (o.withDm p.w.maps.length) ≠ .stackable a b c := by
    intro a b c; cases o <;> simp_all [CtxObj.withDm]
  have hns2 : ∀ a b c, (o.withDm p.w.maps.length).clone ≠ .stackable a b c := by
    intro a b c; cases o <;> simp_all [CtxObj.withDm, CtxObj.clone]
  have hrun : ((PCmd.scope (.seq (.set ds) (.back .nop))).run u p).1 =
      ⟨({ w2 with ctxs := (o.withDm p.w.maps.length).clone :: w2.ctxs } : World ν).restore p.cur o.dm, w2.ctxs.length⟩ := by
    simp only [PCmd.run, hs, hr2, World.clone, hobj2]
  rw [hrun]
  have hlt : p.cur < w2.ctxs.length := Ctxs.obj_lt hobj2
  have hobj3 : (({ w2 with ctxs := (o.withDm p.w.maps.length).clone :: w2.ctxs } : World ν).restore p.cur o.dm).ctxs.obj
      w2.ctxs.length = some (o.withDm p.w.maps.length).clone := by
    simp only [World.restore, World.setDm, Ctxs.obj_modify]
    rw [if_neg (by omega)]
    simp [Ctxs.obj]
  have hget : w2.maps.get u p.w.maps.length d.name = some d := by
    have := h2 hok d hd d.name rfl
    unfold World.get at this
    rw [ctx_get_dm u _ _ _ _ hobj2 hns1, hdm0] at this
    exact this
  refine ⟨?_, ?_⟩
  · show Ctxs.get u _ _ _ _ = _
    rw [ctx_get_dm u _ _ _ _ hobj3 hns2, hcl]
    exact hget
  · have hdm3 : (({ w2 with ctxs := (o.withDm p.w.maps.length).clone :: w2.ctxs } : World ν).restore p.cur o.dm).dm
        w2.ctxs.length = some p.w.maps.length := World.dm_eq.mpr ⟨_, hobj3, hcl⟩
    unfold World.set
    rw [hdm3]
    simp only
    show (Maps.set u w2.maps p.w.maps.length [d]).2 = .err
    have htg2 : target w2.maps p.w.maps.length = some p.w.maps.length := by
      have : Grow w1.maps w2.maps := by
        rw [← hw2]
        rcases World.set_cases u w1 p.cur ds with e | ⟨_, _, _, _, _, e⟩ <;> rw [e]
        · exact Grow.refl _
        · exact Grow.upd _ _ _
      rw [this.2 _ (target_lt htg), htg]
    have h3 := set_eq u w2.maps p.w.maps.length [d]
    rw [htg2] at h3
    rw [h3]
    have hown : Tbl.find (tbl w2.maps p.w.maps.length) (u.toLower d.name) = some d := by
      have hall : own u w2.maps p.w.maps.length d.name = some d := by
        obtain ⟨l, hl⟩ := layers_target htg2
        have hs1 := set_eq u w1.maps p.w.maps.length ds
        rw [htg] at hs1
        have hm2 : w2.maps = (w1.maps.set u p.w.maps.length ds).1 := by
          have hdm1 : w1.dm p.cur = some p.w.maps.length := World.dm_eq.mpr ⟨_, hobj, hdm0⟩
          rw [← hw2]; unfold World.set; rw [hdm1]
        have hok' : (w1.maps.set u p.w.maps.length ds).2 = .ok := by
          have hdm1 : w1.dm p.cur = some p.w.maps.length := World.dm_eq.mpr ⟨_, hobj, hdm0⟩
          rw [← hok]; unfold World.set; rw [hdm1]
        rw [hm2, hs1, own_upd_target u htg]
        rw [hs1] at hok'
        obtain ⟨pre, post, e1, e2, _, e4, e5, _⟩ := Tbl.set_spec u ds (tbl w1.maps p.w.maps.length) _ _ rfl
        have hb : (Tbl.set u (tbl w1.maps p.w.maps.length) ds).2 = true := by
          cases hb : (Tbl.set u (tbl w1.maps p.w.maps.length) ds).2 with
          | true => rfl
          | false => rw [hb] at hok'; cases hok'
        have := e5 hb
        subst this
        rw [List.append_nil] at e1; subst e1
        rw [Tbl.get, Tbl.regularize, e2, find_decl u e4 hd]; rfl
      rw [own_target u htg2] at hall
      exact hall
    simp [Tbl.set, Tbl.regularize, hown]

/-- non-vacuity of `C23_refuted`: the parameter `a` of a procedure with a parameter of a custom type. -/
example : let p : PCtx Nat := ⟨⟨[.chained 0 [], .embedded], [], [.program [] [] 1]⟩, 0⟩
    let p' := ((PCmd.scope (.seq (.set [⟨r!"a", 2⟩]) (.back .nop))).run asciiUni p).1
    p.w.get asciiUni p.cur r!"a" = none ∧ p'.w.get asciiUni p'.cur r!"a" = some ⟨r!"a", 2⟩ := by
  refine ⟨by decide, by decide⟩

/-- non-vacuity of `C23_partial` -/
example : (PCmd.seq (.set [⟨r!"a", 2⟩]) (.keep (.scope .nop)) : PCmd Nat).NoBack :=
  ⟨trivial, trivial⟩

end TP.Props
