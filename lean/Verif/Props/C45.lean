import Verif.Lemmas.Context

/-!
# C45: a cloned context answers like its original
-/

namespace TP.Props
open TP

section
variable {ν : Type} [EmbNode ν] (u : Uni)

/-- not a `StackableContext` -/
def Plain : CtxObj → Prop
  | .stackable _ _ _ => False
  | _ => True

theorem get_of_obj (m : Maps ν) (cs : Ctxs) (c : Nat) (o : CtxObj) (h : cs.obj c = some o) (hp : Plain o) (name : Str) :
    Ctxs.get u m cs c name = m.get u o.dm name := by
  induction cs with
  | nil => cases h
  | cons a cs ih =>
    simp only [Ctxs.obj] at h
    unfold Ctxs.get
    split at h
    · rename_i e
      injection h with h; subst h
      rw [if_pos e]
      cases a with
      | program p us d => rfl
      | unit p q d => rfl
      | stackable p q d => exact hp.elim
    · rename_i e
      rw [if_neg e]; exact ih h

/-- the field `Path` -/
def pathOf : CtxObj → Str
  | .program p _ _ => p
  | .unit _ p _ => p
  | .stackable _ _ _ => []

theorem path_of_obj (cs : Ctxs) (c : Nat) (o : CtxObj) (h : cs.obj c = some o) (hp : Plain o) :
    cs.getPath c = pathOf o := by
  induction cs with
  | nil => cases h
  | cons a cs ih =>
    simp only [Ctxs.obj] at h
    unfold Ctxs.getPath
    split at h
    · rename_i e
      injection h with h; subst h
      rw [if_pos e]
      cases a with
      | program p us d => rfl
      | unit p q d => rfl
      | stackable p q d => exact hp.elim
    · rename_i e
      rw [if_neg e]; exact ih h

/-- For program and unit contexts: the clone is a new context with the same answers and the same path.  Missing for
the full claim: stackable contexts, see `C45_refuted`. -/
theorem C45_partial (w : World ν) (c : Nat) (o : CtxObj) (ho : w.ctxs.obj c = some o) (hp : Plain o) :
    ∃ w' c', w.clone c = some (w', c') ∧ c' ≠ c ∧ (∀ name, w'.get u c' name = w.get u c name) ∧
      w'.ctxs.getPath c' = w.ctxs.getPath c ∧
      -- nothing else changes
      ∀ i < w.ctxs.length, ∀ name, w'.get u i name = w.get u i name := by
  refine ⟨{ w with ctxs := o.clone :: w.ctxs }, w.ctxs.length, by unfold World.clone; rw [ho], ?_, ?_, ?_, ?_⟩
  · exact Nat.ne_of_gt (Ctxs.obj_lt ho)
  · intro name
    have h1 : Ctxs.obj (o.clone :: w.ctxs) w.ctxs.length = some o.clone := by simp [Ctxs.obj]
    have hpc : Plain o.clone := by cases o with | stackable p q d => exact hp.elim | _ => trivial
    have hdm : o.clone.dm = o.dm := by cases o <;> rfl
    show Ctxs.get u w.maps (o.clone :: w.ctxs) w.ctxs.length name = Ctxs.get u w.maps w.ctxs c name
    rw [get_of_obj u _ _ _ _ h1 hpc, get_of_obj u _ _ _ _ ho hp, hdm]
  · have h1 : Ctxs.obj (o.clone :: w.ctxs) w.ctxs.length = some o.clone := by simp [Ctxs.obj]
    have hpc : Plain o.clone := by cases o with | stackable p q d => exact hp.elim | _ => trivial
    show Ctxs.getPath (o.clone :: w.ctxs) w.ctxs.length = Ctxs.getPath w.ctxs c
    rw [path_of_obj _ _ _ h1 hpc, path_of_obj _ _ _ ho hp]
    cases o with
    | stackable p q d => exact hp.elim
    | program p us d => rfl
    | unit p q d => rfl
  · intro i hi name
    exact Ctxs.get_cons_lt u _ hi name

end

/-- a program context with one declaration and a stackable context on top of it -/
def stackWorld : World Bool where
  maps := [.impl [], .impl [(r!"x", ⟨r!"X", false⟩)]]
  units := []
  ctxs := [.stackable none 0 1, .program r!"p.dpr" [] 0]

instance : EmbNode Bool := ⟨fun _ _ => true⟩

/-- The clone of a stackable context neither knows the declarations of the enclosing context nor the path. -/
theorem C45_refuted : ∃ (w : World Bool) (c : Nat) (w' : World Bool) (c' : Nat), w.clone c = some (w', c') ∧
    w.get asciiUni c r!"X" = some ⟨r!"X", false⟩ ∧ w'.get asciiUni c' r!"X" = none ∧
    w.ctxs.getPath c = r!"p.dpr" ∧ w'.ctxs.getPath c' = [] :=
  ⟨stackWorld, 1, _, 2, rfl, by decide, by decide, by decide, by decide⟩

example : ∃ o, stackWorld.ctxs.obj 0 = some o ∧ Plain o := ⟨_, rfl, trivial⟩

end TP.Props
