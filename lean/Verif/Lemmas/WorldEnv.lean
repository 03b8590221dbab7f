import Verif.Model.WorldEnv
import Verif.Spec.Expr
import Verif.Props.C45

/-!
# The contexts of the parser survive a rollback of an expression
-/

namespace TP
open Spec Props

variable {ν : Type} [Kinded ν] (u : Uni)

/-- the current context is a program or unit context (the parser never makes another one) -/
def PlainCtx (k : PCtx ν) : Prop := ∃ o, k.w.ctxs.obj k.cur = some o ∧ Plain o

theorem rollback_plain (k : PCtx ν) (h : PlainCtx k) :
    PlainCtx ((worldEnv u).rollback k) ∧ ((worldEnv u).rollback k).w.maps = k.w.maps ∧
    ((worldEnv u).rollback k).w.units = k.w.units ∧
    ∀ name, (worldEnv u).get ((worldEnv u).rollback k) name = (worldEnv u).get k name := by
  obtain ⟨o, ho, hp⟩ := h
  have hc : k.w.clone k.cur = some ({ k.w with ctxs := o.clone :: k.w.ctxs }, k.w.ctxs.length) := by
    unfold World.clone; rw [ho]
  have hr : (worldEnv u).rollback k = ⟨{ k.w with ctxs := o.clone :: k.w.ctxs }, k.w.ctxs.length⟩ := by
    show (match k.w.clone k.cur with | some (w', c') => (⟨w', c'⟩ : PCtx ν) | none => k) = _
    rw [hc]
  obtain ⟨w', c', h1, -, h2, -⟩ := C45_partial u k.w k.cur o ho hp
  rw [hc] at h1
  injection h1 with h1
  injection h1 with h1 h1'
  subst h1 h1'
  rw [hr]
  refine ⟨⟨o.clone, by simp [Ctxs.obj], ?_⟩, rfl, rfl, h2⟩
  cases o with
  | stackable p q d => exact hp.elim
  | program p us d => trivial
  | unit p q d => trivial

theorem lawful_world (k0 : PCtx ν) (h0 : PlainCtx k0) : Lawful (worldEnv u) k0 := by
  have key : ∀ k k' : PCtx ν, Rolls (worldEnv u) k k' → PlainCtx k →
      k'.w.maps = k.w.maps ∧ k'.w.units = k.w.units ∧
      ∀ name, (worldEnv u).get k' name = (worldEnv u).get k name := by
    intro k k' hr
    induction hr with
    | refl => exact fun _ => ⟨rfl, rfl, fun _ => rfl⟩
    | step _ ih =>
      intro hp
      obtain ⟨h1, h2, h3, h4⟩ := rollback_plain u _ hp
      obtain ⟨i1, i2, i3⟩ := ih h1
      exact ⟨i1.trans h2, i2.trans h3, fun n => (i3 n).trans (h4 n)⟩
  constructor
  · intro k hk name; exact (key k0 k hk h0).2.2 name
  · intro k hk d name
    obtain ⟨h1, h2, -⟩ := key k0 k hk h0
    simp only [worldEnv, memberOf, World.unitDm, h1, h2]

end TP
