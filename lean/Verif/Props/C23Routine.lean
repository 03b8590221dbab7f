import Verif.Lemmas.Routine
import Verif.Props.C23
import Verif.Props.C47

/-!
# C23  Parameters and locals do not leak out of a routine (as parsed)

The statement of `Verif/Props/C23.lean` for the parser of routines itself.
-/

namespace TP.Props
open TP Spec Maps

variable (u : Uni)

/-- After a routine has been parsed (heading, nested declarations, nested routines and body, whatever they are and
whatever attempts were abandoned) every declaration map and every context there was before it answers as before.  So if the
parser has the context it had, all names resolve as before.  What is missing: after an abandoned attempt within the routine
the parser has another context, for which it is false. -/
theorem C23_routine_partial (n : Nat) (s s' : PS DS) (hr : Rooted s.cx) (hw : s.cx.w.WF) (f : DeclSect (Decl Node))
    (h : parseFunc u (declEnv u) n s = .ok f s') :
    (∀ j < s.cx.w.maps.length, ∀ name, s'.cx.w.maps.get u j name = s.cx.w.maps.get u j name) ∧
    (∀ i < s.cx.w.ctxs.length, ∀ name, s'.cx.w.get u i name = s.cx.w.get u i name) ∧
    (s'.cx.cur = s.cx.cur → ∀ name, s'.cx.get u name = s.cx.get u name) := by
  have g := func_untouched hr h
  have hc : s.cx.cur < s.cx.w.ctxs.length := by obtain ⟨o, t, h1, -⟩ := hr; exact Ctxs.obj_lt h1
  refine ⟨g.map, fun i hi name => g.get hw hi name, fun e name => ?_⟩
  unfold DS.get
  rw [e]
  exact g.get hw hc name

/-- The same for the heading of a routine in the interface part of a unit. -/
theorem C23_heading_partial (n : Nat) (s s' : PS DS) (hr : Rooted s.cx) (hw : s.cx.w.WF) (f : Heading (Decl Node) × RoutineOpts)
    (h : parseExportedHeading u (declEnv u) n s = .ok f s') :
    (∀ j < s.cx.w.maps.length, ∀ name, s'.cx.w.maps.get u j name = s.cx.w.maps.get u j name) ∧
    (∀ i < s.cx.w.ctxs.length, ∀ name, s'.cx.w.get u i name = s.cx.w.get u i name) ∧
    (s'.cx.cur = s.cx.cur → ∀ name, s'.cx.get u name = s.cx.get u name) := by
  have g := exportedHeading_untouched hr h
  have hc : s.cx.cur < s.cx.w.ctxs.length := by obtain ⟨o, t, h1, -⟩ := hr; exact Ctxs.obj_lt h1
  refine ⟨g.map, fun i hi name => g.get hw hi name, fun e name => ?_⟩
  unfold DS.get
  rw [e]
  exact g.get hw hc name

/-! ## Examples -/

/-- whether there is a result -/
def accepted {κ α : Type} : R (PS κ) α → Bool
  | .ok _ _ => true
  | _ => false

/-- whether there is an error -/
def rejected {κ α : Type} : R (PS κ) α → Bool
  | .err => true
  | _ => false

/-- As a program text: the name of a parameter cannot be declared after the routine if the type of the parameter is not a
built-in one (`TFoo` is looked up twice, with an abandoned attempt in between). -/
theorem C23_refuted_text :
    rejected (exBlock r!"procedure Foo(y: TFoo); begin z := 1; end; var y: Integer; begin z := 1; end.") = true ∧
    accepted (exBlock r!"procedure Foo(y: Integer); begin z := 1; end; var y: Integer; begin z := 1; end.") = true := by
  refine ⟨?_, ?_⟩ <;> krfl

/-- a new parser satisfies the assumptions -/
theorem rooted_init (path : Str) : Rooted (DS.init path) ∧ (DS.init path).w.WF := by
  refine ⟨⟨.program path [] 1, 1, rfl, fun _ _ _ h => (by cases h), rfl⟩, ?_⟩
  intro c o h
  simp only [DS.init, Ctxs.obj] at h
  split at h
  · cases h; show 1 < 2; omega
  · cases h

/-- a routine after which the parser has the context it had, and one after which it has not -/
def exRoutine (text : Str) : Option Nat :=
  match parseFunc asciiUni (declEnv asciiUni) 400 (exText text) with
  | .ok _ s => some s.cx.cur
  | _ => none

example : exRoutine r!"procedure Foo(y: Integer); var z: Integer; begin z := y; end;" = some 0 := by krfl
example : exRoutine r!"procedure Foo(y: TFoo); var z: Integer; begin z := y; end;" = some 1 := by krfl

end TP.Props
