import Verif.Model.Ext

/-!
# C17  Swapping the logger is undone by its restore function
-/

namespace TP.Props
open TP

/-- Calls made by a program: `set l` calls SetLogger and keeps the returned function, `undo` calls the function
returned by the latest SetLogger that has not been undone, `print` writes a message. -/
inductive LogOp
  | set (l : Nat)
  | undo
  | print (m : Nat)

/-- State: the active logger, the restore functions not called yet (latest first; each is given by the value it
captured), and the messages written so far with the logger that got them. -/
structure LogState where
  cur : Nat
  pending : List Nat
  out : List (Nat × Nat)

def LogOp.run (s : LogState) : LogOp → LogState
  | .set l => { s with cur := (Log.setLogger s.cur l).1, pending := (Log.setLogger s.cur l).2 :: s.pending }
  | .undo =>
    match s.pending with
    | [] => s
    | b :: bs => { s with cur := Log.restore s.cur b, pending := bs }
  | .print m => { s with out := s.out ++ [(s.cur, m)] }

def runLog (s : LogState) (ops : List LogOp) : LogState := ops.foldl LogOp.run s

/-- properly nested histories -/
inductive Nested : List LogOp → Prop
  | nil : Nested []
  | print (m : Nat) : Nested [.print m]
  | append {a b : List LogOp} : Nested a → Nested b → Nested (a ++ b)
  | scope (l : Nat) {a : List LogOp} : Nested a → Nested (.set l :: a ++ [.undo])

theorem runLog_append (s : LogState) (a b : List LogOp) : runLog s (a ++ b) = runLog (runLog s a) b := by
  simp [runLog, List.foldl_append]

/-- A properly nested history leaves the active logger and the outstanding restore functions as they were. -/
theorem C17_nested (ops : List LogOp) (h : Nested ops) (s : LogState) :
    (runLog s ops).cur = s.cur ∧ (runLog s ops).pending = s.pending := by
  induction h generalizing s with
  | nil => exact ⟨rfl, rfl⟩
  | print m => exact ⟨rfl, rfl⟩
  | append _ _ iha ihb =>
    rw [runLog_append]
    exact ⟨(ihb _).1.trans (iha s).1, (ihb _).2.trans (iha s).2⟩
  | scope l ha ih =>
    rename_i a
    have e : LogOp.set l :: a ++ [LogOp.undo] = [LogOp.set l] ++ a ++ [LogOp.undo] := rfl
    rw [e, runLog_append, runLog_append]
    obtain ⟨h1, h2⟩ := ih (runLog s [LogOp.set l])
    have h3 : (runLog s [LogOp.set l]).pending = s.cur :: s.pending := rfl
    rw [h3] at h2
    generalize runLog (runLog s [LogOp.set l]) a = s2 at h1 h2
    obtain ⟨cur, pending, out⟩ := s2
    simp only at h2
    subst h2
    exact ⟨rfl, rfl⟩

/-- Inside a scope the new logger is active: after `set l` and any nested history, a message goes to `l`; after
the matching restore the next message goes to the logger that was active before. -/
theorem C17_scope (l m m' : Nat) (ops : List LogOp) (h : Nested ops) (s : LogState) :
    (runLog s (.set l :: ops ++ [.print m])).out.getLast? = some (l, m) ∧
    (runLog s (.set l :: ops ++ [.undo] ++ [.print m'])).out.getLast? = some (s.cur, m') := by
  have hp : ∀ (x : LogState) (k : Nat), (runLog x [.print k]).out.getLast? = some (x.cur, k) := by
    intro x k; simp [runLog, LogOp.run]
  constructor
  · rw [runLog_append, hp]
    have e : LogOp.set l :: ops = [LogOp.set l] ++ ops := rfl
    rw [e, runLog_append, (C17_nested ops h _).1]; rfl
  · rw [runLog_append, hp, (C17_nested _ (.scope l h) s).1]

/-- non-vacuity: two scopes inside each other. -/
example : Nested [.set 1, .print 7, .set 2, .print 8, .undo, .undo] :=
  .scope 1 (.append (.print 7) (.scope 2 (.print 8)))

end TP.Props
