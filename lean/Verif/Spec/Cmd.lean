import Verif.Model.Context

/-!
# Histories of scope operations

`Cmd` is the language of all properly nested histories of calls on contexts: declarations, clones, and
`scope c body` for `defer c.StackDeclMap()(); body`.  A failing call ends the history (the parser returns the error)
but the deferred restore functions run.
-/

namespace TP.Spec
open TP

inductive Cmd (ν : Type)
  | nop
  | set (c : Nat) (ds : List (Decl ν))
  | overwrite (c : Nat) (name : Str) (d : Decl ν)
  | clone (c : Nat)
  | seq (a b : Cmd ν)
  | scope (c : Nat) (body : Cmd ν)

namespace Cmd
variable {ν : Type}

def run (u : Uni) : Cmd ν → World ν → World ν × Outcome
  | nop, w => (w, .ok)
  | set c ds, w => w.set u c ds
  | overwrite c name d, w => w.overwrite u c name d
  | clone c, w =>
    match w.clone c with
    | none => (w, .panic)
    | some r => (r.1, .ok)
  | seq a b, w =>
    match run u a w with
    | (w1, .ok) => run u b w1
    | r => r
  | scope c body, w =>
    match w.stack c with
    | none => (w, .panic)
    | some (w1, backup) => let r := run u body w1; (r.1.restore c backup, r.2)

/-- the history uses only context `c` and contexts made later (number `n` or higher) -/
def Within (c n : Nat) : Cmd ν → Prop
  | nop => True
  | set c' _ => c' = c ∨ n ≤ c'
  | overwrite c' _ _ => c' = c ∨ n ≤ c'
  | clone c' => c' = c ∨ n ≤ c'
  | seq a b => Within c n a ∧ Within c n b
  | scope c' body => (c' = c ∨ n ≤ c') ∧ Within c n body

end Cmd

/-- the same for a parser: calls go to the context of the parser; `keep body` is a `RollbackPoint` whose rollback
is not used, `back body` is a `RollbackPoint`, then `body`, then the rollback. -/
inductive PCmd (ν : Type)
  | nop
  | set (ds : List (Decl ν))
  | overwrite (name : Str) (d : Decl ν)
  | seq (a b : PCmd ν)
  | scope (body : PCmd ν)
  | keep (body : PCmd ν)
  | back (body : PCmd ν)

namespace PCmd
variable {ν : Type}

/-- `parser/base.go:29-38` for the context; `parser/function.go:14` for `scope`. -/
def run (u : Uni) : PCmd ν → PCtx ν → PCtx ν × Outcome
  | nop, p => (p, .ok)
  | set ds, p => let r := p.w.set u p.cur ds; (⟨r.1, p.cur⟩, r.2)
  | overwrite name d, p => let r := p.w.overwrite u p.cur name d; (⟨r.1, p.cur⟩, r.2)
  | seq a b, p =>
    match run u a p with
    | (p1, .ok) => run u b p1
    | r => r
  | scope body, p =>
    match p.w.stack p.cur with
    | none => (p, .panic)
    | some (w1, backup) =>
      let r := run u body ⟨w1, p.cur⟩
      (⟨r.1.w.restore p.cur backup, r.1.cur⟩, r.2)
  | keep body, p =>
    match p.w.clone p.cur with
    | none => (p, .panic)
    | some (w1, _) => run u body ⟨w1, p.cur⟩
  | back body, p =>
    match p.w.clone p.cur with
    | none => (p, .panic)
    | some (w1, k) => let r := run u body ⟨w1, p.cur⟩; (⟨r.1.w, k⟩, .ok)

/-- no rollback happens -/
def NoBack : PCmd ν → Prop
  | nop => True
  | set _ => True
  | overwrite _ _ => True
  | seq a b => NoBack a ∧ NoBack b
  | scope b => NoBack b
  | keep b => NoBack b
  | back _ => False

end PCmd
end TP.Spec
