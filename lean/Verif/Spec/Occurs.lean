import Verif.Model.DeclEnv

/-!
# The contexts that occur while a section is parsed
-/

namespace TP.Spec

/-- `Occurs u k0 k`: what the parser does to its context can lead from `k0` to `k`. -/
inductive Occurs (u : Uni) (k0 : DS) : DS → Prop
  | start : Occurs u k0 k0
  | rollback {k : DS} : Occurs u k0 k → Occurs u k0 k.rollback
  | set {k k' : DS} {is : List Ident} {kind : DKind (Decl Node)} : Occurs u k0 k → k.set u is kind = .ok k' → Occurs u k0 k'
  | complete {k k' : DS} {old : Decl Node} {i : Ident} {ty : PType (Decl Node)} : Occurs u k0 k →
    k.complete u old i ty = .ok k' → Occurs u k0 k'
  | newRef {k : DS} {name : Str} : Occurs u k0 k → k.get u name = none → Occurs u k0 (k.newRef name).1
  | stack {k : DS} : Occurs u k0 k → Occurs u k0 k.stack
  | restore {k k' : DS} : Occurs u k0 k → Occurs u k0 k' → Occurs u k0 (k.restore k')

end TP.Spec
