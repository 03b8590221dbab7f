import Verif.Model.Expr
import Verif.Model.Context

/-!
# The context of the parser as seen by the expression parser

Instantiates `Env` with the declaration maps, units and contexts of `Verif/Model/Context.lean`.
-/

namespace TP

/-- The kinds of declared nodes that the expression parser distinguishes. -/
inductive NodeKind
  /-- `*ast.TypeDecl` -/
  | type
  /-- `*ast.UsesClauseItem`, `ast/uses_clause.go:21-28`, with the field `Unit` (`none` is nil) -/
  | uses (unit : Option Nat)
  /-- `*ast.Unit`, a `Namespace` (`ast/unit.go:56-58`) -/
  | unit (i : Nat)
  /-- `*ast.Program`, a `Namespace` (`ast/program.go:45-47`), with its field `DeclMap` (`none` is nil) -/
  | program (dm : Option Nat)
  | other
  deriving DecidableEq, Repr

/-- node types whose kinds are known -/
class Kinded (ν : Type) extends EmbNode ν where
  kind : ν → NodeKind

section
variable {ν : Type} [Kinded ν] (u : Uni)

/-- `namespace.GetDeclMap().Get(name)`, `parser/unit.go:81-84`; a nil map panics -/
def memberOf (w : World ν) (dm : Option Nat) (name : Str) : Member (Decl ν) :=
  match dm with
  | none => .panic
  | some i =>
    match w.maps.get u i name with
    | some d => .found d
    | none => .error

/-- The operations of the context used by the expression parser. -/
def worldEnv : Env (PCtx ν) (Decl ν) where
  get k name := k.w.get u k.cur name
  isType d := Kinded.kind d.node == .type
  isNamespace d :=
    match Kinded.kind d.node with
    | .unit _ => true
    | .program _ => true
    | _ => false
  isUses d :=
    match Kinded.kind d.node with
    | .uses _ => true
    | _ => false
  member k d name :=
    match Kinded.kind d.node with
    -- `parser/unit.go:69-74`
    | .uses none => .error
    | .uses (some i) => memberOf u k.w (k.w.unitDm i) name
    -- `parser/unit.go:75-76`
    | .unit i => memberOf u k.w (k.w.unitDm i) name
    | .program dm => memberOf u k.w dm name
    -- `parser/unit.go:77-79`
    | _ => .error
  rollback k :=
    match k.w.clone k.cur with
    | some (w', c') => ⟨w', c'⟩
    | none => k

end

end TP
