import Verif.Model.Expr

/-!
# Constructors of tree nodes with arguments of any type

`ast/astcore/ident.go`, `ast/unit.go`, `ast/uses_clause.go`, `ast/type_id.go`, `ast/directive.go`, `ast/function_heading.go`,
`ast/var.go`.  An argument of type `interface{}` is a value of `Val`; its constructors are the types that the type switches
tell apart.  A pointer is `none` (nil) or the value it points to, except for pointers to `ParameterType`, which are addresses in
a heap, because one constructor writes through such a pointer.  A panic is `none`.

Simplified: types and expressions are values of arbitrary types `τ`, `ε`, and `NewExpression`, to which `SetConstExpr` passes what is
no expression, is a parameter.
-/

namespace TP.Construct
open TP

/-- `ParameterType`, `ast/function_heading.go:168-171` -/
structure ParameterType (τ : Type) where
  type : Option τ
  isArray : Bool
  deriving DecidableEq, Repr

/-- `FormalParmOption`, `ast/function_heading.go:98-104`; any string can be converted to it -/
abbrev Opt := Str

/-- `TypeId` made by a constructor, `ast/type_id.go:12-17`, or another type -/
inductive Typ (τ : Type)
  | given (t : τ)
  | id (unit : Option Ident) (ident : Option Ident) (ref : Option Nat)
  deriving DecidableEq, Repr

/-- `Parameter`, `ast/function_heading.go:200-204`; the type is a pointer -/
structure Parameter (ε : Type) where
  idents : List (Option Ident)
  type : Option Nat
  const : Option ε
  deriving DecidableEq, Repr

/-- `FormalParm`, `ast/function_heading.go:106-109` -/
structure FormalParm (ε : Type) where
  opt : Option Opt
  param : Option (Parameter ε)
  deriving DecidableEq, Repr

/-- an argument of type `interface{}` -/
inductive Val (τ ε : Type)
  | nil
  | ident (i : Ident)
  | identP (i : Option Ident)
  | tok (t : Token)
  | tokP (t : Option Token)
  | str (s : Str)
  | strP (s : Option Str)
  | int (n : Int)
  | intP (n : Option Int)
  | strs (l : List Str)
  /-- `IdentList` or `[]*Ident` -/
  | idents (l : List (Option Ident))
  /-- `[]interface{}` -/
  | vals (l : List (Val τ ε))
  | type (t : τ)
  | ptype (p : ParameterType (Typ τ))
  | ptypeP (p : Option Nat)
  | expr (e : ε)
  | exprP (e : Option ε)
  | param (p : Parameter ε)
  | paramP (p : Option (Parameter ε))
  | opt (o : Opt)
  | optP (o : Option Opt)
  /-- `*astcore.Decl` -/
  | declP (d : Option Nat)
  | other

section
variable {τ ε : Type}

/-- `NewIdentFrom`, `ast/astcore/ident.go:44-57`; `NewIdent` of a nil token panics -/
def newIdentFrom : Val τ ε → Option (Option Ident)
  | .ident i => some (some i)
  | .identP i => some i
  | .tok t => some (some (Ident.ofTok t))
  | .tokP (some t) => some (some (Ident.ofTok t))
  | _ => none

/-- the loops `ast/astcore/ident.go:88-92, 98-102, 107-111` -/
def newIdents : List (Val τ ε) → Option (List (Option Ident))
  | [] => some []
  | v :: l =>
    match newIdentFrom v, newIdents l with
    | some i, some r => some (i :: r)
    | _, _ => none

/-- `NewIdentList`, `ast/astcore/ident.go:77-114` -/
def newIdentList : List (Val τ ε) → Option (List (Option Ident))
  | [] => none
  | [.idents l] => some l
  | [.vals l] => newIdents l
  | [.ident i] => some [some i]
  | [.identP i] => some [i]
  | [.strs l] => newIdents (l.map Val.str : List (Val τ ε))
  | [_] => none
  | args => newIdents args

/-- `NewUnitId`, `ast/unit.go:204-211` -/
def newUnitId : Val τ ε → Option (Option Ident)
  | .identP i => some i
  | v => newIdentFrom v

/-- `NewUnitRef`, `ast/uses_clause.go:67-88`: name and path -/
def newUnitRef (name : Val τ ε) (paths : List Str) : Option (Option Ident × Option Str) :=
  let i := match name with
    | .ident i => some (some i)
    | .identP i => some i
    | .str s => newIdentFrom (.str s : Val τ ε)
    | _ => none
  match i with
  | none => none
  | some i =>
    match paths with
    | [] => some (i, none)
    | [p] => some (i, some p)
    | _ => none

/-- `NewTypeId`, `ast/type_id.go:28-47` -/
def newTypeId (a : Val τ ε) (args : List (Val τ ε)) : Option (Typ τ) :=
  let r : Option Nat × List (Val τ ε) := match args.getLast? with
    | some (.declP d) => (d, args.dropLast)
    | _ => (none, args)
  match r.2 with
  | [] =>
    match newIdentFrom a with
    | some i => some (.id none i r.1)
    | none => none
  | [b] =>
    match newUnitId a, newIdentFrom b with
    | some q, some i => some (.id q i r.1)
    | _, _ => none
  | _ => none

/-- `ExternalOptions`, `ast/directive.go:34-38` -/
structure ExternalOptions where
  lib : Str
  name : Option Str
  index : Option Int
  deriving DecidableEq, Repr

/-- `NewExternalOptions`, `ast/directive.go:40-60` -/
def newExternalOptions (lib : Str) : List (Val τ ε) → Option ExternalOptions
  | [] => some ⟨lib, none, none⟩
  | [.str s] => some ⟨lib, some s, none⟩
  | [.strP s] => some ⟨lib, s, none⟩
  | [.int n] => some ⟨lib, none, some n⟩
  | [.intP n] => some ⟨lib, none, n⟩
  | _ => none

/-- `NewVarDeclAbsoluteIdent`, `ast/var.go:77-88` -/
def newVarDeclAbsoluteIdent : Val τ ε → Option Ident
  | .ident i => some i
  | .identP i => i
  | v =>
    match newIdentFrom v with
    | some (some i) => some i
    | _ => none

/-- the objects of type `ParameterType` -/
abbrev Heap (τ : Type) := List (ParameterType (Typ τ))

/-- a new object -/
def alloc (h : Heap τ) (p : ParameterType (Typ τ)) : Heap τ × Nat := (h ++ [p], h.length)

/-- `NewParameterType`, `ast/function_heading.go:179-193`.  A `*TypeId` is a `Type`. -/
def newParameterType (h : Heap τ) : Val τ ε → Option (Heap τ × Option Nat)
  | .nil => some ((alloc h ⟨none, false⟩).1, some (alloc h ⟨none, false⟩).2)
  | .ptypeP p => some (h, p)
  | .ptype p => some ((alloc h p).1, some (alloc h p).2)
  | .type t => some ((alloc h ⟨some (.given t), false⟩).1, some (alloc h ⟨some (.given t), false⟩).2)
  | v =>
    match newTypeId v [] with
    | some t => some ((alloc h ⟨some t, false⟩).1, some (alloc h ⟨some t, false⟩).2)
    | none => none

/-- `NewArrayParameterType`, `ast/function_heading.go:194-198`; writing through a nil pointer panics -/
def newArrayParameterType (h : Heap τ) (v : Val τ ε) : Option (Heap τ × Nat) :=
  match newParameterType h v with
  | some (h, some p) => some (h.modify p fun o => { o with isArray := true }, p)
  | _ => none

/-- `SetConstExpr`, `ast/function_heading.go:233-242`; `ne` is `NewExpression` -/
def constExpr (ne : Val τ ε → Option ε) : Val τ ε → Option (Option ε)
  | .exprP e => some e
  | .expr e => some (some e)
  | v => (ne v).map some

/-- `NewParameter`, `ast/function_heading.go:219-231` -/
def newParameter (ne : Val τ ε → Option ε) (h : Heap τ) (name typ : Val τ ε) (args : List (Val τ ε)) : Option (Heap τ × Parameter ε) :=
  let t := match typ with
    | .nil => some (h, none)
    | v => newParameterType h v
  match t, newIdentList [name] with
  | some (h, t), some l =>
    match args with
    | [] => some (h, ⟨l, t, none⟩)
    | [e] => (constExpr ne e).map fun e => (h, ⟨l, t, e⟩)
    | _ => none
  | _, _ => none

/-- the option of `NewFormalParm`, `ast/function_heading.go:131-147` -/
def formalParmOpt : Val τ ε → Option (Option Opt)
  | .opt o => some (some o)
  | .optP o => some o
  | .str s => if s = r!"VAR" ∨ s = r!"CONST" ∨ s = r!"OUT" then some (some s) else none
  | _ => some none

/-- `NewFormalParm`, `ast/function_heading.go:117-153` -/
def newFormalParm (ne : Val τ ε → Option ε) (h : Heap τ) (name : Val τ ε) : List (Val τ ε) → Option (Heap τ × FormalParm ε)
  | [] =>
    match name with
    | .param p => some (h, ⟨none, some p⟩)
    | .paramP p => some (h, ⟨none, p⟩)
    | _ => none
  | [t] => (newParameter ne h name t []).map fun r => (r.1, ⟨none, some r.2⟩)
  | [t, o] =>
    match formalParmOpt o with
    | none => none
    | some o => (newParameter ne h name t []).map fun r => (r.1, ⟨o, some r.2⟩)
  | _ => none

end

end TP.Construct
