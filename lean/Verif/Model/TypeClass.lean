import Verif.Model.DeclMap

/-!
# Model of the classification of types, `ast/type_id.go`, `type_embedded.go`, `type_simple.go`, `type_struc.go`, ...

A type satisfies a Go interface by its method set; a type assertion that fails gives `false`.  `SetType` and
`FileType` embed another type, so its methods (and interfaces) are theirs too.  Type declarations are referred to by
number.
-/

namespace TP

/-- The classification methods: `IsSimpleType`, `IsOrdinalType`, `IsRealType`, `IsOrdIdent`, `IsStringType`,
`IsPointerType`, `IsVariantType`. -/
inductive Cls
  | simple | ordinal | real | ordIdent | string | pointer | variant
  deriving DecidableEq, Repr

/-- The types, as far as classification is concerned. -/
inductive Ty
  /-- `TypeEmbedded` -/
  | embedded (k : EmbKind)
  /-- `EnumeratedType` -/
  | enum
  /-- `*SubrangeType` -/
  | subrange
  /-- `*FixedStringType` -/
  | fixedString
  /-- `*CustomPointerType` -/
  | pointer
  /-- `*SetType` with its element type -/
  | set (elem : Ty)
  /-- `*FileType` with the declaration its element type refers to -/
  | file (ref : Option Nat)
  /-- `*TypeId` with the declaration it refers to (`none`: no `Ref`, or not a `TypeDecl`) -/
  | typeId (ref : Option Nat)
  /-- arrays, records, procedure types, class types, class references, interfaces -/
  | other
  deriving DecidableEq, Repr

/-- the methods of `TypeEmbedded`, `ast/type_embedded.go:57-82` -/
def EmbKind.is (k : EmbKind) : Cls → Bool
  | .simple => k == .real || k == .ordIdent
  | .ordinal => k == .ordIdent
  | .real => k == .real
  | .ordIdent => k == .ordIdent
  | .string => k == .string
  | .pointer => k == .pointer
  | .variant => k == .variant

/-- The classification method of the type, or `false` if the type does not have it (the type assertion of the caller
fails).  `ref`s are followed as in `ast/type_id.go:58-155`.  `none`: has not returned yet. -/
def Ty.is (types : Nat → Ty) (c : Cls) : Nat → Ty → Option Bool
  | 0, _ => none
  | fuel + 1, t =>
    match t with
    | .embedded k => some (k.is c)
    -- `ast/type_simple.go:123-125, 165-167`
    | .enum => some (c == .simple || c == .ordinal)
    | .subrange => some (c == .simple || c == .ordinal)
    -- `ast/type_string.go:40-41`
    | .fixedString => some (c == .string)
    -- `ast/type_pointer.go:38-39`
    | .pointer => some (c == .pointer)
    -- `ast/type_struc.go:46-50`: the methods of the interface `OrdinalType`
    | .set elem => if c = .simple ∨ c = .ordinal then Ty.is types c fuel elem else some false
    -- `ast/type_struc.go:64-67`: the methods of `*TypeId`
    | .file ref =>
      match ref with
      | none => some false
      | some d => Ty.is types c fuel (types d)
    | .typeId ref =>
      match ref with
      | none => some false
      | some d => Ty.is types c fuel (types d)
    | .other => some false

end TP
