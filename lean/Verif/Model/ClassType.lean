import Verif.Model.DeclMap

/-!
# Model of class types: member lookup and properties, `ast/type_class.go`

Type declarations are referred to by number; `types` gives the type of each.  A class is identified with the number
of its declaration.  The recursion over ancestors may not end (the ancestors may be cyclic), so it has fuel.
-/

namespace TP

/-- `ClassField`, `ast/type_class.go:263-270` -/
structure ClassField (ν : Type) where
  names : List Str
  node : ν

/-- `ClassMemberSection`, `ast/type_class.go:206-212`; of the visibility only `CvPrivate` matters.  Methods and
properties are given by their declaration (name and node). -/
structure Section (ν : Type) where
  priv : Bool
  fields : List (ClassField ν)
  methods : List (Decl ν)
  props : List (Decl ν)

/-- The field `Type` of a `TypeDecl`. -/
inductive TypeNode (ν : Type)
  /-- `*CustomClassType`: for every item of the heritage the `TypeDecl` it refers to (`Ref.Node`), and the members -/
  | cls (heritage : List (Option Nat)) (members : List (Section ν))
  /-- `*ForwardDeclaredClassType` with the class that completes it -/
  | forward (actual : Option Nat)
  /-- `*TypeId`: another name of a type -/
  | alias (ref : Option Nat)
  /-- any other type -/
  | other

namespace ClassType
variable {ν : Type} (u : Uni)

/-- `GetParentClass`, `ast/type_class.go:73-85` -/
def getParentClass (types : Nat → TypeNode ν) (heritage : List (Option Nat)) : Option Nat :=
  match heritage with
  | some d :: _ =>
    match types d with
    | .cls _ _ => some d
    | _ => none
  | _ => none

/-- `IdentList.Find`, `ast/astcore/ident.go:132-142` -/
def identFind (names : List Str) (name : Str) : Option Str :=
  match names with
  | [] => none
  | n :: ns => if u.toLower n = u.toLower name then some n else identFind ns name

/-- `Decls.Find`, `ast/astcore/decl.go:24-32` -/
def declsFind (ds : List (Decl ν)) (name : Str) : Option (Decl ν) :=
  match ds with
  | [] => none
  | d :: ds => if u.toLower d.name = u.toLower name then some d else declsFind ds name

/-- the loop over the fields, `ast/type_class.go:96-100`; `some r` means `return r` -/
def findField (kw : Str) : List (ClassField ν) → Option (Option (Decl ν))
  | [] => none
  | f :: fs =>
    match identFind u f.names kw with
    | some _ => some (declsFind u (f.names.map (fun n => ⟨n, f.node⟩)) kw)
    | none => findField kw fs

/-- the loops over the methods and over the properties, `ast/type_class.go:103-114` -/
def findNamed (kw : Str) : List (Decl ν) → Option (Option (Decl ν))
  | [] => none
  | d :: ds => if u.toLower d.name = kw then some (declsFind u [d] kw) else findNamed kw ds

/-- the loop over the sections, `ast/type_class.go:91-116` -/
def findOwn (kw : Str) (includePrivate : Bool) : List (Section ν) → Option (Option (Decl ν))
  | [] => none
  | s :: ss =>
    if !includePrivate && s.priv then findOwn kw includePrivate ss
    else
      match findField u kw s.fields with
      | some r => some r
      | none =>
        match findNamed u kw s.methods with
        | some r => some r
        | none =>
          match findNamed u kw s.props with
          | some r => some r
          | none => findOwn kw includePrivate ss

/-- `FindMemberDecl`, `ast/type_class.go:87-122`; the outer `none`: has not returned yet. -/
def findMemberDecl (types : Nat → TypeNode ν) (name : Str) : Nat → Nat → Bool → Option (Option (Decl ν))
  | 0, _, _ => none
  | fuel + 1, c, includePrivate =>
    match types c with
    | .cls heritage members =>
      match findOwn u (u.toLower name) includePrivate members with
      | some r => some r
      | none =>
        match getParentClass types heritage with
        | some d => findMemberDecl types name fuel d false
        | none => some none
    | _ => some none

/-- loop of `FindProperty` over the sections, `ast/type_class.go:126-134` -/
def findOwnProperty (kw : Str) : List (Section ν) → Option (Decl ν)
  | [] => none
  | s :: ss =>
    match s.props.find? (fun d => u.toLower d.name = kw) with
    | some d => some d
    | none => findOwnProperty kw ss

/-- `FindProperty`, `ast/type_class.go:124-141` -/
def findProperty (types : Nat → TypeNode ν) (name : Str) : Nat → Nat → Bool → Option (Option (Decl ν))
  | 0, _, _ => none
  | fuel + 1, c, ascendant =>
    match types c with
    | .cls heritage members =>
      match findOwnProperty u (u.toLower name) members with
      | some d => some (some d)
      | none =>
        if ascendant then
          match getParentClass types heritage with
          | some d => findProperty types name fuel d true
          | none => some none
        else some none
    | _ => some none

end ClassType

/-! ## Properties -/

/-- `ClassProperty`, `ast/type_class.go:452-464`; `parent` is a number in the heap of properties. -/
structure PropObj (ν : Type) where
  ident : Str
  interface : Option ν
  index : Option ν
  read : Option ν
  write : Option ν
  stored : Option ν
  default : Option ν
  implements : Option ν
  parent : Option Nat
  deriving DecidableEq

namespace PropObj
variable {ν : Type}

/-- `if m.Interface != nil { res.Interface = m.Interface }`, `ast/type_class.go:501-503` -/
def setInterface (o : Option ν) (res : PropObj ν) : PropObj ν :=
  if o.isSome then { res with interface := o } else res

/-- `if m.Index != nil { res.Index = m.Index }`, `ast/type_class.go:504-506` -/
def setIndex (o : Option ν) (res : PropObj ν) : PropObj ν :=
  if o.isSome then { res with index := o } else res

/-- `if m.Read != nil { res.Read = m.Read }`, `ast/type_class.go:507-509` -/
def setRead (o : Option ν) (res : PropObj ν) : PropObj ν :=
  if o.isSome then { res with read := o } else res

/-- `if m.Write != nil { res.Write = m.Write }`, `ast/type_class.go:510-512` -/
def setWrite (o : Option ν) (res : PropObj ν) : PropObj ν :=
  if o.isSome then { res with write := o } else res

/-- `if m.Stored != nil { res.Stored = m.Stored }`, `ast/type_class.go:513-515` -/
def setStored (o : Option ν) (res : PropObj ν) : PropObj ν :=
  if o.isSome then { res with stored := o } else res

/-- `if m.Default != nil { res.Default = m.Default }`, `ast/type_class.go:516-518` -/
def setDefault (o : Option ν) (res : PropObj ν) : PropObj ν :=
  if o.isSome then { res with default := o } else res

/-- `if m.Implements != nil { res.Implements = m.Implements }`, `ast/type_class.go:519-521` -/
def setImplements (o : Option ν) (res : PropObj ν) : PropObj ν :=
  if o.isSome then { res with implements := o } else res

/-- the assignments of `ComputedProperty`, `ast/type_class.go:501-521`, in that order -/
def override (m res : PropObj ν) : PropObj ν :=
  setImplements m.implements (setDefault m.default (setStored m.stored (setWrite m.write (setRead m.read
    (setIndex m.index (setInterface m.interface res))))))

/-- `ComputedProperty`, `ast/type_class.go:495-523`, on the heap of all properties: the heap afterwards and the
number of the result.  Outer `none`: not returned yet, or no such property. -/
def computed : Nat → List (PropObj ν) → Nat → Option (List (PropObj ν) × Nat)
  | 0, _, _ => none
  | fuel + 1, h, i =>
    match h[i]? with
    | none => none
    | some m =>
      match m.parent with
      | none => some (h ++ [m], h.length)
      | some j =>
        match computed fuel h j with
        | none => none
        | some (h1, r) => some (h1.modify r (override m), r)

/-- `InheritsFrom`, `ast/type_class.go:525-535`, for a parent that is not nil -/
def inheritsFrom (fuel : Nat) (h : List (PropObj ν)) (m : PropObj ν) (parent : Nat) : Option Bool :=
  match computed fuel h parent with
  | none => none
  | some (h1, r) =>
    match h1[r]? with
    | none => none
    | some prop =>
      some ((prop.interface.isSome && m.interface.isNone) || (prop.index.isSome && m.index.isNone) ||
        (prop.read.isSome && m.read.isNone) || (prop.write.isSome && m.write.isNone))

end PropObj
end TP
