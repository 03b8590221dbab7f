import Verif.Model.Decls
import Verif.Model.Context
import Verif.Model.ClassType
import Verif.Model.TypeClass

/-!
# The context of the parser, as seen by the parser of types and declarations

Instantiates `DEnv` with the declaration maps, units and contexts of `Verif/Model/Context.lean`, the class lookup of
`Verif/Model/ClassType.lean` and the classification of types of `Verif/Model/TypeClass.lean`.

`TypeDecl` and `UsesClauseItem` nodes are referred to by number, because they are shared and changed later.  Of the
other nodes only the kind is kept.
-/

namespace TP

/-- The kinds of nodes of which no more is needed. -/
inductive Tag
  | enumElem | const | var | threadVar | param | label | func | heading | handler | field | method
  deriving DecidableEq, Repr

/-- The nodes a declaration may have (`Decl.Node`). -/
inductive Node
  /-- a `TypeDecl` of `ast/type_embedded.go:94-102` -/
  | embedded (k : EmbKind) (name : Str)
  /-- `*TypeDecl`, by number -/
  | type (i : Nat)
  /-- `*UsesClauseItem`, by number -/
  | uses (i : Nat)
  /-- `*Unit`, by number -/
  | unit (i : Nat)
  /-- the `*Program` -/
  | program
  /-- `*ClassProperty`: whether `Interface`, `Index`, `Read` and `Write` of its `ComputedProperty()` are not nil -/
  | prop (i : Ident) (intf index read write : Bool)
  | decl (t : Tag) (i : Ident)
  deriving DecidableEq, Repr

instance : EmbNode Node := ⟨.embedded⟩

/-- The state of a parser apart from its tokens. -/
structure DS where
  /-- declaration maps, units and contexts -/
  w : World Node
  /-- the field `context`, `parser/base.go:14` -/
  cur : Nat
  /-- the field `Type` of every `TypeDecl` -/
  types : List (PType (Decl Node))
  /-- the completed forward declarations, with the classes that complete them: the field `Actual`,
  `ast/type_class.go:27` -/
  actual : List (Nat × Nat)
  /-- the field `Ref` of every `TypeId` of an undeclared name, `parser/type.go:185` -/
  refs : List (Option (Decl Node))
  /-- `postSectionFuncs`, `parser/base.go:15`: the `TypeId`s and their names -/
  pending : List (Nat × Str)
  /-- the field `Unit` of every `UsesClauseItem`, `ast/uses_clause.go:61` -/
  items : List (Option Nat)
  /-- the field `DeclMap` of the program, `ast/program.go:20` -/
  program : Option Nat

namespace DS

/-- the field `Ref` of a `TypeId` -/
def ref (k : DS) : TRef (Decl Node) → Option (Decl Node)
  | .none => none
  | .now d => some d
  | .later i => (k.refs[i]?).join

/-- `Ref.Node.(*TypeDecl)`, as a number; embedded types get none -/
def typeNo (k : DS) (t : TypeId (Decl Node)) : Option Nat :=
  match k.ref t.ref with
  | some ⟨_, .type i⟩ => some i
  | _ => none

/-! ## Classes -/

/-- a `ClassFieldList` -/
def fields : Fields (Decl Node) → List (ClassField Node)
  | .nil => []
  | .cons is _ rest =>
    ⟨is.map Ident.name, match is with | i :: _ => .decl .field i | [] => .decl .field ⟨[], ⟨0, 0, 0⟩, ⟨0, 0, 0⟩⟩⟩ ::
      fields rest

/-- a `ClassMethodList`, `ast/type_class.go:311-313` -/
def methods : Methods (Decl Node) → List (Decl Node)
  | .nil => []
  | .cons h _ rest => ⟨h.ident.name, .decl .method h.ident⟩ :: methods rest

/-- the field `Interface` is not nil -/
def hasIntf : OptIntf (Decl Node) → Bool
  | .none => false
  | .some _ _ => true

/-- a `ClassProperty` with its `ComputedProperty()`, `ast/type_class.go:466-468, 495-523`: what is nil is taken from the
parent -/
def propDecl : ClassProp (Decl Node) → Decl Node
  | .mk i intf ix rd wr _ _ _ parent =>
    match parent with
    | some ⟨_, .prop _ a b c d⟩ =>
      ⟨i.name, .prop i (hasIntf intf || a) (ix.isSome || b) (rd.isSome || c) (wr.isSome || d)⟩
    | _ => ⟨i.name, .prop i (hasIntf intf) ix.isSome rd.isSome wr.isSome⟩

/-- a `ClassPropertyList` -/
def props : Props (Decl Node) → List (Decl Node)
  | .nil => []
  | .cons p rest => propDecl p :: props rest

/-- `ClassMemberSections` -/
def sections : Sects (Decl Node) → List (Section Node)
  | .nil => []
  | .cons v fs ms ps rest => ⟨v == .priv, fields fs, methods ms, props ps⟩ :: sections rest

/-- a type as the class lookup sees it -/
def typeNode (k : DS) : PType (Decl Node) → TypeNode Node
  | .cls h ms => .cls (h.map k.typeNo) (sections ms)
  | .forward => .forward none
  | .id t => .alias (k.typeNo t)
  | _ => .other

/-- the type of every `TypeDecl`, for the class lookup -/
def typeNodes (k : DS) (i : Nat) : TypeNode Node :=
  match k.types[i]? with
  | some t => k.typeNode t
  | none => .other

/-- a search that ends or does not end; every step looks at another class -/
def findR (r : Option (Option (Decl Node))) : FindR (Decl Node) :=
  match r with
  | some (some d) => .found d
  | some none => .none
  | none => .hang

variable (u : Uni)

/-- `FindMemberDecl(name, true)`, `ast/type_class.go:87-122`, of a class that has no number yet -/
def findMember (k : DS) (h : List (TypeId (Decl Node))) (ms : Sects (Decl Node)) (name : Str) : FindR (Decl Node) :=
  match ClassType.findOwn u (u.toLower name) true (sections ms) with
  | some r => findR (some r)
  | none =>
    match ClassType.getParentClass k.typeNodes (h.map k.typeNo) with
    | some c => findR (ClassType.findMemberDecl u k.typeNodes name (k.types.length + 1) c false)
    | none => .none

/-- `FindProperty(name, true)`, `ast/type_class.go:124-141`, of a class that has no number yet -/
def findProp (k : DS) (h : List (TypeId (Decl Node))) (ms : Sects (Decl Node)) (name : Str) : FindR (Decl Node) :=
  match ClassType.findOwnProperty u (u.toLower name) (sections ms) with
  | some d => .found d
  | none =>
    match ClassType.getParentClass k.typeNodes (h.map k.typeNo) with
    | some c => findR (ClassType.findProperty u k.typeNodes name (k.types.length + 1) c true)
    | none => .none

/-- `InheritsFrom`, `ast/type_class.go:525-535` -/
def inherits : ClassProp (Decl Node) → Decl Node → Bool
  | .mk _ intf ix rd wr _ _ _ _, d =>
    match d.node with
    | .prop _ a b c d => (a && !hasIntf intf) || (b && ix.isNone) || (c && rd.isNone) || (d && wr.isNone)
    | _ => false

/-! ## Ordinal types -/

/-- numbers for the kinds of embedded types, before those of the other `TypeDecl`s (not in the code) -/
def kindNo : EmbKind → Nat
  | .real => 0
  | .ordIdent => 1
  | .string => 2
  | .pointer => 3
  | .variant => 4

/-- `Ref.Node.(*TypeDecl)`, as a number -/
def tyNo (k : DS) (t : TypeId (Decl Node)) : Option Nat :=
  match k.ref t.ref with
  | some ⟨_, .type i⟩ => some (i + 5)
  | some ⟨_, .embedded e _⟩ => some (kindNo e)
  | _ => none

/-- a type as the classification sees it -/
def ty (k : DS) : PType (Decl Node) → Ty
  | .id t => .typeId (k.tyNo t)
  | .enum _ => .enum
  | .subrange _ _ => .subrange
  | .pointer _ => .pointer
  | .fixedString _ _ => .fixedString
  | .set _ t => .set (ty k t)
  | .file _ t => .file (k.tyNo t)
  | _ => .other

/-- the type of every `TypeDecl`, for the classification -/
def tys (k : DS) : Nat → Ty
  | 0 => .embedded .real
  | 1 => .embedded .ordIdent
  | 2 => .embedded .string
  | 3 => .embedded .pointer
  | 4 => .embedded .variant
  | i + 5 =>
    match k.types[i]? with
    | some t => k.ty t
    | none => .other

/-- how many sets of sets there are -/
def depth : Ty → Nat
  | .set t => depth t + 1
  | _ => 1

/-- `typ.(ast.OrdinalType)` and `IsOrdinalType()`, `parser/type_simple.go:129-135`.  The number of steps bounds the
number of pieces of types there are, so a search that takes more comes back to the same piece. -/
def ordinal (k : DS) (t : PType (Decl Node)) : Option Bool :=
  Ty.is k.tys .ordinal (depth (k.ty t) + (k.types.map (fun t => depth (k.ty t))).sum + 2) (k.ty t)

/-! ## Operations -/

/-- `NewParser(NewProgramContext(path))`, `parser/base.go:18-23`, `parser/pcontext/program_context.go:17-44` -/
def init (path : Str) : DS :=
  ⟨⟨[.chained 0 [], .embedded], [], [.program path [] 1]⟩, 0, [], [], [], [], [], none⟩

/-- `p.context.Get(name)` -/
def get (k : DS) (name : Str) : Option (Decl Node) := k.w.get u k.cur name

/-- `ast.EmbeddedTypeDecl(kind, name)`, `ast/type_embedded.go:104-106` -/
def emb (kind : EmbKind) (name : Str) : Option (Decl Node) :=
  match embeddedTypes.find? (fun kn => kn.1 == kind && u.toUpper kn.2 == u.toUpper name) with
  | some kn => some ⟨kn.2, .embedded kn.1 kn.2⟩
  | none => none

/-- `GetDeclMap().Get(name)`, `parser/unit.go:81-84`; a nil map panics -/
def inMap (k : DS) (dm : Option Nat) (name : Str) : Member (Decl Node) :=
  match dm with
  | none => .panic
  | some i =>
    match k.w.maps.get u i name with
    | some d => .found d
    | none => .error

/-- `parser/unit.go:69-84` -/
def member (k : DS) (d : Decl Node) (name : Str) : Member (Decl Node) :=
  match d.node with
  | .uses i =>
    match (k.items[i]?).join with
    | none => .error
    | some j => inMap u k (k.w.unitDm j) name
  | .unit j => inMap u k (k.w.unitDm j) name
  | .program => inMap u k k.program name
  | _ => .error

/-- `Clone` of the context by `RollbackPoint`, and the rollback, `parser/base.go:29-38` -/
def rollback (k : DS) : DS :=
  match k.w.clone k.cur with
  | some (w', c') => { k with w := w', cur := c' }
  | none => k

/-- result of `Set` on a context -/
def setR (k : DS) (r : World Node × Outcome) : SetR DS :=
  match r.2 with
  | .ok => .ok { k with w := r.1 }
  | .err => .err
  | .panic => .panic

/-- what kind of node it is; a `TypeDecl` is given the next number -/
def mkNode (k : DS) : DKind (Decl Node) → Ident → Node
  | .enumElem, i => .decl .enumElem i
  | .const, i => .decl .const i
  | .var, i => .decl .var i
  | .threadVar, i => .decl .threadVar i
  | .param, i => .decl .param i
  | .type _, _ => .type k.types.length
  | .label, i => .decl .label i
  | .func, i => .decl .func i
  | .heading, i => .decl .heading i
  | .handler, i => .decl .handler i

/-- the new `TypeDecl`, if it is one -/
def addType (k : DS) : DKind (Decl Node) → DS
  | .type t => { k with types := k.types ++ [t] }
  | _ => k

/-- `p.context.Set(decl)` -/
def set (k : DS) (is : List Ident) (kind : DKind (Decl Node)) : SetR DS :=
  (k.addType kind).setR (k.w.set u k.cur (is.map fun i => ⟨i.name, k.mkNode kind i⟩))

/-- `parser/type.go:77-86`, with `SetActualType`, `ast/type_class.go:30-37`: only a `ForwardDeclaredClassType` is a forward
declaration, and only a `CustomClassType` completes it -/
def complete (k : DS) (old : Decl Node) (i : Ident) (ty : PType (Decl Node)) : SetR DS :=
  match old.node, ty with
  | .type j, .cls h ms =>
    match k.types[j]? with
    | some .forward =>
      ({ k with types := k.types ++ [PType.cls h ms], actual := (j, k.types.length) :: k.actual }).setR
        (k.w.overwrite u k.cur i.name ⟨i.name, .type k.types.length⟩)
    | _ => .err
  | _, _ => .err

/-- `p.context.StackDeclMap()` -/
def stack (k : DS) : DS :=
  match k.w.stack k.cur with
  | some (w', _) => { k with w := w' }
  | none => k

/-- the function returned by `StackDeclMap` in the state `k0`, called in the state `k`: it acts on the context of `k0` -/
def restore (k0 k : DS) : DS :=
  match k0.w.dm k0.cur with
  | some d => { k with w := k.w.restore k0.cur d }
  | none => k

/-- `p.AddPostSection`, `parser/base.go:134-136`, with the function of `parser/type.go:182-187` -/
def newRef (k : DS) (name : Str) : DS × Nat :=
  ({ k with refs := k.refs ++ [none], pending := k.pending ++ [(k.refs.length, name)] }, k.refs.length)

/-- the function of `parser/type.go:182-187` -/
def runRef (k : DS) (r : Nat × Str) : DS :=
  match k.get u r.2 with
  | some d => { k with refs := k.refs.set r.1 (some d) }
  | none => k

/-- `p.RunPostSectionFuncs()`, `parser/base.go:138-142` -/
def runSection (k : DS) : DS := k.pending.foldl (runRef u) k

end DS

/-- The operations of the context used by the parser. -/
def declEnv (u : Uni) : DEnv DS (Decl Node) where
  get := DS.get u
  isType d :=
    match d.node with
    | .type _ => true
    | .embedded _ _ => true
    | _ => false
  isNamespace d :=
    match d.node with
    | .unit _ => true
    | .program => true
    | _ => false
  isUses d :=
    match d.node with
    | .uses _ => true
    | _ => false
  member := DS.member u
  rollback := DS.rollback
  isLabel d :=
    match d.node with
    | .decl .label _ => true
    | _ => false
  emb := DS.emb u
  set := DS.set u
  complete := DS.complete u
  stack := DS.stack
  restore := DS.restore
  newRef := DS.newRef
  openSection k := { k with pending := [] }
  runSection := DS.runSection u
  closeSection k0 k := { k with pending := k0.pending }
  ordinal := DS.ordinal
  findMember := DS.findMember u
  findProp := DS.findProp u
  inherits _ := DS.inherits

end TP
