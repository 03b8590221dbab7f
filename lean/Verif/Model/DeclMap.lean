import Verif.Basic.Uni

/-!
# Model of `ast/astcore/decl_map.go` and of the embedded type table of `ast/type_embedded.go`

The declaration maps are mutable objects that refer to each other, so they live in a heap.  The heap is the list
of all objects, newest first; the reference of an object is the number of objects older than it.  An object can
only refer to older objects: the constructors of the code take existing maps and the references are never
changed afterwards (`ChainedDeclMap.Parent` is only written by `NewChainedDeclMap`, `CompositeDeclMap.maps` is
private and only written by `NewCompositeDeclMap`).  So `get` and `set` recurse on the list.

`ν` is the type of the declared nodes (`Decl.Node`).  Not modelled: nil declarations (no code of the repository
stores one) and the text of errors.
-/

namespace TP

/-- `Decl`, `ast/astcore/decl.go:5-8` -/
structure Decl (ν : Type) where
  name : Str
  node : ν
  deriving DecidableEq, Repr

/-- `DeclMapImpl`, `ast/astcore/decl_map.go:15`: a Go map as association list (first entry of a key counts). -/
abbrev Tbl (ν : Type) := List (Str × Decl ν)

namespace Tbl
variable {ν : Type}

/-- indexing the Go map by an already regularized key -/
def find (m : Tbl ν) (k : Str) : Option (Decl ν) :=
  match m with
  | [] => none
  | (k', d) :: m => if k' = k then some d else find m k

/-- `regularize`, `ast/astcore/decl_map.go:46-48` -/
def regularize (u : Uni) (name : Str) : Str := u.toLower name

/-- `Get`, `ast/astcore/decl_map.go:42-44` -/
def get (u : Uni) (m : Tbl ν) (name : Str) : Option (Decl ν) := m.find (regularize u name)

/-- `Overwrite`, `ast/astcore/decl_map.go:23-25` -/
def overwrite (u : Uni) (m : Tbl ν) (name : Str) (d : Decl ν) : Tbl ν := (regularize u name, d) :: m

/-- `Set`, `ast/astcore/decl_map.go:27-40`; the argument is `decl.ToDeclarations()`.  The second component
tells whether it returned nil (no error).  Declarations in front of a duplicate stay in the map. -/
def set (u : Uni) (m : Tbl ν) : List (Decl ν) → Tbl ν × Bool
  | [] => (m, true)
  | d :: ds =>
    match m.find (regularize u d.name) with
    | some _ => (m, false)
    | none => set u ((regularize u d.name, d) :: m) ds

end Tbl

/-- `ast/type_embedded.go:10-18` -/
inductive EmbKind
  | real | ordIdent | string | pointer | variant
  deriving DecidableEq, Repr

/-- The declarations of `ast/type_embedded.go:108-142`. -/
def embeddedTypes : List (EmbKind × Str) :=
  [(.real, r!"Real48"), (.real, r!"Real"), (.real, r!"Single"), (.real, r!"Double"), (.real, r!"Extended"),
   (.real, r!"Currency"), (.real, r!"Comp"),
   (.ordIdent, r!"Integer"), (.ordIdent, r!"Cardinal"), (.ordIdent, r!"ShortInt"), (.ordIdent, r!"SmallInt"),
   (.ordIdent, r!"LongInt"), (.ordIdent, r!"Int64"), (.ordIdent, r!"Byte"), (.ordIdent, r!"Word"),
   (.ordIdent, r!"LongWord"), (.ordIdent, r!"Char"), (.ordIdent, r!"AnsiChar"), (.ordIdent, r!"WideChar"),
   (.ordIdent, r!"Boolean"),
   (.string, r!"String"), (.string, r!"AnsiString"), (.string, r!"WideString"),
   (.pointer, r!"Pointer"), (.pointer, r!"PChar"), (.pointer, r!"PAnsiChar"), (.pointer, r!"PWideChar"),
   (.variant, r!"Variant"), (.variant, r!"OleVariant")]

/-- A node type with embedded types: the `TypeDecl` made by `newEmbeddedTypeDecl`
(`ast/type_embedded.go:94-102`). -/
class EmbNode (ν : Type) where
  emb : EmbKind → Str → ν

/-- `embeddedTypeDeclMap`, `ast/type_embedded.go:92-102`: the key is the upper-cased name. -/
def embTable (u : Uni) (ν : Type) [EmbNode ν] : Tbl ν :=
  embeddedTypes.map (fun kn => (u.toUpper kn.2, ⟨kn.2, EmbNode.emb kn.1 kn.2⟩))

/-- `embeddedTypeDeclMapSingleton.Get`, `ast/type_embedded.go:147-149` -/
def embGet (u : Uni) {ν : Type} [EmbNode ν] (name : Str) : Option (Decl ν) := (embTable u ν).find (u.toUpper name)

/-- The implementations of the interface `DeclMap` (`ast/astcore/decl_map.go:9-13`). -/
inductive MapObj (ν : Type)
  /-- `DeclMapImpl`, `ast/astcore/decl_map.go:15` -/
  | impl (m : Tbl ν)
  /-- `ChainedDeclMap`, `ast/astcore/decl_map.go:50-53` -/
  | chained (parent : Nat) (m : Tbl ν)
  /-- `CompositeDeclMap`, `ast/astcore/decl_map.go:76-78` -/
  | composite (maps : List Nat)
  /-- `embeddedTypeDeclMapSingleton`, `ast/type_embedded.go:144-158` -/
  | embedded
  deriving DecidableEq

/-- all map objects, newest first -/
abbrev Maps (ν : Type) := List (MapObj ν)

/-- outcome of a call: no error, an error value, a panic -/
inductive Outcome
  | ok | err | panic
  deriving DecidableEq, Repr

namespace Maps
variable {ν : Type}

/-- a constructor: the reference of the new object and the heap with it -/
def alloc (h : Maps ν) (o : MapObj ν) : Maps ν × Nat := (o :: h, h.length)

/-- the object with reference `i` (not in the code) -/
def obj : Maps ν → Nat → Option (MapObj ν)
  | [], _ => none
  | o :: h, i => if i = h.length then some o else obj h i

variable [EmbNode ν] (u : Uni)

/-- `Get` of the four implementations: `ast/astcore/decl_map.go:42-44`, `61-66`, `86-93`,
`ast/type_embedded.go:147-149`. -/
def get : Maps ν → Nat → Str → Option (Decl ν)
  | [], _, _ => none
  | o :: h, i, name =>
    if i = h.length then
      match o with
      | .impl m => m.get u name
      | .chained p m =>
        match m.get u name with
        | some d => some d
        | none => get h p name
      | .composite maps => maps.findSome? (fun j => get h j name)
      | .embedded => embGet u name
    else get h i name

/-- `Set` of the four implementations: `ast/astcore/decl_map.go:27-40`, `68-70`, `95-97`,
`ast/type_embedded.go:151-153`; `c.maps[0]` panics if there is none. -/
def set : Maps ν → Nat → List (Decl ν) → Maps ν × Outcome
  | [], _, _ => ([], .panic)
  | o :: h, i, ds =>
    if i = h.length then
      match o with
      | .impl m => let r := m.set u ds; (.impl r.1 :: h, if r.2 then .ok else .err)
      | .chained p m => let r := m.set u ds; (.chained p r.1 :: h, if r.2 then .ok else .err)
      | .composite maps =>
        match maps with
        | [] => (o :: h, .panic)
        | j :: _ => let r := set h j ds; (o :: r.1, r.2)
      | .embedded => (o :: h, .err)
    else let r := set h i ds; (o :: r.1, r.2)

/-- `Overwrite` of the four implementations: `ast/astcore/decl_map.go:23-25`, `72-74`, `99-101`,
`ast/type_embedded.go:155-156`. -/
def overwrite : Maps ν → Nat → Str → Decl ν → Maps ν × Outcome
  | [], _, _, _ => ([], .panic)
  | o :: h, i, name, d =>
    if i = h.length then
      match o with
      | .impl m => (.impl (m.overwrite u name d) :: h, .ok)
      | .chained p m => (.chained p (m.overwrite u name d) :: h, .ok)
      | .composite maps =>
        match maps with
        | [] => (o :: h, .panic)
        | j :: _ => let r := overwrite h j name d; (o :: r.1, r.2)
      | .embedded => (o :: h, .ok)
    else let r := overwrite h i name d; (o :: r.1, r.2)

end Maps

end TP
