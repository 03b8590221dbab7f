import Verif.Model.DeclMap

/-!
# Model of `parser/pcontext/*.go`, of `ast.Units` and of the rollback of `parser/base.go`

Contexts and units are mutable objects too.  The contexts form a list like the declaration maps (newest first, the
reference is the number of older contexts), because a `StackableContext` refers to an older one.  Units are never
removed, so a unit is referred to by its position.
-/

namespace TP

/-- `ast.Unit`, `ast/unit.go:16-27`: the name and the field `DeclMap` (nil until the interface has been parsed). -/
structure UnitObj where
  name : Str
  dm : Option Nat
  deriving DecidableEq, Repr

/-- The implementations of `pcontext.Context`. -/
inductive CtxObj
  /-- `ProgramContext`, `parser/pcontext/program_context.go:9-13` -/
  | program (path : Str) (units : List Nat) (dm : Nat)
  /-- `UnitContext`, `parser/pcontext/unit_context.go:9-13` -/
  | unit (parent : Nat) (path : Str) (dm : Nat)
  /-- `StackableContext`, `parser/pcontext/stackable_context.go:7-11` -/
  | stackable (path : Option Str) (parent : Nat) (dm : Nat)
  deriving DecidableEq, Repr

namespace CtxObj

/-- the field `DeclMap` (`declMap`) -/
def dm : CtxObj → Nat
  | program _ _ d => d
  | unit _ _ d => d
  | stackable _ _ d => d

/-- assignment to the field `DeclMap` (`declMap`) -/
def withDm (d : Nat) : CtxObj → CtxObj
  | program p us _ => program p us d
  | unit p q _ => unit p q d
  | stackable p q _ => stackable p q d

/-- `Clone`, `program_context.go:46-52`, `unit_context.go:40-46`, `stackable_context.go:22-26` -/
def clone : CtxObj → CtxObj
  | program p us d => program p us d
  | unit p q d => unit p q d
  | stackable _ _ d => program [] [] d

end CtxObj

/-- all contexts, newest first -/
abbrev Ctxs := List CtxObj

namespace Ctxs

/-- the context with reference `i` (not in the code) -/
def obj : Ctxs → Nat → Option CtxObj
  | [], _ => none
  | o :: cs, i => if i = cs.length then some o else obj cs i

/-- change of the context with reference `i` (not in the code) -/
def modify (f : CtxObj → CtxObj) : Ctxs → Nat → Ctxs
  | [], _ => []
  | o :: cs, i => if i = cs.length then f o :: cs else o :: modify f cs i

/-- `GetPath`, `program_context.go:54-56`, `unit_context.go:68-70`, `stackable_context.go:43-48` -/
def getPath : Ctxs → Nat → Str
  | [], _ => []
  | o :: cs, i =>
    if i = cs.length then
      match o with
      | .program p _ _ => p
      | .unit _ p _ => p
      | .stackable (some p) _ _ => p
      | .stackable none q _ => getPath cs q
    else getPath cs i

variable {ν : Type} [EmbNode ν] (u : Uni)

/-- `Get`: promoted from the embedded `DeclMap` for `ProgramContext` and `UnitContext`;
`stackable_context.go:28-33` -/
def get (m : Maps ν) : Ctxs → Nat → Str → Option (Decl ν)
  | [], _, _ => none
  | o :: cs, i, name =>
    if i = cs.length then
      match o with
      | .program _ _ d => m.get u d name
      | .unit _ _ d => m.get u d name
      | .stackable _ q d =>
        match m.get u d name with
        | some r => some r
        | none => get m cs q name
    else get m cs i name

end Ctxs

/-- the mutable objects -/
structure World (ν : Type) where
  maps : Maps ν
  units : List UnitObj
  ctxs : Ctxs

namespace World
variable {ν : Type}

/-- `c.DeclMap` of the context with reference `c` -/
def dm (w : World ν) (c : Nat) : Option Nat := (w.ctxs.obj c).map CtxObj.dm

/-- `c.DeclMap = d` -/
def setDm (w : World ν) (c d : Nat) : World ν := { w with ctxs := w.ctxs.modify (CtxObj.withDm d) c }

/-- `NewChainedDeclMap`, `NewCompositeDeclMap`, `NewDeclMap`, `ast/astcore/decl_map.go:19-21,57-59,82-84` -/
def newMap (w : World ν) (o : MapObj ν) : World ν × Nat := ({ w with maps := o :: w.maps }, w.maps.length)

/-- `StackDeclMap`, `program_context.go:62-68`, `unit_context.go:72-78`, `stackable_context.go:50-56`.  The
returned function is `restore` with the second component. -/
def stack (w : World ν) (c : Nat) : Option (World ν × Nat) :=
  match w.dm c with
  | none => none
  | some d => let r := w.newMap (.chained d []); some (r.1.setDm c r.2, d)

/-- the function returned by `StackDeclMap`, `program_context.go:65-67` -/
def restore (w : World ν) (c backup : Nat) : World ν := w.setDm c backup

/-- `Clone` as an object in the heap -/
def clone (w : World ν) (c : Nat) : Option (World ν × Nat) :=
  match w.ctxs.obj c with
  | none => none
  | some o => some ({ w with ctxs := o.clone :: w.ctxs }, w.ctxs.length)

/-- `NewStackableContext`, `stackable_context.go:15-20` (`args` is ignored by the code) -/
def newStackable (w : World ν) (parent : Nat) : World ν × Nat :=
  let r := w.newMap (.impl [])
  ({ r.1 with ctxs := .stackable none parent r.2 :: w.ctxs }, w.ctxs.length)

variable (u : Uni)

/-- `Set` of a context: promoted from the embedded `DeclMap`; `stackable_context.go:35-37` -/
def set (w : World ν) (c : Nat) (ds : List (Decl ν)) : World ν × Outcome :=
  match w.dm c with
  | none => (w, .panic)
  | some d => let r := w.maps.set u d ds; ({ w with maps := r.1 }, r.2)

/-- `Overwrite` of a context: promoted; `stackable_context.go:39-41` -/
def overwrite (w : World ν) (c : Nat) (name : Str) (d : Decl ν) : World ν × Outcome :=
  match w.dm c with
  | none => (w, .panic)
  | some i => let r := w.maps.overwrite u i name d; ({ w with maps := r.1 }, r.2)

/-- `Get` of a context -/
def get [EmbNode ν] (w : World ν) (c : Nat) (name : Str) : Option (Decl ν) := Ctxs.get u w.maps w.ctxs c name

/-- `Units.ByName`, `ast/unit.go:62-70` -/
def byName (w : World ν) : List Nat → Str → Option Nat
  | [], _ => none
  | i :: is, name =>
    match w.units[i]? with
    | none => byName w is name
    | some o => if u.toLower o.name = u.toLower name then some i else byName w is name

/-- `AssignUnits`, `unit_context.go:59-66`: the units of the uses items (`nil` if not loaded; `UsesClause.Units`,
`ast/uses_clause.go:50-56`). -/
def usedUnits (w : World ν) (c : Nat) (uses : List Str) : List (Option Nat) :=
  match w.ctxs.obj c with
  | some (.unit parent _ _) =>
    match w.ctxs.obj parent with
    | some (.program _ us _) => uses.map (w.byName u us)
    | _ => uses.map (fun _ => none)
  | _ => uses.map (fun _ => none)

/-- `m.DeclMap` of a unit -/
def unitDm (w : World ν) (i : Nat) : Option Nat :=
  match w.units[i]? with
  | some o => o.dm
  | none => none

/-- `Units.Compact` then `Units.DeclMaps` then `DeclMaps.Reverse`: `ast/unit.go:72-88`,
`ast/astcore/decl_map.go:103-111`.  `none`: one of the maps is nil (the code then panics in the first lookup that
reaches it). -/
def usedMaps (w : World ν) (us : List (Option Nat)) : Option (List Nat) :=
  ((us.filterMap id).mapM w.unitDm).map List.reverse

/-- `ImportUnitDecls`, `unit_context.go:48-57` -/
def importUnitDecls (w : World ν) (c : Nat) (uses : List Str) : Option (World ν) :=
  match w.dm c, w.usedMaps (w.usedUnits u c uses) with
  | some d, some ms =>
    let l := w.newMap (.impl [])
    let r := l.1.newMap (.composite (l.2 :: ms ++ [d]))
    some (r.1.setDm c r.2)
  | _, _ => none

end World

/-- A parser as far as contexts are concerned: the objects and the field `context` (`parser/base.go:11-16`). -/
structure PCtx (ν : Type) where
  w : World ν
  cur : Nat

end TP
