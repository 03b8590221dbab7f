import Verif.Model.DeclEnv
import Verif.Model.UnitProc
import Verif.Model.UnitParsers
import Verif.Model.Uses

/-!
# Model of `parser/uses_clause.go`, `parser/unit_parser.go` and `parser/program.go`

Units and programs, with the context of `Verif/Model/DeclEnv.lean`.  Every unit has its own parser; all parsers share
the declaration maps, units and contexts, so a parser is a piece of state (`Loader`) that is put in place while it
runs.

Files are a parameter: what the tokenizer delivers for the decoded text of a file.
-/

namespace TP

/-- `UsesClauseItem`, `ast/uses_clause.go:58-63`: identifier, path, and the number of the item (its field `Unit` is
`DS.items`) -/
structure UsesEntry where
  ident : Ident
  path : Option Str
  no : Nat
  deriving DecidableEq, Repr

/-- The implementations of `InterfaceDecl`, `ast/unit.go:125-129`. -/
inductive IntfDecl (δ : Type)
  | const (ds : List (ConstDecl δ))
  /-- `TypeSection`; the `TypeDecl`s are numbered from `first` on -/
  | type (first : Nat) (ds : List (TypeDecl δ))
  | var (ds : List (VarDecl δ))
  | threadVar (ds : List (ThreadVarDecl δ))
  /-- `ExportedHeading`, `ast/function_heading.go:17-21` -/
  | heading (h : Heading δ) (o : RoutineOpts)

/-- `InitSection`, `ast/unit.go:183-186` -/
structure InitSection (δ : Type) where
  initialization : Stmts δ (PType δ)
  finalization : Option (Stmts δ (PType δ))

/-- What `ParseUnitIdent` fills in of a `Unit`, `ast/unit.go:16-19`, and the number of the unit. -/
structure UnitHead where
  ident : Ident
  portability : Option Str
  no : Nat
  deriving DecidableEq, Repr

/-- `ImplementationSection`, `ast/unit.go:150-155`, without its uses clause, and `InitSection` -/
structure UnitBody (δ : Type) where
  decls : DeclSects δ
  exports : List (List (ExportsItem δ))
  init : Option (InitSection δ)

/-- `Unit`, `ast/unit.go:16-27` -/
structure UnitTree (δ : Type) where
  head : UnitHead
  intfUses : List UsesEntry
  intf : List (IntfDecl δ)
  implUses : List UsesEntry
  body : UnitBody δ

/-! ## State changes -/

/-- `append` to the field `Units`, `parser/pcontext/program_context.go:59` -/
def CtxObj.addUnit (unit : Nat) : CtxObj → CtxObj
  | .program p us d => .program p (us ++ [unit]) d
  | o => o

namespace DS
variable (u : Uni)

/-- `p.context.Set(i)` for a new `UsesClauseItem`, `parser/uses_clause.go:35` -/
def setUses (k : DS) (i : Ident) : SetR DS :=
  ({ k with items := k.items ++ [none] }).setR (k.w.set u k.cur [⟨i.name, .uses k.items.length⟩])

/-- a new `Unit`, `parser/unit_parser.go:97-101` -/
def newUnit (k : DS) (i : Ident) : DS := { k with w := { k.w with units := k.w.units ++ [⟨i.name, none⟩] } }

/-- `GetDeclNodes` and `ToDeclarations`: `ast/const.go:23-29, 56-58`, `ast/type.go:25-31, 52-54`,
`ast/var.go:23-29, 64-66, 120-126, 143-145`, `ast/function_heading.go:28-30, 39-41` -/
def declNodes : IntfDecl (Decl Node) → List (List (Decl Node))
  | .const ds => ds.map fun d => [⟨d.ident.name, .decl .const d.ident⟩]
  | .type first ds => ds.zipIdx.map fun (d, j) => [⟨d.ident.name, .type (first + j)⟩]
  | .var ds => ds.map fun d => d.idents.map fun i => ⟨i.name, .decl .var i⟩
  | .threadVar ds => ds.map fun d => d.idents.map fun i => ⟨i.name, .decl .threadVar i⟩
  | .heading h _ => [[⟨h.ident.name, .decl .heading h.ident⟩]]

/-- `parser/unit_parser.go:161-168` -/
def finishIntf (k : DS) (unit : Nat) (ds : List (IntfDecl (Decl Node))) : DS :=
  { k with w := k.w.finishIntf u unit (ds.flatMap declNodes) }

/-- `p.context.StackDeclMap()` of the context `cu` of the unit parser, `parser/unit_parser.go:212` -/
def stackAt (k : DS) (cu : Nat) : DS :=
  match k.w.stack cu with
  | some (w', _) => { k with w := w' }
  | none => k

/-- `c.Parent.Units`, `parser/pcontext/unit_context.go:60` -/
def parentUnits (k : DS) (cu : Nat) : List Nat :=
  match k.w.ctxs.obj cu with
  | some (.unit parent _ _) =>
    match k.w.ctxs.obj parent with
    | some (.program _ us _) => us
    | _ => []
  | _ => []

/-- `AssignUnits`, `parser/pcontext/unit_context.go:59-66` -/
def assignUnits (k : DS) (cu : Nat) : List UsesEntry → DS
  | [] => k
  | e :: es =>
    match k.w.byName u (k.parentUnits cu) e.ident.name with
    | some j => assignUnits { k with items := k.items.set e.no (some j) } cu es
    | none => assignUnits k cu es

/-- `usesClause.Units()`, `ast/uses_clause.go:50-56` -/
def unitsOf (k : DS) (es : List UsesEntry) : List (Option Nat) := es.map fun e => (k.items[e.no]?).join

/-- `ImportUnitDecls`, `parser/pcontext/unit_context.go:48-57`; a nil map of a used unit counts as a panic (the code
panics in the first lookup that reaches it) -/
def importUnits (k : DS) (cu : Nat) (es : List UsesEntry) : Option DS :=
  let k1 := k.assignUnits u cu es
  match k1.w.dm cu, k1.w.usedMaps (k1.unitsOf es) with
  | some d, some ms =>
    let l := k1.w.newMap (.impl [])
    let r := l.1.newMap (.composite (l.2 :: ms ++ [d]))
    some { k1 with w := r.1.setDm cu r.2 }
  | _, _ => none

/-- `m.context.Set(m.Unit)`, `parser/unit_parser.go:146` -/
def setUnit (k : DS) (cu : Nat) (h : UnitHead) : SetR DS := k.setR (k.w.set u cu [⟨h.ident.name, .unit h.no⟩])

/-- `parser/unit_parser.go:178-193`: the state in which the implementation is parsed, and the map of the unit until then;
nil maps as in `importUnits` -/
def openImpl (k : DS) (cu unit : Nat) (es : List UsesEntry) : Option (DS × Nat) :=
  let k1 := k.assignUnits u cu es
  match k1.w.dm cu, k1.w.unitDm unit, k1.w.usedMaps (k1.unitsOf es) with
  | some ctxMap, some unitMap, some ms =>
    let l := k1.w.newMap (.impl [])
    let cmp := l.1.newMap (.composite [l.2, unitMap])
    let w3 := cmp.1.setUnitDm unit (some cmp.2)
    let r := w3.newMap (.composite (l.2 :: ctxMap :: ms))
    some ({ k1 with w := r.1.setDm cu r.2 }, unitMap)
  | _, _, _ => none

/-- the deferred assignment `parser/unit_parser.go:188` -/
def closeImpl (k : DS) (unit unitMap : Nat) : DS := { k with w := k.w.setUnitDm unit (some unitMap) }

/-- `NewUnitContext(p.context, path)`, `parser/pcontext/unit_context.go:17-38`; the map of the embedded types has the
number 0 -/
def newUnitContext (k : DS) (cp : Nat) (path : Str) : DS × Nat :=
  let r := k.w.newMap (.chained 0 [])
  ({ k with w := { r.1 with ctxs := .unit cp path r.2 :: r.1.ctxs } }, r.1.ctxs.length)

/-- `AddUnit`, `parser/pcontext/program_context.go:58-60` -/
def addUnit (k : DS) (cp unit : Nat) : DS :=
  { k with w := { k.w with ctxs := k.w.ctxs.modify (CtxObj.addUnit unit) cp } }

/-- `uses.Find(name)`, `ast/uses_clause.go:40-48` -/
def findUses (es : List UsesEntry) (name : Str) : Option UsesEntry :=
  es.find? fun e => u.toLower e.ident.name == u.toLower name

/-- the loop `parser/program.go:154-161`: the items get their units and are collected in a map -/
def usesMap (es : List UsesEntry) : List UnitHead → DS → Tbl Node → Option (DS × Tbl Node)
  | [], k, m => some (k, m)
  | h :: hs, k, m =>
    match findUses u es h.ident.name with
    | none => none
    | some e => usesMap es hs { k with items := k.items.set e.no (some h.no) }
        (m.set u [⟨e.ident.name, .uses e.no⟩]).1

/-- `parser/program.go:163-169`; nil maps as in `importUnits` -/
def enterProgram (k : DS) (cp : Nat) (i : Ident) (hs : List UnitHead) (m : Tbl Node) : Option DS :=
  match k.w.dm cp, k.w.usedMaps (hs.map fun h => some h.no) with
  | some d, some ms =>
    let us := k.w.newMap (.impl m)
    let l := us.1.newMap (.impl (Tbl.set u [] [⟨i.name, .program⟩]).1)
    let r := l.1.newMap (.composite (l.2 :: us.2 :: ms ++ [d]))
    some { k with w := r.1.setDm cp r.2, program := some l.2 }
  | _, _ => none

end DS

/-! ## Uses clauses -/

section
variable (u : Uni)

/-- a step on the state, or a panic -/
def stepP (f : DS → Option DS) : P DS Unit := fun s =>
  match f s.cx with
  | some c => .ok () { s with cx := c }
  | none => .panic

/-- a declaration -/
def stepR (f : DS → SetR DS) : P DS Unit := fun s =>
  match f s.cx with
  | .ok c => .ok () { s with cx := c }
  | .err => .err
  | .panic => .panic

/-- reading the state -/
def askP {α : Type} (f : DS → α) : P DS α := fun s => .ok (f s.cx) s

/-- an item, `parser/uses_clause.go:15-30` -/
def parseUsesItem : P DS (Ident × Option Str) := do
  let t ← P.current (Pred.typ .ident)
  P.next
  if ← P.is (kw u r!"IN") then do
    P.next
    let s ← stringFactor u
    pure (Ident.ofTok t, some s)
  else pure (Ident.ofTok t, none)

/-- the items, `parser/uses_clause.go:14-33` -/
def parseUsesItems : Nat → P DS (List (Ident × Option Str))
  | 0 => P.wait
  | n + 1 => do
    let i ← parseUsesItem u
    match ← P.cur? with
    | none => P.fail
    | some t =>
      if sym r!";" t then pure [i]
      else if sym r!"," t then do
        P.next
        let rest ← parseUsesItems n
        pure (i :: rest)
      else P.fail

/-- `parser/uses_clause.go:34-38` -/
def declareUses : List (Ident × Option Str) → P DS (List UsesEntry)
  | [] => pure []
  | (i, p) :: is => do
    let no ← askP fun k => k.items.length
    stepR fun k => k.setUses u i
    let rest ← declareUses is
    pure (⟨i, p, no⟩ :: rest)

/-- `ParseUsesClause`, `parser/uses_clause.go:8-40`; the semicolon stays current -/
def parseUses (n : Nat) : P DS (List UsesEntry) := do
  let _ ← P.current (kw u r!"USES")
  P.next
  let is ← parseUsesItems u n
  declareUses u is

/-- an optional uses clause and the token after it: `parser/unit_parser.go:131-138, 215-222` -/
def parseOptUses (n : Nat) : P DS (List UsesEntry) := do
  if ← P.is (kw u r!"USES") then do
    let es ← parseUses u n
    P.next
    pure es
  else pure []

/-! ## Units -/

/-- `ParseUnitIdent`, `parser/unit_parser.go:85-114`.  The second component tells whether it returns the unit: without
the semicolon it returns neither the unit nor an error (`err` is nil), but `p.Unit` is set. -/
def parseUnitIdent : P DS (UnitHead × Bool) := do
  let _ ← P.current (kw u r!"UNIT")
  let t ← P.nextIs (Pred.typ .ident)
  let no ← askP fun k => k.w.units.length
  stepR fun k => .ok (k.newUnit (Ident.ofTok t))
  P.next
  let pd ← (do
    let t ← P.cur
    if Pred.directive u portabilityNames t then do
      P.next
      pure (some (t.value u))
    else pure none)
  if ← P.is (sym r!";") then do
    P.next
    pure (⟨Ident.ofTok t, pd, no⟩, true)
  else pure (⟨Ident.ofTok t, pd, no⟩, false)

/-- `ParseUnitIntfUses`, `parser/unit_parser.go:116-123`, with `ParseInterfaceSectionUses`, lines 125-140 -/
def parseIntfUses (n : Nat) : P DS (List UsesEntry) := do
  let _ ← P.current (kw u r!"INTERFACE")
  P.next
  parseOptUses u n

/-- `ParseUnitIdentAndIntfUses`, `parser/unit_parser.go:74-83` -/
def parseIdentAndUses (n : Nat) : P DS ((UnitHead × Bool) × List UsesEntry) := do
  let h ← parseUnitIdent u
  let es ← parseIntfUses u n
  pure (h, es)

/-- one declaration of the interface, `parser/unit_parser.go:282-326`; `none`: another reserved word -/
def parseIntfDecl (n : Nat) (t : Token) : P DS (Option (IntfDecl (Decl Node))) := do
  if t.value u = r!"TYPE" then do
    let first ← askP fun k => k.types.length
    let ds ← parseTypeSection u (declEnv u) n
    pure (some (.type first ds))
  else if t.value u = r!"VAR" then do
    P.next
    let ds ← parseVarDecls u (declEnv u) n
    pure (some (.var ds))
  else if t.value u = r!"THREADVAR" then do
    P.next
    let ds ← parseThreadVarDecls u (declEnv u) n
    pure (some (.threadVar ds))
  else if t.value u = r!"CONST" then do
    P.next
    let ds ← parseConstDecls u (declEnv u) n
    pure (some (.const ds))
  else if t.value u = r!"FUNCTION" ∨ t.value u = r!"PROCEDURE" then do
    let h ← parseExportedHeading u (declEnv u) n
    pure (some (.heading h.1 h.2))
  else pure none

/-- `ParseInterfaceSectionDecls`, `parser/unit_parser.go:265-329` -/
def parseIntfDecls : Nat → P DS (List (IntfDecl (Decl Node)))
  | 0 => P.wait
  | n + 1 => do
    let t ← P.cur
    if t.typ = .eof then pure []
    else if t.typ ≠ .reserved then P.fail
    else do
      match ← parseIntfDecl u n t with
      | none => pure []
      | some d => do
        let rest ← parseIntfDecls n
        pure (d :: rest)

/-- `ParseUnitIntfBody`, `parser/unit_parser.go:157-171` -/
def parseIntfBody (unit n : Nat) : P DS (List (IntfDecl (Decl Node))) := do
  let ds ← parseIntfDecls u n
  stepR fun k => .ok (k.finishIntf u unit ds)
  pure ds

/-- `ParseImplUses`, `parser/unit_parser.go:205-225`; `cu` is the field `context` of the unit parser -/
def parseImplUses (cu n : Nat) : P DS (List UsesEntry) := do
  let _ ← P.current (kw u r!"IMPLEMENTATION")
  P.next
  stepR fun k => .ok (k.stackAt cu)
  parseOptUses u n

/-- `ParseImplBody`, `parser/unit_parser.go:227-245` -/
def parseImplBody (n : Nat) : P DS (DeclSects (Decl Node) × List (List (ExportsItem (Decl Node)))) := do
  let ds ← parseDeclSects u (declEnv u) n
  let ex ← parseExports u (declEnv u) n
  optSemi
  pure (ds, ex)

/-- `ParseInitSection`, `parser/unit_parser.go:331-359` -/
def parseInit (n : Nat) : P DS (InitSection (Decl Node)) := do
  let _ ← P.current (kw u r!"INITIALIZATION")
  P.next
  let ini ← parseStmts u ((declEnv u).senv u) (Pred.some [kw u r!"FINALIZATION", kw u r!"END"]) n
  if ← P.is (kw u r!"FINALIZATION") then do
    P.next
    let fin ← parseStmts u ((declEnv u).senv u) (kw u r!"END") n
    pure ⟨ini, some fin⟩
  else pure ⟨ini, none⟩

/-- `ParseUnitEnd`, `parser/unit_parser.go:247-263`; the period stays current -/
def parseUnitEnd (n : Nat) : P DS (Option (InitSection (Decl Node))) := do
  let init ← (do
    if ← P.is (kw u r!"INITIALIZATION") then do
      let i ← parseInit u n
      pure (some i)
    else pure none)
  let _ ← P.current (kw u r!"END")
  let _ ← P.nextIs (sym r!".")
  pure init

/-- `ParseImplBody` and `ParseUnitEnd` -/
def parseImplAndEnd (n : Nat) : P DS (UnitBody (Decl Node)) := do
  let b ← parseImplBody u n
  let i ← parseUnitEnd u n
  pure ⟨b.1, b.2, i⟩

/-- `ParseUnit`, `parser/unit_parser.go:46-67`: nil without error is `none` -/
def parseUnit (cu n : Nat) : P DS (Option (UnitTree (Decl Node))) := do
  let h ← parseIdentAndUses u n
  let ds ← parseIntfBody u h.1.1.no n
  let es ← parseImplUses u cu n
  let b ← parseImplAndEnd u n
  pure (if h.1.2 then some ⟨h.1.1, h.2, ds, es, b⟩ else none)

/-- `ProcessIntfBody`, `parser/unit_parser.go:142-155` -/
def processIntf (cu : Nat) (h : UnitHead) (es : List UsesEntry) (n : Nat) : P DS (List (IntfDecl (Decl Node))) := do
  stepP fun k => k.importUnits u cu es
  stepR fun k => k.setUnit u cu h
  parseIntfBody u h.no n

/-- `parser/unit_parser.go:178-203`: the part of `ProcessImplAndInit` after `ParseImplUses` -/
def inImpl {α : Type} (cu unit : Nat) (es : List UsesEntry) (p : P DS α) : P DS α := fun s =>
  match s.cx.openImpl u cu unit es with
  | none => .panic
  | some (k, um) =>
    match p { s with cx := k } with
    | .ok a s' => .ok a { s' with cx := s'.cx.closeImpl unit um }
    | .err => .err
    | .panic => .panic
    | .wait => .wait

/-- `ProcessImplAndInit`, `parser/unit_parser.go:173-203` -/
def processImpl (cu unit n : Nat) : P DS (List UsesEntry × UnitBody (Decl Node)) := do
  let es ← parseImplUses u cu n
  let b ← inImpl u cu unit es (parseImplAndEnd u n)
  pure (es, b)

end

/-! ## Programs -/

/-- what reading and decoding a file gives -/
inductive FileR
  /-- `os.Open` fails -/
  | missing
  /-- reading or decoding fails -/
  | unreadable
  /-- what the tokenizer delivers for the text -/
  | tokens (ts : List Token) (tail : Tail)

/-- `UnitParser`, `parser/unit_parser.go:15-19`, with its tokens, the contexts, the pending references, and the parts of
the unit parsed so far -/
structure Loader where
  path : Str
  ts : List Token
  tail : Tail
  /-- the field `context` of `Parser` -/
  cur : Nat
  pending : List (Nat × Str)
  /-- the field `context` of `UnitParser` -/
  cu : Nat
  head : UnitHead
  uses : List UsesEntry
  intf : List (IntfDecl (Decl Node))
  implUses : List UsesEntry
  body : UnitBody (Decl Node)

/-- runs the parser of a unit -/
def Loader.run {α : Type} (l : Loader) (p : P DS α) : P DS (α × Loader) := fun s =>
  match p ⟨l.ts, l.tail, { s.cx with cur := l.cur, pending := l.pending }⟩ with
  | .ok a s' => .ok (a, { l with ts := s'.ts, tail := s'.tail, cur := s'.cx.cur, pending := s'.cx.pending })
      { s with cx := { s'.cx with cur := s.cx.cur, pending := s.cx.pending } }
  | .err => .err
  | .panic => .panic
  | .wait => .wait

/-- `ast.Program`, `ast/program.go:13-20`, with `ProgramBlock`, lines 54-57, and `Program.Units`,
`parser/program.go:15-18` -/
structure ProgramTree (δ : Type) where
  ident : Ident
  uses : List UsesEntry
  units : List (UnitTree δ)
  block : Block δ

section
variable (u : Uni) (sep : Char) (files : Str → FileR) (lib : TopoLib) (it : List UParser → List Str)

/-- `NewUnitParser(NewUnitContext(p.context, path))` for every item with a path, `parser/program.go:116-122` -/
def newLoaders (cp : Nat) : List UsesEntry → P DS (List (Str × Nat))
  | [] => pure []
  | e :: es => do
    let path := UsesItem.effectivePath sep e.path
    if path = [] then newLoaders cp es
    else do
      let c ← askP fun k => (k.newUnitContext cp path).2
      stepR fun k => .ok (k.newUnitContext cp path).1
      let rest ← newLoaders cp es
      pure ((path, c) :: rest)

/-- `LoadFile` and `ProcessIdentAndIntfUses`, `parser/unit_parser.go:25-42, 69-72` -/
def loadUnit (n : Nat) (path : Str) (c : Nat) : P DS Loader :=
  match files path with
  | .missing => P.fail
  | .unreadable => P.fail
  | .tokens ts tail => do
    let l : Loader := ⟨path, ts, tail, c, [], c, ⟨⟨[], ⟨0, 0, 0⟩, ⟨0, 0, 0⟩⟩, none, 0⟩, [], [], [], ⟨.nil, [], none⟩⟩
    let r ← l.run (do
      let _ ← P.cur?
      parseIdentAndUses u n)
    pure { r.2 with head := r.1.1.1, uses := r.1.2 }

/-- the loop `parser/program.go:124-132` -/
def loadAll (cp n : Nat) : List (Str × Nat) → P DS (List Loader)
  | [] => pure []
  | (path, c) :: ls => do
    let l ← loadUnit u files n path c
    stepR fun k => .ok (k.addUnit cp l.head.no)
    let rest ← loadAll cp n ls
    pure (l :: rest)

/-- the loop `parser/program.go:139-143` -/
def intfAll (n : Nat) : List Nat → List Loader → P DS (List Loader)
  | [], ls => pure ls
  | i :: is, ls => do
    match ls[i]? with
    | none => intfAll n is ls
    | some l => do
      let r ← l.run (processIntf u l.cu l.head l.uses n)
      intfAll n is (ls.set i { r.2 with intf := r.1 })

/-- the loop `parser/program.go:145-149` -/
def implAll (n : Nat) : List Nat → List Loader → P DS (List Loader)
  | [], ls => pure ls
  | i :: is, ls => do
    match ls[i]? with
    | none => implAll n is ls
    | some l => do
      let r ← l.run (processImpl u l.cu l.head.no n)
      implAll n is (ls.set i { r.2 with implUses := r.1.1, body := r.1.2 })

/-- the parsers as `Sort` sees them -/
def uparsers (ls : List Loader) : List UParser :=
  ls.zipIdx.map fun (l, i) => ⟨i, l.head.ident.name, l.uses.map fun e => e.ident.name⟩

/-- `usesItem.Unit = u` and the maps, `parser/program.go:151-169` -/
def enterP (cp : Nat) (i : Ident) (es : List UsesEntry) (hs : List UnitHead) : P DS Unit := fun s =>
  match s.cx.usesMap u es hs [] with
  | none => .err
  | some (k, m) =>
    match k.enterProgram u cp i hs m with
    | some c => .ok () { s with cx := c }
    | none => .panic

/-- `LoadUnits`, `parser/program.go:115-172` -/
def loadUnits (cp : Nat) (i : Ident) (es : List UsesEntry) (n : Nat) : P DS (List Loader) := do
  let cs ← newLoaders sep cp es
  let ls ← loadAll u files cp n cs
  match UnitParsers.sort u lib (it (uparsers ls)) (uparsers ls) with
  | none => P.fail
  | some sorted => do
    let ls1 ← intfAll u n (sorted.map UParser.id) ls
    let ls2 ← implAll u n (sorted.map UParser.id) ls1
    enterP u cp i es (ls2.map Loader.head)
    pure ls2

/-- the unit of a parser -/
def Loader.tree (l : Loader) : UnitTree (Decl Node) := ⟨l.head, l.uses, l.intf, l.implUses, l.body⟩

/-- `ParseProgramBlock` up to the block, `parser/program.go:94-106` -/
def parseProgramUses (cp : Nat) (i : Ident) (n : Nat) : P DS (List UsesEntry × List (UnitTree (Decl Node))) := do
  if ← P.is (kw u r!"USES") then do
    let es ← parseUses u n
    P.next
    let ls ← loadUnits u sep files lib it cp i es n
    pure (es, ls.map Loader.tree)
  else pure ([], [])

/-- `(*ProgramParser).ParseProgram`, `parser/program.go:64-91`, with `ParseProgramBlock`, lines 93-113 -/
def parseProgram (cp n : Nat) : P DS (ProgramTree (Decl Node)) := do
  let _ ← P.current (kw u r!"PROGRAM")
  let t ← P.nextIs (Pred.typ .ident)
  let _ ← P.nextIs (sym r!";")
  P.next
  let us ← parseProgramUses u sep files lib it cp (Ident.ofTok t) n
  let b ← parseBlock u (declEnv u) n
  let _ ← P.current (sym r!".")
  pure ⟨Ident.ofTok t, us.1, us.2, b⟩

/-- `ParseProgram`, `parser/program.go:20-52` -/
def parseProgramFile (path : Str) (n : Nat) : R (PS DS) (ProgramTree (Decl Node)) :=
  match files path with
  | .missing => .panic
  | .unreadable => .err
  | .tokens ts tail =>
    (do let _ ← P.cur?
        parseProgram u sep files lib it 0 n : P DS _) ⟨ts, tail, DS.init path⟩

end

end TP
