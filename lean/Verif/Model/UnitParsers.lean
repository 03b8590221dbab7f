import Verif.Model.Ext

/-!
# Model of `parser/unit_parsers.go` and of the order of work in `LoadUnits` (`parser/program.go:115-172`)

The graph library `github.com/philopon/go-toposort` is not part of the repository: it is the parameter `lib`, with
the contract `TopoCorrect` (`Verif/Spec/Topo.lean`).  `kahn` is an implementation that meets the contract.
-/

namespace TP

/-- a `UnitParser` after `ProcessIdentAndIntfUses`: its number in the list of parsers, `Unit.Name`, and the names in
`Unit.InterfaceSection.UsesClause` -/
structure UParser where
  id : Nat
  name : Str
  uses : List Str
  deriving DecidableEq, Repr

/-- `toposort`: `sort nodes edges` is the result of `Toposort` on the graph with these nodes and edges (added in this
order); `none` stands for `ok = false`. -/
structure TopoLib where
  sort : List Str → List (Str × Str) → Option (List Str)

namespace UnitParsers
variable (u : Uni)

/-- `UnitNames`, `parser/unit_parsers.go:23-33` -/
def unitNames (m : List UParser) : StringSet :=
  Strings.set (m.foldl (fun r p => p.uses.foldl (fun r n => r ++ [u.toLower n]) (r ++ [u.toLower p.name])) [])

/-- `Map`, `parser/unit_parsers.go:35-42`; an assignment to a key replaces the value -/
def map (m : List UParser) : List (Str × UParser) :=
  m.foldl (fun r p => (u.toLower p.name, p) :: r.filter (fun e => e.1 ≠ u.toLower p.name)) []

/-- the edges added by `Graph`, `parser/unit_parsers.go:49-53` -/
def edges (m : List UParser) : List (Str × Str) :=
  m.foldl (fun r p => p.uses.foldl (fun r n => r ++ [(u.toLower n, u.toLower p.name)]) r) []

/-- the loop of `Sort`, `parser/unit_parsers.go:67-71` -/
def collect (loaderMap : List (Str × UParser)) : List Str → List UParser
  | [] => []
  | name :: order =>
    match loaderMap.lookup name with
    | some p => p :: collect loaderMap order
    | none => collect loaderMap order

/-- `Sort`, `parser/unit_parsers.go:57-73`; `it` is the iteration order of the set of unit names in `Slice`. -/
def sort (lib : TopoLib) (it : List Str) (m : List UParser) : Option (List UParser) :=
  match lib.sort (StringSet.slice it) (edges u m) with
  | none => none
  | some order => some (collect (map u m) order)

end UnitParsers

/-- An implementation of the library: repeatedly take the first node without predecessor among the remaining ones.
(Not the code of the library; it shows that the contract can be met.) -/
def kahn (edges : List (Str × Str)) : Nat → List Str → Option (List Str)
  | _, [] => some []
  | 0, _ :: _ => none
  | n + 1, nodes =>
    match nodes.find? (fun b => edges.all (fun e => !(e.2 == b && nodes.contains e.1))) with
    | none => none
    | some a => (kahn edges n (nodes.erase a)).map (a :: ·)

def kahnLib : TopoLib := ⟨fun nodes edges => kahn edges nodes.length nodes⟩

/-! ## `LoadUnits` -/

/-- the steps of `LoadUnits` on the parser with that number -/
inductive LoadEvent
  | load (i : Nat)
  | ident (i : Nat)
  | addUnit (i : Nat)
  | intf (i : Nat)
  | impl (i : Nat)
  deriving DecidableEq, Repr

/-- What the steps do is a parameter: each changes the state and may fail.  `info` reads name and uses clause of a
parser. -/
structure LoadOps (σ : Type) where
  load : Nat → σ → σ × Bool
  ident : Nat → σ → σ × Bool
  addUnit : Nat → σ → σ
  intf : Nat → σ → σ × Bool
  impl : Nat → σ → σ × Bool
  info : σ → Nat → Str × List Str

namespace LoadOps
variable {σ : Type} (ops : LoadOps σ)

/-- the loop of `parser/program.go:124-132` -/
def identLoop : List Nat → σ → List LoadEvent × σ × Bool
  | [], s => ([], s, true)
  | i :: is, s =>
    match ops.load i s with
    | (s1, false) => ([.load i], s1, false)
    | (s1, true) =>
      match ops.ident i s1 with
      | (s2, false) => ([.load i, .ident i], s2, false)
      | (s2, true) =>
        let r := identLoop is (ops.addUnit i s2)
        (.load i :: .ident i :: .addUnit i :: r.1, r.2)

/-- the loop of `parser/program.go:139-143` -/
def intfLoop : List Nat → σ → List LoadEvent × σ × Bool
  | [], s => ([], s, true)
  | i :: is, s =>
    match ops.intf i s with
    | (s1, false) => ([.intf i], s1, false)
    | (s1, true) => let r := intfLoop is s1; (.intf i :: r.1, r.2)

/-- the loop of `parser/program.go:145-149` -/
def implLoop : List Nat → σ → List LoadEvent × σ × Bool
  | [], s => ([], s, true)
  | i :: is, s =>
    match ops.impl i s with
    | (s1, false) => ([.impl i], s1, false)
    | (s1, true) => let r := implLoop is s1; (.impl i :: r.1, r.2)

/-- the parsers as `Sort` sees them -/
def parsers (n : Nat) (s : σ) : List UParser :=
  (List.range n).map (fun i => ⟨i, (ops.info s i).1, (ops.info s i).2⟩)

/-- `LoadUnits`, `parser/program.go:124-149`, with `n` parsers: the steps done, and the state and success at the end. -/
def loadUnits (u : Uni) (lib : TopoLib) (it : List UParser → List Str) (n : Nat) (s : σ) :
    List LoadEvent × σ × Bool :=
  match ops.identLoop (List.range n) s with
  | (e1, s1, false) => (e1, s1, false)
  | (e1, s1, true) =>
    let ps := ops.parsers n s1
    match UnitParsers.sort u lib (it ps) ps with
    | none => (e1, s1, false)
    | some sorted =>
      match ops.intfLoop (sorted.map UParser.id) s1 with
      | (e2, s2, false) => (e1 ++ e2, s2, false)
      | (e2, s2, true) =>
        let r := ops.implLoop (sorted.map UParser.id) s2
        (e1 ++ e2 ++ r.1, r.2)

end LoadOps
end TP
