import Verif.Model.Context

/-!
# Model of the declaration map handling of `parser/unit_parser.go`

The parsing itself is a parameter (`body`): here only the effects on maps, units and contexts are modelled.
-/

namespace TP
namespace World
variable {ν : Type} (u : Uni)

/-- `m.Unit.DeclMap = d` -/
def setUnitDm (w : World ν) (i : Nat) (d : Option Nat) : World ν :=
  match w.units[i]? with
  | none => w
  | some o => { w with units := w.units.set i { o with dm := d } }

/-- The map made by `ParseUnitIntfBody`, `parser/unit_parser.go:161-168`: errors of `Set` are ignored.  The
argument lists `ToDeclarations()` of every declaration node of the interface. -/
def intfTable : List (List (Decl ν)) → Tbl ν → Tbl ν
  | [], m => m
  | ds :: nodes, m => intfTable nodes (m.set u ds).1

/-- `ParseUnitIntfBody` after parsing, `parser/unit_parser.go:161-168` -/
def finishIntf (w : World ν) (i : Nat) (nodes : List (List (Decl ν))) : World ν :=
  let r := w.newMap (.impl (intfTable u nodes []))
  r.1.setUnitDm i (some r.2)

/-- declaring the uses items one after the other, `parser/uses_clause.go:34-38` -/
def setAll (w : World ν) (c : Nat) : List (Decl ν) → World ν × Outcome
  | [] => (w, .ok)
  | d :: ds =>
    match w.set u c [d] with
    | (w1, .ok) => setAll w1 c ds
    | r => r

end World

/-- The first part of `ProcessImplAndInit`, `parser/unit_parser.go:173-193`, with `ParseImplUses` (`205-225`): the
state in which the implementation is parsed and the original map of the unit, or the early result.  `cu` is the
field `context` of the unit parser, `p.cur` the field `context` of the parser (initially the same object), `i` the
unit, `items` the declarations of the uses items of the implementation. -/
def implStart {ν : Type} (u : Uni) (p : PCtx ν) (cu i : Nat) (items : List (Decl ν)) :
    Except (PCtx ν × Outcome) (PCtx ν × Nat) :=
  match p.w.stack cu with
  | none => .error (p, .panic)
  | some (w1, _) =>
    match w1.setAll u p.cur items with
    | (w2, .ok) =>
      match w2.dm cu, w2.unitDm i, w2.usedMaps (w2.usedUnits u cu (items.map Decl.name)) with
      | some ctxMap, some unitMap, some ms =>
        let l := w2.newMap (.impl [])
        let cmp := l.1.newMap (.composite [l.2, unitMap])
        let w3 := cmp.1.setUnitDm i (some cmp.2)
        let r := w3.newMap (.composite (l.2 :: ctxMap :: ms))
        .ok (⟨r.1.setDm cu r.2, p.cur⟩, unitMap)
      | _, _, _ => .error (⟨w2, p.cur⟩, .panic)
    | (w2, out) => .error (⟨w2, p.cur⟩, out)

/-- `ProcessImplAndInit`, `parser/unit_parser.go:173-203`.  `body` stands for `ParseImplBody` and `ParseUnitEnd`.
The deferred assignment restores the map of the unit in every case. -/
def processImplAndInit {ν : Type} (u : Uni) (p : PCtx ν) (cu i : Nat) (items : List (Decl ν))
    (body : PCtx ν → PCtx ν × Outcome) : PCtx ν × Outcome :=
  match implStart u p cu i items with
  | .error r => r
  | .ok (q, unitMap) => let res := body q; (⟨res.1.w.setUnitDm i (some unitMap), res.1.cur⟩, res.2)

end TP
