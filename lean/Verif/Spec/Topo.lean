import Verif.Model.UnitParsers

/-!
# Specification of dependency orders
-/

namespace TP.Spec
open TP

/-- `a` occurs in front of `b` in `l` -/
def InFront {α : Type} (l : List α) (a b : α) : Prop := ∃ l₁ l₂ l₃, l = l₁ ++ a :: l₂ ++ b :: l₃

/-- there is a cycle -/
def Cyclic {α : Type} (r : α → α → Prop) : Prop := ∃ a, Relation.TransGen r a a

/-- The contract of the graph library: for graphs without repeated nodes, `Toposort` returns all nodes in an order that
respects the edges, or fails, and then there is a cycle or an edge was added twice. -/
def TopoCorrect (lib : TopoLib) : Prop :=
  ∀ (nodes : List Str) (edges : List (Str × Str)), nodes.Nodup →
    (∀ e ∈ edges, e.1 ∈ nodes ∧ e.2 ∈ nodes) →
    match lib.sort nodes edges with
    | some l => l.Perm nodes ∧ ∀ e ∈ edges, InFront l e.1 e.2
    | none => edges.Nodup → Cyclic (fun a b => (a, b) ∈ edges)

/-- unit `p` uses the loaded unit `q` in its interface; names are compared ignoring case -/
def Uses (u : Uni) (m : List UParser) (p q : UParser) : Prop :=
  p ∈ m ∧ q ∈ m ∧ ∃ n ∈ p.uses, u.toLower n = u.toLower q.name

/-- no two units have the same name and no uses clause names a unit twice (a second name is an error already in
`ParseUsesClause`, `parser/uses_clause.go:34-38`) -/
def DistinctNames (u : Uni) (m : List UParser) : Prop :=
  (m.map (fun p => u.toLower p.name)).Nodup ∧ ∀ p ∈ m, (p.uses.map u.toLower).Nodup

end TP.Spec
