import Verif.Model.DeclMap

/-!
# Specification of scopes

A declaration map stands for a list of *layers* (its own table, its parent's layers, ...), searched in order.
-/

namespace TP.Spec
open TP
variable {ν : Type}

/-- the table an object holds itself -/
def ownTable [EmbNode ν] (u : Uni) : MapObj ν → Str → Option (Decl ν)
  | .impl m, name => m.get u name
  | .chained _ m, name => m.get u name
  | .composite _, _ => none
  | .embedded, name => embGet u name

/-- what the object with reference `i` declares itself -/
def own [EmbNode ν] (u : Uni) (h : Maps ν) (i : Nat) (name : Str) : Option (Decl ν) :=
  match h.obj i with
  | some o => ownTable u o name
  | none => none

/-- the layers of a map in search order -/
def layers : Maps ν → Nat → List Nat
  | [], _ => []
  | o :: h, i =>
    if i = h.length then
      match o with
      | .impl _ => [i]
      | .chained p _ => i :: layers h p
      | .composite ms => ms.flatMap (layers h)
      | .embedded => [i]
    else layers h i

/-- the layer that declarations made through the map go to: the innermost scope -/
def target : Maps ν → Nat → Option Nat
  | [], _ => none
  | o :: h, i =>
    if i = h.length then
      match o with
      | .impl _ => some i
      | .chained _ _ => some i
      | .composite [] => none
      | .composite (j :: _) => target h j
      | .embedded => none
    else target h i

end TP.Spec
