import Verif.Spec.Goal
import Mathlib.Logic.Relation

/-!
# Units with only one possible order
-/

namespace TP.Spec
open TP

/-- Of every two units one uses the other in its interface, directly or through other units. -/
def Chain (u : Uni) (us : List (UnitHead × List UsesEntry)) : Prop :=
  ∀ a ∈ us, ∀ b ∈ us, u.toLower a.1.ident.name ≠ u.toLower b.1.ident.name →
    Relation.TransGen (UsesName u us) (u.toLower a.1.ident.name) (u.toLower b.1.ident.name) ∨
    Relation.TransGen (UsesName u us) (u.toLower b.1.ident.name) (u.toLower a.1.ident.name)

end TP.Spec
