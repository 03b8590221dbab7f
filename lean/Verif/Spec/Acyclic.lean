import Verif.Model.DeclEnv

/-!
# Types that do not lead back to themselves
-/

namespace TP.Spec
open TP

/-- the type identifiers that a search through types may follow: of an alias, of the elements of a set or of a file, and the
heritage of a class -/
def chainIds : PType (Decl Node) → List (TypeId (Decl Node))
  | .id t => [t]
  | .set _ t => chainIds t
  | .file _ t => [t]
  | .cls h _ => h
  | _ => []

/-- the declaration of type `i` mentions type `j` in such a place -/
def LeadsTo (k : DS) (i j : Nat) : Prop :=
  ∃ ty t name, k.types[i]? = some ty ∧ t ∈ chainIds ty ∧ k.ref t.ref = some ⟨name, .type j⟩

/-- No type leads back to itself: some ranking decreases.  The references of the types are known to the parser. -/
structure Acyclic (k : DS) : Prop where
  rank : ∃ rank : Nat → Nat, ∀ i j, LeadsTo k i j → rank j < rank i
  known : ∀ ty ∈ k.types, ∀ t ∈ chainIds ty, ∀ i, t.ref = .later i → i < k.refs.length

end TP.Spec
