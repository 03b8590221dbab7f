import Verif.Props.C49

/-!
# C41  A failed unit header is an error

False: without the semicolon behind the name of the unit `ParseUnit` returns neither a unit nor an error.
-/

namespace TP.Props
open TP Spec

/-- what `ParseUnit` returns: whether there is a unit -/
def hasUnit : R (PS DS) (Option (UnitTree (Decl Node))) → Option Bool
  | .ok t _ => some t.isSome
  | _ => none

/-- The unit is parsed to the end, and nil is returned without an error. -/
theorem C41_refuted : hasUnit (exUnit r!"unit U interface const x = 1; implementation end.") = some false ∧
    hasUnit (exUnit r!"unit U platform interface const x = 1; implementation end.") = some false := by
  refine ⟨?_, ?_⟩ <;> krfl

example : hasUnit (exUnit r!"unit U; interface const x = 1; implementation end.") = some true := by krfl
example : exUnit r!"unit U, V; interface implementation end." matches .err := by krfl

section
variable (u : Uni)

/-- It is the only case: the tokens are `unit`, the name, possibly a portability directive, and then `interface` without
a semicolon. -/
theorem C41_header_partial (cu n : Nat) (s s' : PS DS) (h : parseUnit u cu n s = .ok none s') :
    ∃ hd z, gUnitName u hd s.ts z ∧ kwR u r!"INTERFACE" z z.tail := by
  have := unit_sound (cu := cu) (n := n) (anyBase u (declEnv u) s.tail) (anyBase u (declEnv u) s.tail)
    (fun c _ i => anyUses u c i) (fun c _ i => anyUses u c i)
    (fun _ _ _ => trivial) (fun _ _ _ _ => trivial) (fun _ _ => trivial) (s := s) ⟨rfl, trivial, trivial⟩ (fun _ => trivial)
  unfold wp at this
  rw [h] at this
  exact this.2.2

/-- With the semicolon there is a unit or an error (or a panic, or no answer, see C36 and C40).  What is missing: the
semicolon is a hypothesis. -/
theorem C41_semicolon_partial (cu n : Nat) (s s' : PS DS) (o : Option (UnitTree (Decl Node))) (t0 t1 t2 : Token)
    (ts : List Token) (hs : s.ts = t0 :: t1 :: t2 :: ts) (h2 : IsSym r!";" t2)
    (h : parseUnit u cu n s = .ok o s') : o.isSome = true := by
  cases o with
  | some _ => rfl
  | none =>
    obtain ⟨hd, z, ⟨_, ⟨a, e, _⟩, _, ⟨b, e', _⟩, g⟩, c, e2, hc⟩ := C41_header_partial u cu n s s' h
    rw [hs] at e
    cases e
    cases e'
    cases hp : hd.portability with
    | none =>
      rw [hp] at g
      cases g
      cases e2
      have : t2.typ = .reserved := hc.1
      rw [h2.1] at this
      cases this
    | some p =>
      rw [hp] at g
      obtain ⟨d, e3, hd, _⟩ := g
      cases e3
      unfold IsWordOf at hd
      have hl : (u.toUpper t2.raw).length = 1 := by rw [h2.2]; rfl
      simp only [portabilityNames, List.mem_cons, List.not_mem_nil, or_false] at hd
      rcases hd with hd | hd | hd <;> rw [hd] at hl <;> simp at hl

end

end TP.Props
