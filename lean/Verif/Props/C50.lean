import Verif.Props.C49

/-!
# C50  Units that use each other in a circle are rejected
-/

namespace TP.Props
open TP Spec

section
variable (u : Uni) (sep : Char) (files : Str → FileR) (lib : TopoLib) (it : List UParser → List Str)

/-- If a program is returned, no chain of interface uses clauses leads from a unit back to it.  For every correct
library that sorts the units and every order of map iteration. -/
theorem C50_acyclic (hlib : TopoCorrect lib) (hit : IterOK u it) (path : Str) (n : Nat) (s' : PS DS)
    (t : ProgramTree (Decl Node)) (h : parseProgramFile u sep files lib it path n = .ok t s') :
    ¬ ∃ a, Relation.TransGen (UsesName u (t.units.map fun d => (d.head, d.intfUses))) a a := by
  obtain ⟨_, _, _, _, _, _, _, h6⟩ := program_ok u sep files lib it hlib hit h
  exact h6

end

/-- two units -/
def exTwo (usesA usesB implB : Str) : List (Str × Str) :=
  [(r!"p", r!"program P; uses A in 'a', B in 'b'; begin A.x := B.x; end."),
   (r!"a", r!"unit A; interface " ++ usesA ++ r!" const x = 1; implementation end."),
   (r!"b", r!"unit B; interface " ++ usesB ++ r!" const x = 1; implementation " ++ implB ++ r!" end.")]

example : exProgram (exTwo r!"uses B;" r!"uses A;" []) matches .err := by krfl
example : exProgram (exTwo r!"uses A;" [] []) matches .err := by krfl
/-- a circle through an implementation is fine -/
example : unitsRead (exProgram (exTwo r!"uses B;" [] r!"uses A;")) = some [(r!"A", [r!"B"]), (r!"B", [])] := by krfl

end TP.Props
