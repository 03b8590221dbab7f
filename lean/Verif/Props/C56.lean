import Verif.Lemmas.SortOne
import Verif.Props.C49

/-!
# C56  The random order of Go's maps does not matter

`Sort` gives the unit names to the graph library in the order of a Go map, which is random (`parser/unit_parsers.go:44-55`,
`UnitNames().Slice()`), so the units are read in one of several orders.
-/

namespace TP.Props
open TP Spec

section
variable (u : Uni) (sep : Char) (files : Str → FileR) (lib : TopoLib) (it it' : List UParser → List Str)

/-- If the call returns a program for one order of the map, and of every two of its units one uses the other (and their names
differ), every call returns the same program and leaves the same state.  Missing: units that do not use each other; see the
refutations below. -/
theorem C56_chain_partial (hlib : TopoCorrect lib) (hit : IterOK u it) (hit' : IterOK u it') (path : Str) (n : Nat)
    (t : ProgramTree (Decl Node)) (s : PS DS) (h : parseProgramFile u sep files lib it path n = .ok t s)
    (hd : DistinctUnits u (t.units.map UnitTree.head)) (hc : Chain u (t.units.map fun d => (d.head, d.intfUses))) :
    parseProgramFile u sep files lib it' path n = .ok t s :=
  program_one hlib hit hit' h hd hc

/-- In particular for programs with one unit or none, with a path. -/
theorem C56_single_partial (hlib : TopoCorrect lib) (hit : IterOK u it) (hit' : IterOK u it') (path : Str) (n : Nat)
    (t : ProgramTree (Decl Node)) (s : PS DS) (h : parseProgramFile u sep files lib it path n = .ok t s) (hs : t.units.length ≤ 1) :
    parseProgramFile u sep files lib it' path n = .ok t s := by
  refine C56_chain_partial u sep files lib it it' hlib hit hit' path n t s h ?_ ?_
  · unfold DistinctUnits
    match e : t.units, hs with
    | [], _ => exact List.nodup_nil
    | [_], _ => exact List.nodup_singleton _
  · intro a ha b hb hab
    match e : t.units, hs with
    | [], _ => rw [e] at ha; cases ha
    | [x], _ =>
      rw [e] at ha hb
      rw [List.mem_singleton.1 ha, List.mem_singleton.1 hb] at hab
      exact absurd rfl hab

end

/-! ## Examples -/

/-- another order -/
def exIterR (ps : List UParser) : List Str := (exIter ps).reverse

theorem exIter_ok : IterOK asciiUni exIter := fun _ => List.Perm.refl _
theorem exIterR_ok : IterOK asciiUni exIterR := fun _ => List.reverse_perm _

/-- the hypotheses hold for a program with two units -/
def exInLine : List (Str × Str) :=
  [(r!"p", r!"program P; uses A in 'a', B in 'b'; begin x := A.c + B.d; end."),
   (r!"a", r!"unit A; interface uses B; const c = B.d; implementation end."),
   (r!"b", r!"unit B; interface const d = 2; implementation end.")]

example : unitsRead (exProgram exInLine) = some [(r!"A", [r!"B"]), (r!"B", [])] := by krfl
example : unitsRead (parseProgramFile asciiUni '/' (exFiles exInLine) kahnLib exIterR r!"p" 400) = some [(r!"A", [r!"B"]), (r!"B", [])] := by
  krfl

/-! ## Refutations -/

/-- Both units contain an error: an expression is missing in `A`, there is a rune that is no token in `B`. -/
def exTwoErrors : List (Str × Str) :=
  [(r!"p", r!"program P; uses A in 'a', B in 'b'; begin x := 1; end."),
   (r!"a", r!"unit A; interface const c = ; implementation end."),
   (r!"b", r!"unit B; interface const d = ?; implementation end.")]

/-- Refuted: whether `ParseProgram` returns an error or panics depends on the order. -/
theorem C56_refuted_outcome : ∃ (files : Str → FileR) (it it' : List UParser → List Str), IterOK asciiUni it ∧ IterOK asciiUni it' ∧
    (parseProgramFile asciiUni '/' files kahnLib it r!"p" 400 matches .err) = true ∧
    (parseProgramFile asciiUni '/' files kahnLib it' r!"p" 400 matches .panic) = true :=
  ⟨exFiles exTwoErrors, exIter, exIterR, exIter_ok, exIterR_ok, by krfl, by krfl⟩

/-- Two units complete the forward class of a third one. -/
def exTwoClasses : List (Str × Str) :=
  [(r!"p", r!"program P; uses U in 'u', A in 'a', B in 'b'; begin x := 1; end."),
   (r!"u", r!"unit U; interface type T = class; implementation end."),
   (r!"a", r!"unit A; interface uses U; type T = class x: Integer; end; implementation end."),
   (r!"b", r!"unit B; interface uses U; type T = class y: Integer; end; implementation end.")]

/-- the fields of the class the first type was completed with, its `Actual` -/
def actualFields : R (PS DS) (ProgramTree (Decl Node)) → Option (List (List (List Str)))
  | .ok _ s =>
    match (s.cx.actual.lookup 0).bind fun i => s.cx.types[i]? with
    | some (.cls _ ms) => some ((DS.sections ms).map fun s => s.fields.map fun f => f.names)
    | _ => none
  | _ => none

/-- Refuted: a program is returned for both orders, but they are different.  The field `Actual` of the forward class of unit `U`
is the class of `A` in one of them and the class of `B` in the other. -/
theorem C56_refuted_actual : ∃ (files : Str → FileR) (it it' : List UParser → List Str), IterOK asciiUni it ∧ IterOK asciiUni it' ∧
    actualFields (parseProgramFile asciiUni '/' files kahnLib it r!"p" 400) = some [[[r!"y"]]] ∧
    actualFields (parseProgramFile asciiUni '/' files kahnLib it' r!"p" 400) = some [[[r!"x"]]] :=
  ⟨exFiles exTwoClasses, exIter, exIterR, exIter_ok, exIterR_ok, by krfl, by krfl⟩

end TP.Props
