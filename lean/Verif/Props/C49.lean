import Verif.Lemmas.ProgramSound

/-!
# C49  Units and programs are read off their tokens

False for units inside a program: the semicolon behind the name of a unit may be missing (and is not noticed).
-/

namespace TP.Props
open TP Spec

section
variable (u : Uni)

/-- A unit that is returned by `ParseUnit` is the text in front of the period: name, portability directive, uses clauses,
declarations, statements, in order.  What is missing: the deviations listed in `Verif/Spec/Decl.lean`. -/
theorem C49_unit_partial (cu n : Nat) (s s' : PS DS) (t : UnitTree (Decl Node))
    (h : parseUnit u cu n s = .ok (some t) s') : s'.tail = s.tail ∧ s'.ts <:+ s.ts ∧ gUnit u t s.ts s'.ts := by
  have := unit_sound (cu := cu) (n := n) ((anyBase u (declEnv u) s.tail).from s.ts)
    ((anyBase u (declEnv u) s.tail).from s.ts) (fun c _ i => anyUses u c i) (fun c _ i => anyUses u c i)
    (fun _ _ _ => trivial) (fun _ _ _ _ => trivial) (fun _ _ => trivial) (s := s)
    ⟨rfl, trivial, trivial, List.suffix_rfl⟩ (fun _ => trivial)
  unfold wp at this
  rw [h] at this
  exact ⟨this.1.tail, this.1.good.2, this.2.2⟩

variable (sep : Char) (files : Str → FileR) (lib : TopoLib) (it : List UParser → List Str)

/-- all that is known of a program that is returned -/
theorem program_ok (hlib : TopoCorrect lib) (hit : IterOK u it) {path : Str} {n : Nat} {s' : PS DS}
    {t : ProgramTree (Decl Node)} (h : parseProgramFile u sep files lib it path n = .ok t s') :
    ∃ ts tl, files path = .tokens ts tl ∧ s'.tail = tl ∧ gProgram u t ts s'.ts ∧
      (t.units.length = ((t.uses.map fun e => UsesItem.effectivePath sep e.path).filter (· ≠ [])).length) ∧
      (DistinctUnits u (t.units.map UnitTree.head) →
        List.Forall₂ (fun p d => ∃ ts tl rest, files p = .tokens ts tl ∧ gUsedUnit u d ts rest)
          ((t.uses.map fun e => UsesItem.effectivePath sep e.path).filter (· ≠ [])) t.units) ∧
      ¬ Cyclic (UsesName u (t.units.map fun d => (d.head, d.intfUses))) := by
  unfold parseProgramFile at h
  cases e : files path with
  | missing => rw [e] at h; cases h
  | unreadable => rw [e] at h; cases h
  | tokens ts tl =>
    rw [e] at h
    simp only at h
    refine ⟨ts, tl, rfl, ?_⟩
    have g := program_wp (sep := sep) (files := files) hlib hit (cp := 0) (n := n) ⟨ts, tl, DS.init path⟩
    have := (anyBase u (declEnv u) tl).cur? (s := ⟨ts, tl, DS.init path⟩)
      (f := fun _ => parseProgram u sep files lib it 0 n) ⟨rfl, trivial, trivial⟩ g fun _ _ => g
    unfold wp at this
    rw [h] at this
    exact this

/-- A program that is returned by `ParseProgram` is the text of its file in front of the period, and the units it returns
are, one by one and in the order of the uses clause, the texts of the files the clause refers to, if the units have
different names.  The library that sorts the units is any correct one, and the order in which Go iterates over a map is
any order.

What is missing: the semicolon behind the name of a unit is optional here (`gUsedUnit`); when two units have the same
name, only their number is known; and the deviations listed in `Verif/Spec/Decl.lean`. -/
theorem C49_program_partial (hlib : TopoCorrect lib) (hit : IterOK u it) (path : Str) (n : Nat) (s' : PS DS)
    (t : ProgramTree (Decl Node)) (h : parseProgramFile u sep files lib it path n = .ok t s') :
    (∃ ts tl, files path = .tokens ts tl ∧ s'.tail = tl ∧ gProgram u t ts s'.ts) ∧
    t.units.length = ((t.uses.map fun e => UsesItem.effectivePath sep e.path).filter (· ≠ [])).length ∧
    (DistinctUnits u (t.units.map UnitTree.head) →
      List.Forall₂ (fun p d => ∃ ts tl rest, files p = .tokens ts tl ∧ gUsedUnit u d ts rest)
        ((t.uses.map fun e => UsesItem.effectivePath sep e.path).filter (· ≠ [])) t.units) := by
  obtain ⟨ts, tl, h1, h2, h3, h4, h5, _⟩ := program_ok u sep files lib it hlib hit h
  exact ⟨⟨ts, tl, h1, h2, h3⟩, h4, h5⟩

end

/-! ## Examples -/

/-- files with these texts -/
def exFiles (l : List (Str × Str)) (p : Str) : FileR :=
  match l.find? fun e => e.1 == p with
  | some e =>
    match lex asciiUni e.2 400 with
    | some (ts, tl) => .tokens ts tl
    | none => .tokens [] .hang
  | none => .missing

/-- an order of the names of a map -/
def exIter (ps : List UParser) : List Str := (UnitParsers.unitNames asciiUni ps).keys

/-- a program of such files; the program is the file `p` -/
def exProgram (l : List (Str × Str)) : R (PS DS) (ProgramTree (Decl Node)) :=
  parseProgramFile asciiUni '/' (exFiles l) kahnLib exIter r!"p" 400

/-- a unit of such a text, with a parser of its own -/
def exUnit (text : Str) : R (PS DS) (Option (UnitTree (Decl Node))) :=
  parseUnit asciiUni 1 400 { exText text with cx := { ((DS.init []).newUnitContext 0 []).1 with cur := 1 } }

example : IterOK asciiUni exIter := fun _ => List.Perm.refl _

example : textLeft (exUnit r!"unit U platform; interface uses A, B; type T = Integer; implementation uses C;
  procedure P; begin x := 1; end; initialization y := 1; finalization z := 2; end.") = some [r!"."] := by krfl

/-- the names of the units that are read, and the names their interfaces use -/
def unitsRead : R (PS DS) (ProgramTree (Decl Node)) → Option (List (Str × List Str))
  | .ok t _ => some (t.units.map fun d => (d.head.ident.name, d.intfUses.map fun e => e.ident.name))
  | _ => none

example : unitsRead (exProgram [(r!"p", r!"program P; uses A in 'a', B in 'b'; begin A.x := B.x; end."),
    (r!"a", r!"unit A; interface uses B; const x = B.x; implementation end."),
    (r!"b", r!"unit B; interface const x = 1; implementation end.")]) =
    some [(r!"A", [r!"B"]), (r!"B", [])] := by krfl

/-- Inside a program the semicolon behind the name of the unit may be missing: the same tree is returned. -/
theorem C49_refuted :
    unitsRead (exProgram [(r!"p", r!"program P; uses A in 'a'; begin A.x := 1; end."),
      (r!"a", r!"unit A interface const x = 1; implementation end.")]) = some [(r!"A", [])] ∧
    unitsRead (exProgram [(r!"p", r!"program P; uses A in 'a'; begin A.x := 1; end."),
      (r!"a", r!"unit A; interface const x = 1; implementation end.")]) = some [(r!"A", [])] := by
  refine ⟨?_, ?_⟩ <;> krfl

end TP.Props
