import Verif.Lemmas.OrderedProgram
import Verif.Props.C64

/-!
# C65  References lead to earlier declarations

`Verif/Spec/Ordered.lean` goes through a tree and says which of its declarations (`Verif/Spec/Declared.lean`) a reference may
lead to: those of earlier declarations of the same section, of earlier sections, of the routines around it, of its own type
(elements of enumerations, parameters), of the variables of exception handlers of the same body, and of the other units.
-/

namespace TP.Props
open TP Spec

section
variable (u : Uni) (sep : Char) (files : Str → FileR) (lib : TopoLib) (it : List UParser → List Str)

/-- In a program no reference that is set when the identifier is met leads to a later declaration of the same unit or of the
program: a constant refers to itself or to what was declared before, a type, a variable and a thread variable to what was
declared before, the heading of a routine to what was declared before, its block also to the routine and to its parameters.
The interface of a unit refers to other units only as far as their interfaces go.

What is missing: programs with two units of the same name; and which of the other units come before. -/
theorem C65_program_partial (hlib : TopoCorrect lib) (hit : IterOK u it) (path : Str) (n : Nat) (s' : PS DS)
    (t : ProgramTree (Decl Node)) (h : parseProgramFile u sep files lib it path n = .ok t s')
    (hd : DistinctUnits u (t.units.map UnitTree.head)) : ordProgram s'.cx.types t := by
  unfold parseProgramFile at h
  split at h
  · cases h
  · cases h
  · obtain ⟨_, s1, e1, e⟩ := ok_bind h
    have hs : Inn [] [] s1.cx := by rw [quiet_cur? _ _ _ e1]; exact inn_init path
    exact Fo.program hlib hit 0 n hs e hd

/-- The same for a unit with a parser of its own. -/
theorem C65_unit (path : Str) (ts : List Token) (tl : Tail) (n : Nat) (s' : PS DS) (t : UnitTree (Decl Node))
    (h : parseUnit u 1 n ⟨ts, tl, { ((DS.init path).newUnitContext 0 path).1 with cur := 1 }⟩ = .ok (some t) s') :
    ordUnit s'.cx.types [] t :=
  Fo.unit (((inn_init path).newUnitContext 0 path).same rfl rfl rfl) h

variable {u}

/-- The same for a block in a context where `L` is declared. -/
theorem C65_block (n : Nat) (s s' : PS DS) (b : Block (Decl Node)) (L : List (Dcl (Decl Node))) (hs : OnlyDeclares L s.cx)
    (h : parseBlock u (declEnv u) n s = .ok b s') : ordBlock s'.cx.types L b :=
  ((Fo.blocks n).block L s b s' (onlyDeclares_inn.1 hs) h).2.2

/-- In a type section the references that are set when the identifier is met lead to earlier declarations; those that are
set at the end of the section lead to declarations of the section or before it. -/
theorem C65_section (n : Nat) (s s' : PS DS) (ds : List (TypeDecl (Decl Node))) (L : List (Dcl (Decl Node))) (hs : OnlyDeclares L s.cx)
    (h : parseTypeSection u (declEnv u) n s = .ok ds s') : ordTypes s'.cx.types L ds ∧
    toward s'.cx.types (ds.flatMap dclTypeDecl ++ L) (laterRefs s'.cx (idsDecls ds)) := by
  obtain ⟨h1, -, h2⟩ := Fo.types n L s ds s' (onlyDeclares_inn.1 hs) h
  exact ⟨h2, inn_later h1 _⟩

end

/-! ## Examples -/

/-- The references of the variables `x` and `y` to `y`, of the constant `a` to `b` and of the heading to `q` are not set, those
of the constant `c` to itself, of the block to its routine and of the later ones are. -/
example : refsRead (exProgram [(r!"p", r!"program P; const a = b; b = 1; c = c; d = b; var x: Integer = y; y: Integer = y; z: Integer = x;
      procedure q(i: q); begin q := i; r := y; end; procedure r; begin q := y; end; begin z := y; end.")]) =
    some [(r!"c", r!"c"), (r!"b", r!"b"), (r!"Integer", r!"Integer"), (r!"Integer", r!"Integer"), (r!"Integer", r!"Integer"), (r!"x", r!"x"),
      (r!"q", r!"q"), (r!"i", r!"i"), (r!"y", r!"y"), (r!"q", r!"q"), (r!"y", r!"y"), (r!"z", r!"z"), (r!"y", r!"y")] := by krfl

/-- A type refers to itself only through a reference that is set at the end of the section. -/
example : refsRead (exProgram [(r!"p", r!"program P; type A = class x: A; y: B; end; B = class x: A; end; begin z := y; end.")]) =
      some [(r!"A", r!"A")] ∧
    laterRead (exProgram [(r!"p", r!"program P; type A = class x: A; y: B; end; B = class x: A; end; begin z := y; end.")]) = some ([(r!"A", r!"A"), (r!"B", r!"B")], 0) := by
  constructor <;> krfl

/-- A variable that refers to itself is not in order; a constant is. -/
example (x : Ident) (e : Expr (Decl Node)) (h : e.refs = [(x, ⟨x.name, .decl .var x⟩)]) : ¬ ordVars [] [] [⟨[x], .nil, none, some e⟩] := by
  intro h'
  have := h'.1 (x, ⟨x.name, .decl .var x⟩) (by simp [VarDecl.refs, PType.refs, h])
  simp [Leads, dclType] at this

example (x : Ident) (e : Expr (Decl Node)) (h : e.refs = [(x, ⟨x.name, .decl .const x⟩)]) : ordConsts [] [] [⟨x, none, e⟩] := by
  refine ⟨fun r hr => ?_, trivial⟩
  simp only [ConstDecl.refs, Option.toList, List.flatMap_nil, List.nil_append, h, List.mem_singleton] at hr
  subst hr
  simp [Leads, dclConst]

/-- A constant that refers to a later one is not in order. -/
example (x y : Ident) (hxy : x ≠ y) (e e' : Expr (Decl Node)) (h : e.refs = [(y, ⟨y.name, .decl .const y⟩)]) :
    ¬ ordConsts [] [] [⟨x, none, e⟩, ⟨y, none, e'⟩] := by
  intro h'
  have := h'.1 (y, ⟨y.name, .decl .const y⟩) (by simp [ConstDecl.refs, h])
  simp [Leads, dclConst, Ne.symm hxy] at this

end TP.Props
