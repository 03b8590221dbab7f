import Verif.Lemmas.TraceSection
import Verif.Props.C47

/-!
# C42: forward references to types are resolved at the end of the type section
-/

namespace TP.Props
open Spec

/-- Every type identifier `t` of a type section (`idsDecls`: in aliases, pointers, arrays, sets, records, parameters, results,
heritages, fields, methods and properties) is
* qualified with a unit, or
* declared at the point of use (in some context that occurs while the section is parsed) and refers to that declaration, or
* the name of an embedded type and refers to it, or
* not declared at the point of use, and after the section it refers to the declaration of its name that is visible then; if
  there is none, it has no reference.

What is missing: the operand of `class of`, see `C42_refuted`.  Identifiers qualified with a unit never get a reference. -/
theorem C42_section_partial (u : Uni) (n : Nat) (s s' : PS DS) (ds : List (TypeDecl (Decl Node)))
    (h : parseTypeSection u (declEnv u) n s = .ok ds s') : ∀ t ∈ idsDecls ds,
    (t.unit.isSome ∧ s'.cx.ref t.ref = none) ∨
    (∃ k d, Occurs u { s.cx with pending := [] } k ∧ k.get u t.ident.name = some d ∧ s'.cx.ref t.ref = some d) ∨
    (∃ kind tok d, t.ident = Ident.ofTok tok ∧ DS.emb u kind (tok.value u) = some d ∧ s'.cx.ref t.ref = some d) ∨
    (∃ k, Occurs u { s.cx with pending := [] } k ∧ k.get u t.ident.name = none ∧
      s'.cx.ref t.ref = s'.cx.get u t.ident.name) := by
  obtain ⟨k, ho, hv, hs⟩ := typeSection_ok h
  intro t ht
  rcases hv t ht with ⟨h1, h2⟩ | ⟨k1, d, h1, h2, h3⟩ | ⟨kind, tok, d, h1, h2, h3⟩ | ⟨k1, i, h1, h2, h3, h4⟩
  · exact .inl ⟨h1, by rw [h2]; rfl⟩
  · exact .inr (.inl ⟨k1, d, h1, h2, by rw [h3]; rfl⟩)
  · exact .inr (.inr (.inl ⟨kind, tok, d, h1, h2, by rw [h3]; rfl⟩))
  · refine .inr (.inr (.inr ⟨k1, h1, h2, ?_⟩))
    have hp : Pend k := occurs_pend ⟨fun _ _ h => (by cases h), fun _ _ _ h => (by cases h)⟩ ho
    rw [h3, hs]
    exact resolved hp h4

/-! ## Examples -/

/-- a type section of a text -/
def exSection (text : Str) : R (PS DS) (List (TypeDecl (Decl Node))) :=
  parseTypeSection asciiUni (declEnv asciiUni) 400 (exText text)

/-- the type identifiers of the section with what they refer to after it -/
def refsAfter : R (PS DS) (List (TypeDecl (Decl Node))) → Option (List (Str × Option (Decl Node)))
  | .ok ds s => some ((idsDecls ds).map fun t => (t.ident.name, s.cx.ref t.ref))
  | _ => none

/-- what a name is after the section -/
def nameAfter (name : Str) : R (PS DS) (List (TypeDecl (Decl Node))) → Option (Decl Node)
  | .ok _ s => s.cx.get asciiUni name
  | _ => none

example : refsAfter (exSection r!"type P = ^R; R = record next: P; a: Integer; x: Q; end; C = class(D) f: D; end;
    D = class public function g(p: P): C; end;") =
    some [(r!"R", some ⟨r!"R", .type 1⟩), (r!"P", some ⟨r!"P", .type 0⟩),
      (r!"Integer", some ⟨r!"Integer", .embedded .ordIdent r!"Integer"⟩), (r!"Q", none), (r!"D", some ⟨r!"D", .type 3⟩),
      (r!"D", some ⟨r!"D", .type 3⟩), (r!"P", some ⟨r!"P", .type 0⟩), (r!"C", some ⟨r!"C", .type 2⟩)] := by krfl

/-- A name that is used before it is declared refers to the outer declaration, if there is one: `T` is the constant. -/
example : refsAfter (match exBlock r!"const T = 1;" with
    | .ok _ s => parseTypeSection asciiUni (declEnv asciiUni) 400 { exText r!"type P = ^T; Q = ^P;" with cx := s.cx }
    | _ => .err) = some [(r!"T", some ⟨r!"T", .decl .const ⟨r!"T", ⟨1, 7, 6⟩, ⟨1, 8, 7⟩⟩⟩), (r!"P", some ⟨r!"P", .type 0⟩)] := by
  krfl

/-- the operands of `class of` in a section, with what they refer to after it -/
def classRefs : R (PS DS) (List (TypeDecl (Decl Node))) → Option (List (Str × Option (Decl Node)))
  | .ok ds s => some (ds.filterMap fun d => match d.type with
    | .classRef t => some (t.ident.name, s.cx.ref t.ref)
    | _ => none)
  | _ => none

/-- The operand of `class of` that is declared later in the section is not resolved. -/
theorem C42_refuted : classRefs (exSection r!"type A = class of B; B = class end;") = some [(r!"B", none)] ∧
    nameAfter r!"B" (exSection r!"type A = class of B; B = class end;") = some ⟨r!"B", .type 1⟩ := by
  refine ⟨?_, ?_⟩ <;> krfl

example : classRefs (exSection r!"type B = class end; A = class of B;") = some [(r!"B", some ⟨r!"B", .type 0⟩)] := by krfl

end TP.Props
