import Verif.Lemmas.Forward
import Verif.Props.C42

/-!
# C43  A forward-declared class is completed by its full declaration
-/

namespace TP.Props
open Spec

theorem runSection_same (u : Uni) (l : List (Nat × Str)) : ∀ k : DS, (l.foldl (DS.runRef u) k).types = k.types ∧
    (l.foldl (DS.runRef u) k).actual = k.actual := by
  induction l with
  | nil => exact fun k => ⟨rfl, rfl⟩
  | cons r l ih =>
    intro k
    obtain ⟨h1, h2⟩ := ih (k.runRef u r)
    rw [List.foldl_cons, h1, h2]
    unfold DS.runRef
    split <;> exact ⟨rfl, rfl⟩

/-- Let `ds` be the declarations of a type section, parsed in a context whose types are numbered up to `n0`.
* The types of the section are numbered from `n0` on, in order.
* `twice`: if two declarations of the section have the same name, then the first is `T = class;`, the second is a full class
  declaration, and the forward declaration refers to it (`actual`).
* `visible`: if a declared name is visible before the section, then it is a forward declaration of a class, the first
  declaration of it in the section is a full class declaration, and the forward declaration refers to it.
* `last`: after the section, a lookup of the name returns the last declaration of it in the section, or an element of an
  enumeration, or a parameter.

What is missing: the elements of enumerations and the parameters that hide the type, and the lookups from outside the scope, see
the refutations below. -/
theorem C43_section_partial (u : Uni) (n : Nat) (s s' : PS DS) (ds : List (TypeDecl (Decl Node))) (h0 : Rooted s.cx)
    (hb : ∀ name d j, s.cx.get u name = some d → d.node = .type j → j < s.cx.types.length)
    (h : parseTypeSection u (declEnv u) n s = .ok ds s') :
    s'.cx.types = s.cx.types ++ ds.map TypeDecl.type ∧
    (∀ i j (_ : i < j) (_ : j < ds.length), u.toLower ds[i].ident.name = u.toLower ds[j].ident.name →
      ds[i].type = .forward ∧ (∃ hd ms, ds[j].type = .cls hd ms) ∧
        (s.cx.types.length + i, s.cx.types.length + j) ∈ s'.cx.actual) ∧
    (∀ i (_ : i < ds.length) d, s.cx.get u ds[i].ident.name = some d →
      (∀ j (_ : j < i), u.toLower ds[j].ident.name ≠ u.toLower ds[i].ident.name) →
      ∃ j, d.node = .type j ∧ s.cx.types[j]? = some .forward ∧ (∃ hd ms, ds[i].type = .cls hd ms) ∧
        (j, s.cx.types.length + i) ∈ s'.cx.actual) ∧
    (∀ i (_ : i < ds.length),
      (∀ j (_ : i < j) (_ : j < ds.length), u.toLower ds[j].ident.name ≠ u.toLower ds[i].ident.name) →
      s'.cx.get u ds[i].ident.name = some ⟨ds[i].ident.name, .type (s.cx.types.length + i)⟩ ∨
      ∃ tg i', (tg = .enumElem ∨ tg = .param) ∧ u.toLower i'.name = u.toLower ds[i].ident.name ∧
        s'.cx.get u ds[i].ident.name = some ⟨i'.name, .decl tg i'⟩) := by
  obtain ⟨k, hr, hs⟩ := typeSection_run h0 h
  have ht : s'.cx.types = k.types := by rw [hs]; exact (runSection_same u _ k).1
  have ha : s'.cx.actual = k.actual := by rw [hs]; exact (runSection_same u _ k).2
  have hg : ∀ name, s'.cx.get u name = k.get u name := fun name => by
    rw [hs]
    unfold DS.get
    rw [show ({ k.runSection u with pending := s.cx.pending } : DS).w = k.w from (runRefs_same u _ k).1,
      show ({ k.runSection u with pending := s.cx.pending } : DS).cur = k.cur from (runRefs_same u _ k).2]
  refine ⟨by rw [ht]; exact hr.types, fun i j hij hj e => ?_, fun i hi d hd hf => ?_, fun i hi hl => ?_⟩
  · rw [ha]; exact hr.twice hb i j hij hj e
  · rw [ha]; exact hr.visible hb i hi d hf hd
  · rw [hg]
    rcases hr.last i hi hl with e | ⟨d, e, tg, i', h1, h2, rfl⟩
    · exact .inl e
    · exact .inr ⟨tg, i', h1, h2, e⟩

/-- the number of types, what the forward declarations refer to, and what a name is, after the section -/
def forwards (name : Str) : R (PS DS) (List (TypeDecl (Decl Node))) → Option (Nat × List (Nat × Nat) × Option Node)
  | .ok _ s => some (s.cx.types.length, s.cx.actual, (s.cx.get asciiUni name).map (·.node))
  | _ => none

example : forwards r!"T" (exSection r!"type T = class; U = ^T; t = class end;") = some (3, [(0, 2)], some (.type 2)) := by krfl

example : Rooted (DS.init []) := ⟨_, _, rfl, (fun _ _ _ h => by cases h), rfl⟩

/-- no other redeclaration -/
example : forwards r!"T" (exSection r!"type T = class; T = class;") = none ∧
    forwards r!"T" (exSection r!"type T = class end; T = class end;") = none ∧
    forwards r!"T" (exSection r!"type T = class; T = record end;") = none ∧
    forwards r!"T" (exSection r!"type T = class; T = class end; T = class end;") = none ∧
    forwards r!"T" (exSection r!"type T = (A, B); A = class end;") = none := by
  refine ⟨?_, ?_, ?_, ?_, ?_⟩ <;> krfl

/-! ## Refutations -/

/-- the same for a block -/
def forwardsB (name : Str) : R (PS DS) (Block (Decl Node)) → Option (Nat × List (Nat × Nat) × Option Node)
  | .ok _ s => some (s.cx.types.length, s.cx.actual, (s.cx.get asciiUni name).map (·.node))
  | _ => none

/-- A class that is declared forward outside of a procedure can be completed inside of it.  Then the lookups outside of the
procedure still return the forward declaration. -/
theorem C43_refuted_nested : forwardsB r!"T" (exBlock
    r!"type T = class; procedure P; type T = class end; begin z := 1; end; begin z := 1; end") =
    some (2, [(0, 1)], some (.type 0)) := by krfl

/-- It can be completed once more after that; the forward declaration then refers to the last. -/
theorem C43_refuted_again : forwardsB r!"T" (exBlock
    r!"type T = class; procedure P; type T = class end; begin z := 1; end; type T = class end; begin z := 1; end") =
    some (3, [(0, 2), (0, 1)], some (.type 2)) := by krfl

/-- After a procedural type that has a parameter of a type that is not embedded, its parameters stay visible: such a parameter
hides the forward declaration, the full declaration is rejected. -/
theorem C43_refuted_param :
    forwards r!"T" (exSection r!"type T = class; E = procedure(T: TFoo); T = class end;") = none ∧
    forwards r!"T" (exSection r!"type T = class; E = procedure(T: Integer); T = class end;") =
      some (3, [(0, 2)], some (.type 2)) := by
  refine ⟨?_, ?_⟩ <;> krfl

/-- After such a procedural type a name that is visible is accepted again as an element of an enumeration. -/
theorem C43_refuted_element :
    forwards r!"A" (exSection r!"type E = (A); F = procedure(x: TFoo); G = (A, B);") =
      some (3, [], some (.decl .enumElem ⟨r!"A", ⟨1, 44, 43⟩, ⟨1, 45, 44⟩⟩)) ∧
    forwards r!"A" (exSection r!"type E = (A); F = procedure(x: Integer); G = (A, B);") = none := by
  refine ⟨?_, ?_⟩ <;> krfl

end TP.Props
