import Verif.Lemmas.ClassTypes
import Verif.Props.C49

/-!
# C63  The accessors of a property are members of its class or of an ancestor

`propsIn` (`Verif/Spec/Members.lean`) lists the properties of a class with the members that are there when the property is
read.  The parent of a class is what the reference of the first item of its heritage leads to.
-/

namespace TP.Props
open TP Spec

section
variable (u : Uni) (sep : Char) (files : Str → FileR) (lib : TopoLib) (it : List UParser → List Str)

/-- The properties of every class that a program or a unit of it declares: their accessors lead to members of the class that
stand before, or else to members of the nearest ancestor that has one of that name that is not private; their parents are
the nearest properties of that name. -/
theorem C63_program (path : Str) (n : Nat) (s' : PS DS) (t : ProgramTree (Decl Node))
    (h : parseProgramFile u sep files lib it path n = .ok t s') (i : Nat) (heritage : List (TypeId (Decl Node))) (ms : Sects (Decl Node))
    (hc : s'.cx.types[i]? = some (.cls heritage ms)) : PropertiesLead u s'.cx heritage ms := by
  unfold parseProgramFile at h
  split at h
  · cases h
  · cases h
  · have S := classesSteady u
    refine ((Tr.step (laterBase S) quiet_cur? fun _ => program_later S 0 n) _ ⟨tidy_init path, fun i h ms hi => ?_⟩ (fun _ h => by cases h) _ _ h).1.2 i
      heritage ms hc
    change ([] : List (PType (Decl Node)))[i]? = _ at hi
    cases hi

/-- The same for a unit with a parser of its own. -/
theorem C63_unit (path : Str) (ts : List Token) (tl : Tail) (n : Nat) (s' : PS DS) (t : Option (UnitTree (Decl Node)))
    (h : parseUnit u 1 n ⟨ts, tl, { ((DS.init path).newUnitContext 0 path).1 with cur := 1 }⟩ = .ok t s') (i : Nat)
    (heritage : List (TypeId (Decl Node))) (ms : Sects (Decl Node)) (hc : s'.cx.types[i]? = some (.cls heritage ms)) :
    PropertiesLead u s'.cx heritage ms := by
  have hs : Tidy u { ((DS.init path).newUnitContext 0 path).1 with cur := 1 } := ((tidy_init path).newUnitContext 0 path).same rfl
  refine (unit_later (classesSteady u) 1 n _ ⟨hs, fun i h ms hi => ?_⟩ (fun _ h => by cases h) _ _ h).1.2 i heritage ms hc
  change ([] : List (PType (Decl Node)))[i]? = _ at hi
  cases hi

variable {u}

/-- A class, in the context in which its text ends: the accessors as above, and a property has a parent exactly if the nearest
property of its name has a type, an index, a `READ` or a `WRITE` that it lacks. -/
theorem C63_class (n : Nat) (s s' : PS DS) (heritage : List (TypeId (Decl Node))) (ms : Sects (Decl Node))
    (h : parseType u (declEnv u) n s = .ok (.cls heritage ms) s') :
    ∀ x ∈ propsIn [] ms, PropertyOK u s'.cx heritage x.1 x.2 :=
  type_ok n s _ s' h heritage ms rfl

end

/-- What a name stands for is one thing. -/
theorem C63_one {u : Uni} {k : DS} {h : List (TypeId (Decl Node))} {own : List Member'} {name : Str} {d d' : Decl Node}
    (hd : StandsFor u k h own name d) (hd' : StandsFor u k h own name d') : d = d' := by
  rcases hd with hd | hd <;> rcases hd' with hd' | hd'
  · exact Option.some.inj (hd.symm.trans hd')
  · rw [hd'.1] at hd; cases hd
  · rw [hd.1] at hd'; cases hd'
  · exact hd.2.unique hd'.2

/-! ## Examples -/

/-- the properties of a class: the name, the accessors and their declarations, the property that is its parent -/
def propsRead (ms : Sects (Decl Node)) : List (Str × List (Str × Option Str) × Option Str) :=
  (propsIn [] ms).map fun x => ((propIdent x.2).name, (accessors x.2).map fun r => (r.ident.name, r.ref.map Decl.name),
    (propParent x.2).map Decl.name)

/-- the properties of all classes -/
def classesRead : R (PS DS) (ProgramTree (Decl Node)) → Option (List (List (Str × List (Str × Option Str) × Option Str)))
  | .ok _ s => some (s.cx.types.filterMap fun t => match t with | .cls _ ms => some (propsRead ms) | _ => none)
  | _ => none

/-- own members, those of an ancestor in another unit, and parents -/
example : classesRead (exProgram [(r!"p", r!"program P; uses A in 'a'; type C = class(B) private h: Integer; procedure setH(i: Integer);
    public property x: Integer read H write SetH stored F; property y; property v read h; end; begin z := z; end."),
    (r!"a", r!"unit A; interface type B = class protected f: Boolean; g: Integer; public property Y: Integer read g;
    property v: Integer read g write g; end; implementation end.")]) =
    some [[(r!"Y", [(r!"g", some r!"g")], none), (r!"v", [(r!"g", some r!"g"), (r!"g", some r!"g")], none)],
      [(r!"x", [(r!"H", some r!"h"), (r!"SetH", some r!"setH"), (r!"F", some r!"f")], none), (r!"y", [], some r!"Y"),
        (r!"v", [(r!"h", some r!"h")], some r!"v")]] := by krfl

/-- a private member of an ancestor is not found -/
example : classesRead (exProgram [(r!"p", r!"program P; type B = class private f: Integer; end;
    C = class(B) private g: Integer; public property x: Integer read f; end; var z: C; begin z := z; end.")]) = none := by krfl

/-- a property finds those of earlier sections, but not those of its own -/
example : classesRead (exProgram [(r!"p", r!"program P; type C = class private g: Integer; public property x: Integer read g;
    public property y: Integer read x; end; var z: C; begin z := z; end.")]) =
    some [[(r!"x", [(r!"g", some r!"g")], none), (r!"y", [(r!"x", some r!"x")], none)]] := by krfl

example : classesRead (exProgram [(r!"p", r!"program P; type C = class private g: Integer; public property x: Integer read g;
    property y: Integer read x; end; var z: C; begin z := z; end.")]) = none := by krfl

/-- In the context at the end `C63_class` need not hold for the parents of properties: a class whose ancestor is declared later
gets it when the section ends, but the parents of its properties stay nil. -/
example : classesRead (exProgram [(r!"p", r!"program P; type C = class(B) private g: Integer; public property x: Integer read g; end;
    B = class private f: Integer; public property x: Integer read f write f; end; var z: C; begin z := z; end.")]) =
    some [[(r!"x", [(r!"g", some r!"g")], none)], [(r!"x", [(r!"f", some r!"f"), (r!"f", some r!"f")], none)]] := by krfl

end TP.Props
