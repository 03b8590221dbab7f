import Verif.Lemmas.LedGoal
import Verif.Props.C59

/-!
# C64  Every reference leads to a declaration of the tree, of the kind of the section it is declared in

`dclProgram` (`Verif/Spec/Declared.lean`) lists what a tree declares: labels, constants, variables, thread variables, routines,
parameters, elements of enumerations, variables of exception handlers, types, items of uses clauses, units and the program,
each with the kind of the node that declares it.  `Leads` says that a declaration is one of these, or an embedded type, or a
member of a class (for these see C63).
-/

namespace TP.Props
open TP Spec

/-- whatever is declared in a context or referred to there is one of `L`, an embedded type or a member of a class -/
def OnlyDeclares (L : List (Dcl (Decl Node))) (k : DS) : Prop :=
  (∀ j, ∀ p ∈ Maps.tbl k.w.maps j, Leads (· ∈ L) k.types p.2) ∧ ∀ d, some d ∈ k.refs → Leads (· ∈ L) k.types d

theorem onlyDeclares_inn {L : List (Dcl (Decl Node))} {k : DS} : OnlyDeclares L k ↔ Inn L [] k :=
  ⟨fun h => ⟨⟨h.1, List.prefix_rfl, h.2⟩, fun _ h => by cases h⟩, fun h => ⟨h.led.maps, h.led.refs⟩⟩

theorem inn_later {L : List (Dcl (Decl Node))} {R : Refs (Decl Node)} {k : DS} (h : Inn L R k) (ts : List (TypeId (Decl Node))) :
    ∀ r ∈ laterRefs k ts, Leads (· ∈ L) k.types r.2 := by
  intro r hr
  obtain ⟨t, -, hr⟩ := List.mem_flatMap.1 hr
  cases e : t.ref with
  | none => rw [e] at hr; cases hr
  | now d => rw [e] at hr; cases hr
  | later i =>
    rw [e] at hr
    simp only [DS.ref] at hr
    obtain ⟨d, hd, rfl⟩ := List.mem_map.1 hr
    refine h.led.refs d ?_
    rw [Option.mem_toList] at hd
    cases e' : k.refs[i]? with
    | none => rw [e'] at hd; cases hd
    | some x => rw [e'] at hd; cases hd; exact List.mem_of_getElem? e'

section
variable (u : Uni) (sep : Char) (files : Str → FileR) (lib : TopoLib) (it : List UParser → List Str)

/-- Every reference of a program and of its units leads to a declaration of the program or of one of its units, of the kind of
the section that declares it, to an embedded type or to a member of a class: the references that are set when the identifier
is met, and those that are set at the end of a type section.

What is missing: programs with two units of the same name, where the tree of a unit may be replaced by another one. -/
theorem C64_program_partial (hlib : TopoCorrect lib) (hit : IterOK u it) (path : Str) (n : Nat) (s' : PS DS)
    (t : ProgramTree (Decl Node)) (h : parseProgramFile u sep files lib it path n = .ok t s')
    (hd : DistinctUnits u (t.units.map UnitTree.head)) :
    (∀ r ∈ t.refs, Leads (· ∈ dclProgram t) s'.cx.types r.2) ∧
    (∀ r ∈ laterRefs s'.cx (idsProgram t), Leads (· ∈ dclProgram t) s'.cx.types r.2) ∧ OnlyDeclares (dclProgram t) s'.cx := by
  unfold parseProgramFile at h
  split at h
  · cases h
  · cases h
  · obtain ⟨_, s1, e1, e⟩ := ok_bind h
    have hs : Inn [] [] s1.cx := by rw [quiet_cur? _ _ _ e1]; exact inn_init path
    have := Fw.parseProgram hlib hit 0 n hs e hd
    exact ⟨this.refs, inn_later this _, onlyDeclares_inn.2 (this.mono (fun _ h => h) fun _ h => by cases h)⟩

/-- The same for a unit with a parser of its own. -/
theorem C64_unit (path : Str) (ts : List Token) (tl : Tail) (n : Nat) (s' : PS DS) (t : UnitTree (Decl Node))
    (h : parseUnit u 1 n ⟨ts, tl, { ((DS.init path).newUnitContext 0 path).1 with cur := 1 }⟩ = .ok (some t) s') :
    (∀ r ∈ t.refs, Leads (· ∈ dclUnit t) s'.cx.types r.2) ∧
    (∀ r ∈ laterRefs s'.cx (idsUnit t), Leads (· ∈ dclUnit t) s'.cx.types r.2) ∧ OnlyDeclares (dclUnit t) s'.cx := by
  have := Fw.parseUnit (((inn_init path).newUnitContext 0 path).same rfl rfl rfl) h
  exact ⟨this.refs, inn_later this _, onlyDeclares_inn.2 (this.mono (fun _ h => h) fun _ h => by cases h)⟩

variable {u}

/-- The same for a block in a context: what is declared around it comes in addition. -/
theorem C64_block (n : Nat) (s s' : PS DS) (b : Block (Decl Node)) (L : List (Dcl (Decl Node))) (hs : OnlyDeclares L s.cx)
    (h : parseBlock u (declEnv u) n s = .ok b s') : (∀ r ∈ b.refs, Leads (· ∈ dclBlock b ++ L) s'.cx.types r.2) ∧
    (∀ r ∈ laterRefs s'.cx (idsBlock b), Leads (· ∈ dclBlock b ++ L) s'.cx.types r.2) ∧ OnlyDeclares (dclBlock b ++ L) s'.cx := by
  have := Fw.block n L [] s b s' (onlyDeclares_inn.1 hs) h
  exact ⟨fun r hr => this.refs r (List.mem_append_left _ hr), inn_later this _, onlyDeclares_inn.2 (this.mono (fun _ h => h) fun _ h => by cases h)⟩

/-- In the context of a new parser nothing is declared. -/
theorem C64_start (path : Str) : OnlyDeclares [] (DS.init path) := onlyDeclares_inn.2 (inn_init path)

end

/-! ## Examples -/

/-- the names that have a reference, with the kind of the declaration if it is one of those with an identifier -/
def refKinds : R (PS DS) (ProgramTree (Decl Node)) → Option (List (Str × Option Tag))
  | .ok t _ => some (t.refs.map fun r => (r.1.name, match r.2.node with
    | .decl t _ => some t
    | _ => none))
  | _ => none

/-- the identifiers that are declared, with their kinds -/
def dclKinds : R (PS DS) (ProgramTree (Decl Node)) → Option (List (Str × Tag))
  | .ok t _ => some ((dclProgram t).filterMap fun d => match d with
    | .named t i => some (i.name, t)
    | _ => none)
  | _ => none

def exKinds : List (Str × Str) :=
  [(r!"p", r!"program P; uses A in 'a'; label l; const c = 1; type E = (e1, e2); T = class end; var v: T; threadvar w: E;
      procedure q(a: Integer); begin v := a; goto l; end;
      begin v := c; w := e1; q(A.y); try v := 1; except on z: T do z := 1; end; end."),
    (r!"a", r!"unit A; interface threadvar y: Integer; procedure h; implementation initialization y := 1; end.")]

example : refKinds (exProgram exKinds) = some [(r!"Integer", none), (r!"y", some .threadVar), (r!"T", none), (r!"E", none),
    (r!"Integer", none), (r!"v", some .var), (r!"a", some .param), (r!"l", some .label), (r!"v", some .var), (r!"c", some .const),
    (r!"w", some .threadVar), (r!"e1", some .enumElem), (r!"A", none), (r!"y", some .threadVar), (r!"v", some .var), (r!"T", none),
    (r!"z", some .handler)] := by krfl

example : dclKinds (exProgram exKinds) = some [(r!"y", .threadVar), (r!"h", .heading), (r!"l", .label), (r!"c", .const),
    (r!"e1", .enumElem), (r!"e2", .enumElem), (r!"v", .var), (r!"w", .threadVar), (r!"q", .func), (r!"a", .param),
    (r!"z", .handler)] := by krfl

/-- A reference to a declaration of another kind, or to an identifier at another place, does not lead to the tree. -/
example : Leads (· ∈ [Dcl.named .var ⟨r!"x", ⟨1, 2, 1⟩, ⟨1, 3, 2⟩⟩]) [] ⟨r!"x", .decl .var ⟨r!"x", ⟨1, 2, 1⟩, ⟨1, 3, 2⟩⟩⟩ ∧
    ¬ Leads (· ∈ [Dcl.named .var ⟨r!"x", ⟨1, 2, 1⟩, ⟨1, 3, 2⟩⟩]) [] ⟨r!"x", .decl .const ⟨r!"x", ⟨1, 2, 1⟩, ⟨1, 3, 2⟩⟩⟩ ∧
    ¬ Leads (· ∈ [Dcl.named .var ⟨r!"x", ⟨1, 2, 1⟩, ⟨1, 3, 2⟩⟩]) [] ⟨r!"x", .decl .var ⟨r!"x", ⟨1, 4, 3⟩, ⟨1, 5, 4⟩⟩⟩ := by
  simp [Leads]

/-- The hypothesis about contexts is needed: a declaration that is there already may be found. -/
example : ¬ OnlyDeclares [] wrongKey := by
  intro h
  have := h.1 0 (r!"y", ⟨r!"x", .uses 0⟩) (by decide)
  simp [Leads] at this

end TP.Props
