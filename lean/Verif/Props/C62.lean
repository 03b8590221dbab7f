import Verif.Lemmas.Links
import Verif.Props.C49

/-!
# C62  The items of uses clauses lead to the units they name

The field `Unit` of a `UsesClauseItem` is `s.cx.items[e.no]`: the number of a unit, or `none` for nil.
-/

namespace TP.Props
open TP Spec

variable (u : Uni) (sep : Char) (files : Str → FileR) (lib : TopoLib) (it : List UParser → List Str)

/-- the field `Unit` of the item -/
def UnitOf (s : PS DS) (e : UsesEntry) : Option Nat := (s.cx.items[e.no]?).join

/-- the units called `name`, in any case, in the order of the uses clause of the program -/
def unitsCalled (us : List (UnitTree (Decl Node))) (name : Str) : List (UnitTree (Decl Node)) :=
  us.filter fun x => u.toLower x.head.ident.name = u.toLower name

/-! ## Lemmas -/

section
variable {u sep files lib it}

theorem programFile_links {path : Str} {n : Nat} {t : ProgramTree (Decl Node)} {s : PS DS}
    (h : parseProgramFile u sep files lib it path n = .ok t s) : AllLinked u s.cx t.uses t.units := by
  unfold parseProgramFile at h
  cases e : files path with
  | missing => rw [e] at h; cases h
  | unreadable => rw [e] at h; cases h
  | tokens ts tl =>
    rw [e] at h
    simp only at h
    have := cur?_wpT (program_links (u := u) (sep := sep) (files := files) (lib := lib) (it := it) (cp := 0) (n := n)
      (s := ⟨ts, tl, DS.init path⟩) rfl rfl rfl)
    change wp _ _ _ _ _ at this
    unfold wp at this
    rw [h] at this
    exact this

theorem programUses_nodup {cp n : Nat} (s : PS DS) : wpT (parseProgram u sep files lib it cp n) s
    (fun t _ => (t.uses.map fun e => u.toLower e.ident.name).Nodup) := by
  unfold parseProgram
  refine wp_then (wp_any _ _) fun _ s1 _ => ?_
  refine wp_then (wp_any _ _) fun _ s2 _ => ?_
  refine wp_then (wp_any _ _) fun _ s3 _ => ?_
  refine wp_then (wp_any _ _) fun _ s4 _ => ?_
  refine wp_then (Q1 := fun r _ => (r.1.map fun e => u.toLower e.ident.name).Nodup) ?_ fun us s5 h =>
    wp_then (wp_any _ _) fun _ _ _ => wp_then (wp_any _ _) fun _ _ _ => h
  unfold parseProgramUses
  refine wp_then (wp_any _ _) fun b s5 _ => ?_
  refine wp_ite (fun _ => ?_) (fun _ => List.nodup_nil)
  refine wp_then (Q1 := fun es _ => (es.map fun e => u.toLower e.ident.name).Nodup) ?_ fun es s6 h =>
    wp_then (wp_any _ _) fun _ _ _ => wp_then (wp_any _ _) fun _ _ _ => h
  unfold parseUses
  refine wp_then (wp_any _ _) fun _ s6 _ => ?_
  refine wp_then (wp_any _ _) fun _ s7 _ => ?_
  refine wp_then (wp_any _ _) fun is s8 _ => ?_
  exact wp_mono (declareUses_nodup is s8) (fun _ _ h => h.1) id id

theorem programFile_nodup {path : Str} {n : Nat} {t : ProgramTree (Decl Node)} {s : PS DS}
    (h : parseProgramFile u sep files lib it path n = .ok t s) : (t.uses.map fun e => u.toLower e.ident.name).Nodup := by
  unfold parseProgramFile at h
  cases e : files path with
  | missing => rw [e] at h; cases h
  | unreadable => rw [e] at h; cases h
  | tokens ts tl =>
    rw [e] at h
    simp only at h
    have := cur?_wpT (programUses_nodup (u := u) (sep := sep) (files := files) (lib := lib) (it := it) (cp := 0) (n := n)
      ⟨ts, tl, DS.init path⟩)
    change wp _ _ _ _ _ at this
    unfold wp at this
    rw [h] at this
    exact this

theorem findUses_iff {es : List UsesEntry} (hn : (es.map fun e => u.toLower e.ident.name).Nodup) {e : UsesEntry} (he : e ∈ es) (name : Str) :
    DS.findUses u es name = some e ↔ u.toLower name = u.toLower e.ident.name := by
  unfold DS.findUses
  constructor
  · intro h
    have := List.find?_some h
    simpa using (beq_iff_eq.1 this).symm
  · intro h
    cases hf : es.find? fun e => u.toLower e.ident.name == u.toLower name with
    | none =>
      have := List.find?_eq_none.1 hf e he
      exact absurd (beq_iff_eq.2 h.symm) this
    | some x =>
      have h1 := List.mem_of_find?_eq_some hf
      have h2 : u.toLower x.ident.name = u.toLower name := beq_iff_eq.1 (List.find?_some (p := fun e : UsesEntry => u.toLower e.ident.name == u.toLower name) hf)
      rw [List.inj_on_of_nodup_map hn h1 he (h2.trans h)]

end

/-! ## Programs -/

/-- No name stands twice in the uses clause of a program. -/
theorem C62_names (path : Str) (n : Nat) (t : ProgramTree (Decl Node)) (s : PS DS)
    (h : parseProgramFile u sep files lib it path n = .ok t s) : (t.uses.map fun e => u.toLower e.ident.name).Nodup :=
  programFile_nodup h

/-- An item of the program gets the unit that it names: the last one if several files contain units of this name, and none if no
file does. -/
theorem C62_program (path : Str) (n : Nat) (t : ProgramTree (Decl Node)) (s : PS DS)
    (h : parseProgramFile u sep files lib it path n = .ok t s) :
    ∀ e ∈ t.uses, UnitOf s e = (unitsCalled u t.units e.ident.name).getLast?.map fun x => x.head.no := by
  intro e he
  have h1 := (programFile_links h).prog e he
  have hn := programFile_nodup h
  show s.cx.item e.no = _
  rw [h1]
  unfold lastFor unitsCalled
  rw [List.filter_map, List.getLast?_map, Option.map_map]
  congr 3
  funext x
  simp only [Function.comp_apply]
  exact decide_eq_decide.2 (findUses_iff hn he _)

/-- An item of a unit of the program, in its interface or its implementation, gets the unit of the program that it names: the first one
if several have this name, and none if no unit has. -/
theorem C62_units (path : Str) (n : Nat) (t : ProgramTree (Decl Node)) (s : PS DS)
    (h : parseProgramFile u sep files lib it path n = .ok t s) :
    ∀ x ∈ t.units, ∀ e ∈ x.intfUses ++ x.implUses, UnitOf s e = (unitsCalled u t.units e.ident.name).head?.map fun x => x.head.no := by
  intro x hx e he
  have h1 := (programFile_links h).unit x hx e he
  show s.cx.item e.no = _
  rw [h1]
  unfold unitNamed unitsCalled
  rw [List.head?_filter, List.find?_map, Option.map_map]
  rfl

/-- Every file that is read contains a unit with the name of an item of the program: not necessarily of the item that names the file. -/
theorem C62_loaded (path : Str) (n : Nat) (t : ProgramTree (Decl Node)) (s : PS DS)
    (h : parseProgramFile u sep files lib it path n = .ok t s) :
    ∀ x ∈ t.units, ∃ e ∈ t.uses, u.toLower e.ident.name = u.toLower x.head.ident.name := by
  intro x hx
  have := (programFile_links h).named x.head (List.mem_map_of_mem hx)
  unfold DS.findUses at this
  obtain ⟨e, he⟩ := Option.ne_none_iff_exists'.1 this
  exact ⟨e, List.mem_of_find?_eq_some he, beq_iff_eq.1 (List.find?_some (p := fun e : UsesEntry => u.toLower e.ident.name == u.toLower x.head.ident.name) he)⟩

/-- All items are different objects, and all units are: no two items have the same number, and no two units. -/
theorem C62_separate (path : Str) (n : Nat) (t : ProgramTree (Decl Node)) (s : PS DS)
    (h : parseProgramFile u sep files lib it path n = .ok t s) :
    ((t.uses ++ t.units.flatMap fun x => x.intfUses ++ x.implUses).map UsesEntry.no).Nodup ∧
    (t.units.map fun x => x.head.no).Nodup := by
  have := programFile_links h
  refine ⟨this.nos, ?_⟩
  have h1 := this.heads
  rw [List.map_map] at h1
  exact h1

/-! ## Examples -/

/-- the names of the items with the names of the units they lead to: of the program, and of its units -/
def itemsRead : R (PS DS) (ProgramTree (Decl Node)) → Option (List (Str × Option Str) × List (Str × List (Str × Option Str)))
  | .ok t s =>
    let f := fun (e : UsesEntry) => (e.ident.name, (UnitOf s e).bind fun j => (t.units.find? fun x => x.head.no == j).map fun x => x.head.ident.name)
    some (t.uses.map f, t.units.map fun x => (x.head.ident.name, (x.intfUses ++ x.implUses).map f))
  | _ => none

example : itemsRead (exProgram [(r!"p", r!"program P; uses A in 'a', B in 'b', SysUtils; begin x := 1; end."),
    (r!"a", r!"unit A; interface uses b; implementation uses SysUtils; end."),
    (r!"b", r!"unit B; interface implementation uses a, C; end.")]) =
    some ([(r!"A", some r!"A"), (r!"B", some r!"B"), (r!"SysUtils", none)],
      [(r!"A", [(r!"b", some r!"B"), (r!"SysUtils", none)]), (r!"B", [(r!"a", some r!"A"), (r!"C", none)])]) := by krfl

/-- The file of the item `A` contains the unit `B`: it is the item `B` that leads to it. -/
example : itemsRead (exProgram [(r!"p", r!"program P; uses A in 'b', B; begin x := 1; end."),
    (r!"b", r!"unit B; interface implementation end.")]) = some ([(r!"A", none), (r!"B", some r!"B")], [(r!"B", [])]) := by krfl

/-- A file with a unit that no item names is an error. -/
example : itemsRead (exProgram [(r!"p", r!"program P; uses A in 'b'; begin x := 1; end."),
    (r!"b", r!"unit B; interface implementation end.")]) = none := by krfl

end TP.Props
