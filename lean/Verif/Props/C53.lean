import Verif.Lemmas.SealProgram
import Verif.Props.C44

/-!
# C53  After a program has been parsed, the map of every unit holds the declarations of its interface

Not always all of them: the declarations of `var a, b: T` are entered one after the other, and the rest is dropped when
one of them has the name of an earlier declaration; the name of a routine is such a name, although the parser accepts the
variable.
-/

namespace TP.Spec

/-- the identifiers a declaration of the interface declares together -/
def intfIdents : IntfDecl (Decl Node) → List (List Ident)
  | .const ds => ds.map fun d => [d.ident]
  | .type _ ds => ds.map fun d => [d.ident]
  | .var ds => ds.map fun d => d.idents
  | .threadVar ds => ds.map fun d => d.idents
  | .heading h _ => [[h.ident]]

/-- identifiers declared together with others are not declared before, nor twice -/
def Fresh (u : Uni) (groups : List (List Ident)) : Prop :=
  ∀ pre g post, groups = pre ++ g :: post → 1 < g.length →
    (g.map fun i => u.toLower i.name).Nodup ∧ ∀ i ∈ g, ∀ j ∈ pre.flatten, u.toLower j.name ≠ u.toLower i.name

/-- the first declaration of a name -/
def firstDecl (u : Uni) (groups : List (List Ident)) (name : Str) : Option Ident :=
  groups.flatten.find? fun i => u.toLower i.name == u.toLower name

/-- the node of a declaration leads to this identifier -/
def Names (e : Decl Node) (i : Ident) : Prop := e.name = i.name ∧ ((∃ t, e.node = .decl t i) ∨ ∃ j, e.node = .type j)

end TP.Spec

namespace TP.Props
open TP Spec
variable (u : Uni)

/-- the declarations of a list of identifiers -/
def Groups (groups : List (List Ident)) (nodes : List (List (Decl Node))) : Prop :=
  List.Forall₂ (List.Forall₂ fun i d => Names d i) groups nodes

theorem groups_map {α : Type} {f : α → List Ident} {g : α → List (Decl Node)} (h : ∀ a, List.Forall₂ (fun i d => Names d i) (f a) (g a))
    (l : List α) : Groups (l.map f) (l.map g) := by
  unfold Groups
  rw [List.forall₂_map_left_iff, List.forall₂_map_right_iff]
  exact List.forall₂_same.2 fun a _ => h a

theorem groups_decl (d : IntfDecl (Decl Node)) : Groups (intfIdents d) (DS.declNodes d) := by
  cases d with
  | const ds => exact groups_map (fun d => .cons ⟨rfl, .inl ⟨_, rfl⟩⟩ .nil) ds
  | type first ds =>
    unfold Groups intfIdents DS.declNodes
    rw [List.forall₂_map_left_iff, List.forall₂_map_right_iff, List.forall₂_iff_get]
    refine ⟨by simp, fun i h1 h2 => ?_⟩
    simp only [List.get_eq_getElem, List.getElem_zipIdx]
    exact .cons ⟨rfl, .inr ⟨_, rfl⟩⟩ .nil
  | var ds =>
    refine groups_map (fun d => ?_) ds
    rw [List.forall₂_map_right_iff]
    exact List.forall₂_same.2 fun i _ => ⟨rfl, .inl ⟨_, rfl⟩⟩
  | threadVar ds =>
    refine groups_map (fun d => ?_) ds
    rw [List.forall₂_map_right_iff]
    exact List.forall₂_same.2 fun i _ => ⟨rfl, .inl ⟨_, rfl⟩⟩
  | heading h o => exact .cons (.cons ⟨rfl, .inl ⟨_, rfl⟩⟩ .nil) .nil

theorem groups_append {a b : List (List Ident)} {x y : List (List (Decl Node))} (h : Groups a x) (h' : Groups b y) :
    Groups (a ++ b) (x ++ y) := List.rel_append h h'

theorem groups_all (ds : List (IntfDecl (Decl Node))) : Groups (ds.flatMap intfIdents) (ds.flatMap DS.declNodes) := by
  induction ds with
  | nil => exact .nil
  | cons d ds ih => exact groups_append (groups_decl d) ih

/-- a table against a list of identifiers -/
def Lists (m : Tbl Node) (is : List Ident) : Prop :=
  ∀ key, match m.find key, is.find? (fun i => u.toLower i.name == key) with
    | some e, some i => Names e i
    | none, none => True
    | _, _ => False

theorem lists_some {m : Tbl Node} {is : List Ident} (h : Lists u m is) {i : Ident} (hi : i ∈ is) :
    ∃ e, m.find (u.toLower i.name) = some e := by
  have := h (u.toLower i.name)
  cases e : m.find (u.toLower i.name) with
  | some x => exact ⟨x, rfl⟩
  | none =>
    rw [e] at this
    cases e2 : is.find? (fun j => u.toLower j.name == u.toLower i.name) with
    | none =>
      rw [List.find?_eq_none] at e2
      exact absurd (e2 i hi) (by simp)
    | some j => rw [e2] at this; exact this.elim

/-- an identifier that is new -/
theorem lists_new {m : Tbl Node} {is : List Ident} (h : Lists u m is) {i : Ident} {d : Decl Node} (hd : Names d i)
    (hn : m.find (u.toLower d.name) = none) : Lists u ((u.toLower d.name, d) :: m) (is ++ [i]) := by
  intro key
  have := h key
  rw [List.find?_append]
  unfold Tbl.find
  by_cases c : u.toLower d.name = key
  · rw [if_pos c]
    rw [← c, hn] at this
    cases e : is.find? (fun j => u.toLower j.name == key) with
    | none => simp [← hd.1, c, hd]
    | some j => rw [← c] at e; rw [e] at this; exact this.elim
  · rw [if_neg c]
    have : List.find? (fun j => u.toLower j.name == key) [i] = none := by simp [← hd.1, c]
    rw [this]
    simpa using h key

theorem lists_known {m : Tbl Node} {is : List Ident} (h : Lists u m is) {i : Ident} {e : Decl Node}
    (hn : m.find (u.toLower i.name) = some e) : Lists u m (is ++ [i]) := by
  intro key
  have := h key
  rw [List.find?_append]
  by_cases c : u.toLower i.name = key
  · rw [← c, hn] at this ⊢
    cases e : is.find? (fun j => u.toLower j.name == u.toLower i.name) with
    | none => rw [e] at this; exact this.elim
    | some j => rw [e] at this; exact this
  · have : List.find? (fun j => u.toLower j.name == key) [i] = none := by simp [c]
    rw [this]
    simpa using h key

/-- identifiers declared together -/
theorem lists_group {ds : List (Decl Node)} : ∀ {g is : List Ident} {m : Tbl Node}, Lists u m is → List.Forall₂ (fun i d => Names d i) g ds →
    (g.map fun i => u.toLower i.name).Nodup → (∀ i ∈ g, ∀ j ∈ is, u.toLower j.name ≠ u.toLower i.name) →
    Lists u (m.set u ds).1 (is ++ g) := by
  induction ds with
  | nil => intro g is m h hg _ _; cases hg; simpa [Tbl.set] using h
  | cons d ds ih =>
    intro g is m h hg hn hd
    cases hg with
    | cons hi hg =>
      rename_i i g
      rw [List.map_cons, List.nodup_cons] at hn
      have hnone : m.find (u.toLower d.name) = none := by
        have h1 := h (u.toLower d.name)
        have : is.find? (fun j => u.toLower j.name == u.toLower d.name) = none := by
          rw [List.find?_eq_none]
          intro j hj
          have := hd i List.mem_cons_self j hj
          simpa [hi.1] using this
        rw [this] at h1
        cases e : m.find (u.toLower d.name) with
        | none => rfl
        | some x => rw [e] at h1; exact h1.elim
      unfold Tbl.set Tbl.regularize
      rw [hnone]
      have := ih (lists_new u h hi hnone) hg hn.2 (by
        intro a ha j hj
        rcases List.mem_append.1 hj with hj | hj
        · exact hd a (List.mem_cons_of_mem _ ha) j hj
        · rw [List.mem_singleton.1 hj]
          intro he
          exact hn.1 (List.mem_map.2 ⟨a, ha, he.symm⟩))
      simpa using this

theorem lists_all : ∀ {groups : List (List Ident)} {nodes : List (List (Decl Node))} {pre : List (List Ident)} {m : Tbl Node},
    Groups groups nodes → Fresh u (pre ++ groups) → Lists u m pre.flatten → Lists u (World.intfTable u nodes m) (pre ++ groups).flatten
  | [], nodes, pre, m, hg, _, h => by cases hg; simpa [World.intfTable] using h
  | g :: groups, nodes, pre, m, hg, hf, h => by
    unfold Groups at hg
    cases hg with
    | cons hi hg =>
      rename_i ds nodes
      unfold World.intfTable
      have step : Lists u (m.set u ds).1 (pre ++ [g]).flatten := by
        have : (pre ++ [g]).flatten = pre.flatten ++ g := by simp
        rw [this]
        by_cases c : 1 < g.length
        · obtain ⟨h1, h2⟩ := hf pre g groups rfl c
          exact lists_group u h hi h1 h2
        · cases hi with
          | nil => simpa [Tbl.set] using h
          | cons hi hrest =>
            cases hrest with
            | cons => simp at c
            | nil =>
              rename_i i d
              unfold Tbl.set Tbl.regularize
              cases e : m.find (u.toLower d.name) with
              | some x => exact lists_known u h (by rw [← hi.1]; exact e)
              | none => exact lists_new u h hi e
      have := lists_all (pre := pre ++ [g]) hg (by simpa using hf) step
      simpa using this

section
variable (sep : Char) (files : Str → FileR) (lib : TopoLib) (it : List UParser → List Str)

theorem seal_init (path : Str) : Seal (fun _ => False) (DS.init path) :=
  ⟨fun i o ho hM => by
    obtain ⟨t, h1, -⟩ := (fine_init path).owns i o ho hM
    exact ⟨t, h1, fun h => h⟩, fun _ h => h.elim⟩

theorem program_map {path : Str} {n : Nat} {t : ProgramTree (Decl Node)} {s : PS DS}
    (h : parseProgramFile u sep files lib it path n = .ok t s) {x : UnitTree (Decl Node)} (hx : x ∈ t.units) :
    ∃ m, s.cx.w.unitDm x.head.no = some m ∧
      ∀ name, s.cx.w.maps.get u m name = (World.intfTable u (x.intf.flatMap DS.declNodes) []).find (u.toLower name) := by
  unfold parseProgramFile at h
  cases e : files path with
  | missing => rw [e] at h; cases h
  | unreadable => rw [e] at h; cases h
  | tokens ts tl =>
    rw [e] at h
    have hw := cur?_wpT (program_held (u := u) (sep := sep) (files := files) (lib := lib) (it := it) (cp := 0) (n := n)
      (s := ⟨ts, tl, DS.init path⟩) (seal_init path) (by simp [DS.init]))
    change wp _ _ _ _ _ at hw
    unfold wp at hw
    change (P.cur? >>= fun _ => parseProgram u sep files lib it 0 n) ⟨ts, tl, DS.init path⟩ = R.ok t s at h
    rw [h] at hw
    obtain ⟨X, -, g⟩ := hw
    obtain ⟨m, -, h1, h2⟩ := g x hx
    refine ⟨m, h1, fun name => ?_⟩
    rw [Maps.get_layers]
    have hl : layers s.cx.w.maps m = [m] := by
      have : ∀ (h : Maps Node) (tb : Tbl Node), h.obj m = some (.impl tb) → layers h m = [m] := by
        intro h tb e
        induction h with
        | nil => cases e
        | cons o h ih =>
          simp only [Maps.obj] at e
          unfold layers
          split at e
          · rename_i c
            cases e
            rw [if_pos c]
          · rename_i c
            rw [if_neg c]; exact ih e
      exact this _ _ h2
    rw [hl, List.findSome?_cons, List.findSome?_nil]
    have : own u s.cx.w.maps m name = (World.intfTable u (x.intf.flatMap DS.declNodes) []).find (u.toLower name) := by
      unfold own
      rw [h2]; rfl
    rw [this]
    cases (World.intfTable u (x.intf.flatMap DS.declNodes) []).find (u.toLower name) <;> rfl

/-- When `ParseProgram` has returned, every unit has a declaration map, and what is found there is declared in the
interface of the unit: nothing of its implementation, of the units it uses or of the program. -/
theorem C53_only (path : Str) (n : Nat) (t : ProgramTree (Decl Node)) (s : PS DS)
    (h : parseProgramFile u sep files lib it path n = .ok t s) (x : UnitTree (Decl Node)) (hx : x ∈ t.units) :
    ∃ m, s.cx.w.unitDm x.head.no = some m ∧ ∀ name e, s.cx.w.maps.get u m name = some e →
      ∃ d ∈ x.intf, ∃ g ∈ intfIdents d, ∃ i ∈ g, Names e i ∧ u.toLower i.name = u.toLower name := by
  obtain ⟨m, h1, h2⟩ := program_map u sep files lib it h hx
  refine ⟨m, h1, fun name e he => ?_⟩
  rw [h2] at he
  rcases intfTable_mem u _ _ _ (find_mem he) with h | ⟨h, h'⟩
  · cases h
  · obtain ⟨es, h1, h2⟩ := List.mem_flatten.1 h
    obtain ⟨d, h3, h4⟩ := List.mem_flatMap.1 h1
    have hg := groups_decl d
    unfold Groups at hg
    obtain ⟨a, ha, he⟩ := List.mem_iff_getElem.1 h4
    have hlen := hg.length_eq
    have := (List.forall₂_iff_get.1 hg).2 a (by omega) ha
    simp only [List.get_eq_getElem, he] at this
    obtain ⟨b, hb, he2⟩ := List.mem_iff_getElem.1 h2
    have hlen2 := this.length_eq
    have h5 := (List.forall₂_iff_get.1 this).2 b (by omega) hb
    simp only [List.get_eq_getElem, he2] at h5
    refine ⟨d, h3, _, List.getElem_mem (by omega), _, List.getElem_mem (by omega), h5, ?_⟩
    rw [← h5.1]; exact h'.symm

/-- It contains the first declaration of every name the interface declares, and so it is the same whatever was parsed
afterwards.  What is missing: identifiers declared together with others must not be declared before (`C53_refuted`). -/
theorem C53_all_partial (path : Str) (n : Nat) (t : ProgramTree (Decl Node)) (s : PS DS)
    (h : parseProgramFile u sep files lib it path n = .ok t s) (x : UnitTree (Decl Node)) (hx : x ∈ t.units)
    (hf : Fresh u (x.intf.flatMap intfIdents)) :
    ∃ m, s.cx.w.unitDm x.head.no = some m ∧ ∀ name,
      match s.cx.w.maps.get u m name, firstDecl u (x.intf.flatMap intfIdents) name with
      | some e, some i => Names e i
      | none, none => True
      | _, _ => False := by
  obtain ⟨m, h1, h2⟩ := program_map u sep files lib it h hx
  refine ⟨m, h1, fun name => ?_⟩
  rw [h2]
  have := lists_all u (pre := []) (m := []) (groups_all x.intf) (by simpa using hf) (by intro key; simp [Tbl.find])
  have := this (u.toLower name)
  unfold firstDecl
  simpa using this

end

/-- what is found in the maps of the units of a program -/
def foundIn (names : List Str) : R (PS DS) (ProgramTree (Decl Node)) → Option (List (Str × List Str))
  | .ok t s => some (t.units.map fun x => (x.head.ident.name, names.filter fun name =>
      match s.cx.w.unitDm x.head.no with
      | some m => (s.cx.w.maps.get asciiUni m name).isSome
      | none => false))
  | _ => none

/-- two units and a program -/
example : foundIn [r!"X", r!"t", r!"f", r!"b", r!"y", r!"z", r!"A", r!"P", r!"v"] (exProgram
    [(r!"p", r!"program P; uses A in 'a', B in 'b'; var v: Integer; begin v := 1; end."),
     (r!"a", r!"unit A; interface uses B; const x = 1; type T = Integer; var b, c: T; procedure f; implementation const z = 1; end."),
     (r!"b", r!"unit B; interface const y = 1; implementation uses A; end.")]) =
    some [(r!"A", [r!"X", r!"t", r!"f", r!"b"]), (r!"B", [r!"y"])] := by krfl

/-- an identifier -/
def exNamed (name : Str) : Ident := ⟨name, ⟨0, 0, 0⟩, ⟨0, 0, 0⟩⟩

/-- the condition of `C53_all_partial` -/
example : Fresh asciiUni [[exNamed r!"x"], [exNamed r!"x"], [exNamed r!"a", exNamed r!"b"]] := by
  intro pre g post e hg
  match pre, e with
  | [], e => cases e; simp at hg
  | [a], e => cases e; simp at hg
  | [a, b], e => cases e; exact ⟨by decide, by decide⟩
  | a :: b :: c :: d, e => simp at e

/-- a routine and a variable of the same name -/
def exDropped (stmt : Str) : List (Str × Str) :=
  [(r!"p", r!"program P; uses A in 'a'; begin " ++ stmt ++ r!"; end."),
   (r!"a", r!"unit A; interface procedure Foo; var Foo, Bar: Integer; implementation initialization A.Foo := 1; end.")]

/-- The variable `Bar` is declared in the interface but not found: the program may not use it as `A.Bar`. -/
theorem C53_refuted : foundIn [r!"Foo", r!"Bar"] (exProgram (exDropped r!"A.Foo := 1")) = some [(r!"A", [r!"Foo"])] ∧
    exProgram (exDropped r!"A.Bar := 1") matches .err := by
  refine ⟨by krfl, by krfl⟩

end TP.Props
