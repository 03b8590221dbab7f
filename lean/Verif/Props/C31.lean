import Verif.Props.C30

/-!
# C31: a property's effective specifiers come from the nearest declaration that gives them
-/

namespace TP.Spec
open TP

/-- the specifiers of a property declaration -/
inductive Specifier
  | interface | index | read | write | stored | default | implements
  deriving DecidableEq

/-- the value a declaration gives for a specifier -/
def gives {ν : Type} (p : PropObj ν) : Specifier → Option ν
  | .interface => p.interface
  | .index => p.index
  | .read => p.read
  | .write => p.write
  | .stored => p.stored
  | .default => p.default
  | .implements => p.implements

/-- `Overrides h i l`: `l` is the chain of declarations that starts with property `i` and follows `Parent` -/
inductive Overrides {ν : Type} (h : List (PropObj ν)) : Nat → List (PropObj ν) → Prop
  | root {i : Nat} {p : PropObj ν} (e : h[i]? = some p) (hp : p.parent = none) : Overrides h i [p]
  | step {i j : Nat} {p : PropObj ν} {l : List (PropObj ν)} (e : h[i]? = some p) (hp : p.parent = some j)
      (hl : Overrides h j l) : Overrides h i (p :: l)

end TP.Spec

namespace TP.Props
open TP TP.Spec PropObj

section
variable {ν : Type}

theorem ov_interface (o : Option ν) (r : PropObj ν) :
    setInterface o r = { r with interface := o.or r.interface } := by cases o <;> rfl

theorem ov_index (o : Option ν) (r : PropObj ν) :
    setIndex o r = { r with index := o.or r.index } := by cases o <;> rfl

theorem ov_read (o : Option ν) (r : PropObj ν) :
    setRead o r = { r with read := o.or r.read } := by cases o <;> rfl

theorem ov_write (o : Option ν) (r : PropObj ν) :
    setWrite o r = { r with write := o.or r.write } := by cases o <;> rfl

theorem ov_stored (o : Option ν) (r : PropObj ν) :
    setStored o r = { r with stored := o.or r.stored } := by cases o <;> rfl

theorem ov_default (o : Option ν) (r : PropObj ν) :
    setDefault o r = { r with default := o.or r.default } := by cases o <;> rfl

theorem ov_implements (o : Option ν) (r : PropObj ν) :
    setImplements o r = { r with implements := o.or r.implements } := by cases o <;> rfl

theorem override_eq (m res : PropObj ν) : override m res =
    { res with
      interface := m.interface.or res.interface, index := m.index.or res.index, read := m.read.or res.read,
      write := m.write.or res.write, stored := m.stored.or res.stored, default := m.default.or res.default,
      implements := m.implements.or res.implements } := by
  unfold override
  simp only [ov_interface, ov_index, ov_read, ov_write, ov_stored, ov_default, ov_implements]

theorem modify_last (h : List (PropObj ν)) (x : PropObj ν) (f : PropObj ν → PropObj ν) :
    (h ++ [x]).modify h.length f = h ++ [f x] := by
  induction h with
  | nil => rfl
  | cons a h ih => simp [ih]

theorem gives_override (m res : PropObj ν) (s : Specifier) :
    gives (override m res) s = (gives m s).or (gives res s) := by
  rw [override_eq]; cases s <;> rfl

theorem override_parent (m res : PropObj ν) : (override m res).parent = res.parent := by
  rw [override_eq]

/-- For every override chain `l`: the computed property is a new object, no existing object is changed, and for each
specifier it has the value of the nearest declaration in the chain that gives it. -/
theorem C31_nearest (h : List (PropObj ν)) (i : Nat) (l : List (PropObj ν)) (hl : Overrides h i l) (fuel : Nat)
    (hf : l.length ≤ fuel) :
    ∃ res, computed fuel h i = some (h ++ [res], h.length) ∧
      (∀ s, gives res s = l.findSome? (fun p => gives p s)) ∧ res.parent = none := by
  induction hl generalizing fuel with
  | @root i p e hp =>
    cases fuel with
    | zero => simp at hf
    | succ fuel =>
      refine ⟨p, ?_, ?_, hp⟩
      · unfold computed; simp only [e, hp]
      · intro s; simp only [List.findSome?_cons, List.findSome?_nil]; cases gives p s <;> rfl
  | @step i j p l e hp hl ih =>
    cases fuel with
    | zero => simp at hf
    | succ fuel =>
      obtain ⟨res, h1, h2, h3⟩ := ih fuel (by simp at hf; omega)
      refine ⟨override p res, ?_, ?_, (override_parent p res).trans h3⟩
      · unfold computed
        simp only [e, hp, h1]
        rw [modify_last]
      · intro s
        rw [gives_override, h2, List.findSome?_cons]
        cases gives p s <;> rfl

/-- `InheritsFrom` holds exactly if the chain of the parent gives an interface, index, read or write specifier that
the new declaration does not give. -/
theorem C31_inherits (h : List (PropObj ν)) (i : Nat) (l : List (PropObj ν)) (hl : Overrides h i l) (m : PropObj ν)
    (fuel : Nat) (hf : l.length ≤ fuel) :
    ∃ b, inheritsFrom fuel h m i = some b ∧
      (b = true ↔ ∃ s, (s = .interface ∨ s = .index ∨ s = .read ∨ s = .write) ∧
        (l.findSome? (fun p => gives p s)).isSome ∧ gives m s = none) := by
  obtain ⟨res, h1, h2, _⟩ := C31_nearest h i l hl fuel hf
  refine ⟨(res.interface.isSome && m.interface.isNone) || (res.index.isSome && m.index.isNone) ||
    (res.read.isSome && m.read.isNone) || (res.write.isSome && m.write.isNone), ?_, ?_⟩
  · unfold inheritsFrom; simp only [h1, List.getElem?_concat_length]
  simp only [Bool.or_eq_true, Bool.and_eq_true, Option.isNone_iff_eq_none]
  constructor
  · rintro (((⟨a, b⟩ | ⟨a, b⟩) | ⟨a, b⟩) | ⟨a, b⟩)
    · exact ⟨.interface, by simp, by rw [← h2]; exact a, b⟩
    · exact ⟨.index, by simp, by rw [← h2]; exact a, b⟩
    · exact ⟨.read, by simp, by rw [← h2]; exact a, b⟩
    · exact ⟨.write, by simp, by rw [← h2]; exact a, b⟩
  · rintro ⟨s, (rfl | rfl | rfl | rfl), a, b⟩
    · rw [← h2] at a; exact Or.inl (Or.inl (Or.inl ⟨a, b⟩))
    · rw [← h2] at a; exact Or.inl (Or.inl (Or.inr ⟨a, b⟩))
    · rw [← h2] at a; exact Or.inl (Or.inr ⟨a, b⟩)
    · rw [← h2] at a; exact Or.inr ⟨a, b⟩

theorem findOwnProperty_eq (u : Uni) (name : Str) (ss : List (Section ν)) :
    ClassType.findOwnProperty u (u.toLower name) ss = named u name (ss.flatMap Section.props) := by
  induction ss with
  | nil => rfl
  | cons s ss ih =>
    unfold ClassType.findOwnProperty
    rw [List.flatMap_cons, named_append, ih]
    unfold named
    cases s.props.find? (fun d => decide (u.toLower d.name = u.toLower name)) <;> rfl

/-- The declaration that a redeclared property overrides is the one of the nearest ancestor that has a property of
that name (private or not).  Missing for the full claim: parents given by an alias (as in C30). -/
theorem C31_overridden_partial (u : Uni) (types : Nat → TypeNode ν) (hdir : DirectHeritage types) (name : Str)
    {c : Nat} {as : List (List (Section ν))} (ha : Ancestors types c as) :
    ∀ {hc : List (Option Nat)} {ms : List (Section ν)}, types c = .cls hc ms → ∀ fuel, as.length < fuel →
      ClassType.findProperty u types name fuel c true =
        some ((ms :: as).findSome? (fun ss => named u name (ss.flatMap Section.props))) := by
  induction ha with
  | @root c h ms e hr =>
    intro hc ms' e' fuel hf
    rw [e] at e'; cases e'
    cases fuel with
    | zero => simp at hf
    | succ fuel =>
      have hp : ClassType.getParentClass types h = none := by
        unfold ClassType.getParentClass
        cases h with
        | nil => rfl
        | cons o rest =>
          cases o with
          | none => rfl
          | some r =>
            cases ht : types r with
            | cls h' ms' => exact absurd (Denotes.cls ht) (hr r rest rfl r)
            | forward a => simp only [ht]
            | alias a => simp only [ht]
            | other => simp only [ht]
      unfold ClassType.findProperty
      rw [e]
      simp only [findOwnProperty_eq, hp]
      cases hn : named u name (ms.flatMap Section.props) <;> simp [hn]
  | @step c r d h ms as h' ms' e hd e' ha ih =>
    intro hc ms'' e'' fuel hf
    rw [e] at e''; cases e''
    cases fuel with
    | zero => simp at hf
    | succ fuel =>
      obtain ⟨h2, ms2, er⟩ := hdir c _ _ r h e rfl
      have hdr := denotes_direct er hd
      subst hdr
      have hp : ClassType.getParentClass types (some d :: h) = some d := by
        simp only [ClassType.getParentClass, er]
      have i1 := ih e' fuel (by simp at hf; omega)
      unfold ClassType.findProperty
      rw [e]
      simp only [findOwnProperty_eq, hp]
      cases hn : named u name (ms.flatMap Section.props) with
      | some d => simp [hn]
      | none =>
        simp only [if_true]
        rw [i1, List.findSome?_cons, List.findSome?_cons]
        simp [hn, List.findSome?_cons]

end

/-- `property P: T1 read R2 stored S6; ... property P write W3; ... property P read R4;` -/
def exChain : List (PropObj Nat) :=
  [⟨r!"P", some 1, none, some 2, none, some 6, none, none, none⟩,
   ⟨r!"P", none, none, none, some 3, none, none, none, some 0⟩,
   ⟨r!"P", none, none, some 4, none, none, none, none, some 1⟩]

example : Overrides exChain 2 [exChain[2], exChain[1], exChain[0]] :=
  .step rfl rfl (.step rfl rfl (.root rfl rfl))

example : computed 3 exChain 2 =
    some (exChain ++ [⟨r!"P", some 1, none, some 4, some 3, some 6, none, none, none⟩], 3) := rfl

end TP.Props
