import Verif.Model.Construct
import Mathlib.Data.List.Forall2

/-!
# C58  The constructors of tree nodes keep what they are given

The constructors with arguments of type `interface{}`: identifiers, lists of identifiers, references to units and types, parameters,
options of external routines.
-/

namespace TP.Props
open TP Construct

section
variable {τ ε : Type}

/-- The argument is an identifier or a token, by value or by pointer, and this is the identifier (nil for a nil pointer). -/
inductive Names : Val τ ε → Option Ident → Prop
  | ident (i : Ident) : Names (.ident i) (some i)
  | identP (i : Option Ident) : Names (.identP i) i
  | tok (t : Token) : Names (.tok t) (some ⟨t.raw, t.start, t.stop⟩)
  | tokP (t : Token) : Names (.tokP (some t)) (some ⟨t.raw, t.start, t.stop⟩)

/-- `NewIdentFrom` accepts identifiers and tokens, keeps name and place, and panics for everything else. -/
theorem C58_ident (v : Val τ ε) (i : Option Ident) : newIdentFrom v = some i ↔ Names v i := by
  constructor
  · intro h
    unfold newIdentFrom at h
    split at h <;> cases h
    · exact .ident _
    · exact .identP _
    · exact .tok _
    · exact .tokP _
  · rintro (_ | _ | _ | _) <;> rfl

/-- `NewUnitId` and `NewVarDeclAbsoluteIdent` accept the same arguments; the latter needs an identifier that is not nil. -/
theorem C58_unitId (v : Val τ ε) (i : Option Ident) : newUnitId v = some i ↔ Names v i := by
  rw [← C58_ident]
  unfold newUnitId
  split
  · rfl
  · rfl

theorem C58_absolute (v : Val τ ε) (i : Ident) : newVarDeclAbsoluteIdent v = some i ↔ Names v (some i) := by
  rw [← C58_ident]
  unfold newVarDeclAbsoluteIdent
  split
  · simp [newIdentFrom]
  · simp [newIdentFrom]
  · split
    · rename_i e; rw [e]; simp
    · rename_i h1 h2 h3
      exact Iff.intro (fun h => nomatch h) (fun h => absurd h (h3 i))

theorem newIdents_iff (l : List (Val τ ε)) (r : List (Option Ident)) : newIdents l = some r ↔ List.Forall₂ Names l r := by
  induction l generalizing r with
  | nil =>
    simp only [newIdents, Option.some.injEq, List.forall₂_nil_left_iff]
    exact ⟨fun h => h.symm, fun h => h.symm⟩
  | cons v l ih =>
    cases r with
    | nil =>
      simp only [List.forall₂_nil_right_iff, reduceCtorEq, iff_false]
      unfold newIdents
      split <;> simp
    | cons i r =>
      rw [List.forall₂_cons, ← ih, ← C58_ident]
      conv => lhs; unfold newIdents
      split
      · rename_i h1 h2; rw [h1, h2]; simp
      · rename_i h
        exact Iff.intro (fun h => nomatch h) (fun ⟨h1, h2⟩ => absurd h2 (h _ _ h1))

/-- What `NewIdentList` accepts: a list of identifiers, one identifier, a slice of identifiers and tokens, or several of them as
arguments.  The list has the identifiers in this order.  What is missing: a slice of strings and a single token (see
`C58_refuted_list`). -/
theorem C58_list_partial (l : List (Option Ident)) :
    (∀ l', newIdentList [(.idents l' : Val τ ε)] = some l ↔ l = l') ∧
    (∀ vs : List (Val τ ε), newIdentList [.vals vs] = some l ↔ List.Forall₂ Names vs l) ∧
    (∀ i, newIdentList [(.ident i : Val τ ε)] = some l ↔ l = [some i]) ∧
    (∀ i, newIdentList [(.identP i : Val τ ε)] = some l ↔ l = [i]) ∧
    (∀ args : List (Val τ ε), 2 ≤ args.length → (newIdentList args = some l ↔ List.Forall₂ Names args l)) ∧
    newIdentList ([] : List (Val τ ε)) = none := by
  refine ⟨fun l' => ?_, fun vs => newIdents_iff vs l, fun i => ?_, fun i => ?_, fun args h => ?_, rfl⟩
  · simp only [newIdentList, Option.some.injEq]; exact eq_comm
  · simp only [newIdentList, Option.some.injEq]; exact eq_comm
  · simp only [newIdentList, Option.some.injEq]; exact eq_comm
  · obtain _ | ⟨a, _ | ⟨b, args⟩⟩ := args
    · simp at h
    · simp at h
    · have : newIdentList (a :: b :: args) = newIdents (a :: b :: args) := by cases a <;> rfl
      rw [this]
      exact newIdents_iff _ _

/-- A slice of strings, which has a case of its own, always panics (unless it is empty), and so does a single token, though two
tokens are accepted. -/
theorem C58_refuted_list (s : Str) (ss : List Str) (t : Token) :
    newIdentList [(.strs (s :: ss) : Val τ ε)] = none ∧ newIdentList [(.tok t : Val τ ε)] = none ∧
    newIdentList [(.tokP (some t) : Val τ ε)] = none ∧
    newIdentList [(.tok t : Val τ ε), .tok t] = some [some ⟨t.raw, t.start, t.stop⟩, some ⟨t.raw, t.start, t.stop⟩] := by
  refine ⟨?_, rfl, rfl, rfl⟩
  change newIdents (Val.str s :: ss.map Val.str : List (Val τ ε)) = none
  unfold newIdents
  rfl

/-- `NewUnitRef` keeps the identifier and the path; there is at most one path. -/
theorem C58_unitRef_partial (v : Val τ ε) (paths : List Str) (i : Option Ident) (p : Option Str) :
    newUnitRef v paths = some (i, p) ↔ ((∃ j, v = .ident j ∧ i = some j) ∨ v = .identP i) ∧ paths = p.toList := by
  unfold newUnitRef
  have hp : ∀ i' : Option Ident, (match paths with
      | [] => some (i', none)
      | [q] => some (i', some q)
      | _ => (none : Option (Option Ident × Option Str))) = some (i, p) ↔ i = i' ∧ paths = p.toList := by
    intro i'
    obtain _ | ⟨a, _ | ⟨b, l⟩⟩ := paths <;> cases p <;> simp [eq_comm]
  cases v <;> simp only [reduceCtorEq, false_and, exists_false, or_self, Val.ident.injEq, Val.identP.injEq, newIdentFrom, or_false,
    false_or]
  · exact (hp _).trans (and_congr_left' ⟨fun h => ⟨_, rfl, h⟩, fun ⟨j, h1, h2⟩ => by rw [h1, h2]⟩)
  · exact (hp _).trans (and_congr_left' eq_comm)

/-- A string, for which `NewUnitRef` has a case, always panics. -/
theorem C58_refuted_unitRef (s : Str) (paths : List Str) : newUnitRef (.str s : Val τ ε) paths = none := rfl

/-- `NewTypeId` with a name, or with a unit and a name, and with or without a declaration at the end. -/
theorem C58_typeId (a b : Val τ ε) (d : Option Nat) (hb : ∀ d, b ≠ .declP d) :
    (∀ t, newTypeId a [] = some t ↔ ∃ i, Names a i ∧ t = .id none i none) ∧
    (∀ t, newTypeId a [.declP d] = some t ↔ ∃ i, Names a i ∧ t = .id none i d) ∧
    (∀ t, newTypeId a [b] = some t ↔ ∃ q i, Names a q ∧ Names b i ∧ t = .id q i none) ∧
    (∀ t, newTypeId a [b, .declP d] = some t ↔ ∃ q i, Names a q ∧ Names b i ∧ t = .id q i d) := by
  have key : ∀ (r : Option Nat) t, (match newIdentFrom a with
      | some i => some (Typ.id none i r : Typ τ)
      | none => none) = some t ↔ ∃ i, Names a i ∧ t = .id none i r := by
    intro r t
    simp only [← C58_ident]
    cases newIdentFrom a <;> simp [eq_comm]
  have key2 : ∀ (r : Option Nat) t, (match newUnitId a, newIdentFrom b with
      | some q, some i => some (Typ.id q i r : Typ τ)
      | _, _ => none) = some t ↔ ∃ q i, Names a q ∧ Names b i ∧ t = .id q i r := by
    intro r t
    simp only [← C58_ident]
    have : newUnitId a = newIdentFrom a := by unfold newUnitId; split <;> rfl
    rw [this]
    cases newIdentFrom a <;> cases newIdentFrom b <;> simp [eq_comm]
  refine ⟨key none, key d, ?_, key2 d⟩
  have : newTypeId a [b] = (match newUnitId a, newIdentFrom b with
      | some q, some i => some (Typ.id q i none : Typ τ)
      | _, _ => none) := by
    unfold newTypeId
    cases b <;> first | rfl | (exact absurd rfl (hb _))
  rw [this]
  exact key2 none

/-- `NewExternalOptions` keeps the name of the library and the name or the index, never both. -/
theorem C58_external (lib : Str) (args : List (Val τ ε)) (o : ExternalOptions) : newExternalOptions lib args = some o ↔
    o.lib = lib ∧ ((args = [] ∧ o.name = none ∧ o.index = none) ∨
      (∃ s, (args = [.strP s] ∨ ∃ x, s = some x ∧ args = [.str x]) ∧ o.name = s ∧ o.index = none) ∨
      ∃ n, (args = [.intP n] ∨ ∃ x, n = some x ∧ args = [.int x]) ∧ o.name = none ∧ o.index = n) := by
  obtain ⟨l, s, n⟩ := o
  unfold newExternalOptions
  split <;> simp [eq_comm]
  · tauto
  · tauto
  · rename_i h1 h2 h3 h4 h5
    intro _
    refine ⟨fun h => absurd h h1, ?_, ?_⟩
    · rintro (h | ⟨y, _, h⟩)
      · exact absurd h (h3 s)
      · exact absurd h (h2 y)
    · rintro (h | ⟨y, _, h⟩)
      · exact absurd h (h5 n)
      · exact absurd h (h4 y)

/-! ## Parameters -/

/-- What `NewParameterType` is to make of an argument that is no pointer to a `ParameterType`. -/
inductive Holds : Val τ ε → ParameterType (Typ τ) → Prop
  | nil : Holds .nil ⟨none, false⟩
  | copy (p : ParameterType (Typ τ)) : Holds (.ptype p) p
  | type (t : τ) : Holds (.type t) ⟨some (.given t), false⟩
  | name {v : Val τ ε} {i : Option Ident} : Names v i → Holds v ⟨some (.id none i none), false⟩

theorem Holds.not_ptr {v : Val τ ε} {o : ParameterType (Typ τ)} (h : Holds v o) (p : Option Nat) : v ≠ .ptypeP p := by
  rintro rfl
  cases h with
  | name h => cases h

/-- `NewParameterType` returns a pointer it is given, or makes a new object; it panics otherwise.  All objects stay as they are. -/
theorem C58_parameterType (h h' : Heap τ) (v : Val τ ε) (p : Option Nat) : newParameterType h v = some (h', p) ↔
    (v = .ptypeP p ∧ h' = h) ∨ ∃ o, Holds v o ∧ h' = h ++ [o] ∧ p = some h.length := by
  have named : ∀ v : Val τ ε, (∃ i, Names v i) → ∀ o, Holds v o ↔ ∃ i, Names v i ∧ o = ⟨some (.id none i none), false⟩ := by
    rintro v ⟨i, hi⟩ o
    constructor
    · intro h
      cases h with
      | name h => exact ⟨_, h, rfl⟩
      | nil => cases hi
      | copy => cases hi
      | type => cases hi
    · rintro ⟨i, h, rfl⟩; exact .name h
  have new : ∀ o, Holds v o → (∀ o', Holds v o' → o' = o) → (some ((alloc h o).1, some (alloc h o).2) = some (h', p) ↔
      (v = .ptypeP p ∧ h' = h) ∨ ∃ o, Holds v o ∧ h' = h ++ [o] ∧ p = some h.length) := by
    intro o ho hu
    constructor
    · intro e
      cases e
      exact .inr ⟨o, ho, rfl, rfl⟩
    · rintro (⟨h1, _⟩ | ⟨o', h1, rfl, rfl⟩)
      · exact absurd h1 (ho.not_ptr p)
      · rw [hu o' h1]; rfl
  unfold newParameterType
  split
  · refine new _ .nil fun o' h => ?_
    cases h with
    | nil => rfl
    | name h => cases h
  · rename_i p'
    constructor
    · intro e; cases e; exact .inl ⟨rfl, rfl⟩
    · rintro (⟨h1, rfl⟩ | ⟨o, h1, _⟩)
      · cases h1; rfl
      · exact absurd rfl (h1.not_ptr _)
  · refine new _ (.copy _) fun o' h => ?_
    cases h with
    | copy => rfl
    | name h => cases h
  · refine new _ (.type _) fun o' h => ?_
    cases h with
    | type => rfl
    | name h => cases h
  · rename_i n1 n2 n3 n4
    have hn : ∀ t, newTypeId v [] = some t ↔ ∃ i, Names v i ∧ t = .id none i none :=
      (C58_typeId v .nil none (fun _ h => nomatch h)).1
    split
    · rename_i t ht
      obtain ⟨i, hi, rfl⟩ := (hn t).1 ht
      refine new _ (.name hi) fun o' h => ?_
      obtain ⟨j, hj, rfl⟩ := (named v ⟨i, hi⟩ o').1 h
      rw [← C58_ident] at hi hj
      rw [hi] at hj
      cases hj
      rfl
    · rename_i ht
      refine Iff.intro (fun h => nomatch h) ?_
      rintro (⟨h1, _⟩ | ⟨o, h1, _⟩)
      · exact absurd h1 (n2 p)
      · cases h1 with
        | nil => exact absurd rfl n1
        | copy => exact absurd rfl (n3 _)
        | type => exact absurd rfl (n4 _)
        | name h =>
          rw [(hn _).2 ⟨_, h, rfl⟩] at ht
          cases ht

/-- `NewArrayParameterType` makes an array of it; what is not given by pointer stays as it is.  What is missing: pointers. -/
theorem C58_array_partial (h h' : Heap τ) (v : Val τ ε) (p : Nat) (hv : ∀ q, v ≠ .ptypeP q) :
    newArrayParameterType h v = some (h', p) ↔ p = h.length ∧ ∃ o, Holds v o ∧ h' = h ++ [⟨o.type, true⟩] := by
  have hm : ∀ o : ParameterType (Typ τ), (h ++ [o]).modify h.length (fun o => { o with isArray := true }) = h ++ [⟨o.type, true⟩] := by
    intro o
    clear hv
    induction h with
    | nil => rfl
    | cons a h ih => simpa using ih
  unfold newArrayParameterType
  split
  · rename_i h1 q e1
    rcases (C58_parameterType ..).1 e1 with ⟨h2, _⟩ | ⟨o, h2, rfl, h4⟩
    · exact absurd h2 (hv _)
    · cases h4
      rw [hm]
      constructor
      · intro e; cases e; exact ⟨rfl, o, h2, rfl⟩
      · rintro ⟨rfl, o', h5, rfl⟩
        have e2 := (C58_parameterType h _ v (some h.length)).2 (.inr ⟨o', h5, rfl, rfl⟩)
        rw [e1] at e2
        have e3 : h ++ [o] = h ++ [o'] := congrArg Prod.fst (Option.some.inj e2)
        have e4 : o = o' := by simpa using e3
        rw [e4]
  · rename_i hn
    refine Iff.intro (fun h => nomatch h) ?_
    rintro ⟨rfl, o, h1, _⟩
    exact absurd ((C58_parameterType h _ v (some h.length)).2 (.inr ⟨o, h1, rfl, rfl⟩)) (hn _ _)

/-- A `ParameterType` given by pointer to `NewArrayParameterType` is itself changed. -/
theorem C58_refuted_array (t : τ) : newArrayParameterType [⟨some (.given t), false⟩] (.ptypeP (some 0) : Val τ ε) =
    some ([⟨some (.given t), true⟩], 0) := rfl

/-- the type in `NewParameter` -/
def parmType (h : Heap τ) (typ : Val τ ε) : Option (Heap τ × Option Nat) :=
  match typ with
  | .nil => some (h, none)
  | v => newParameterType h v

theorem newParameter_eq (ne : Val τ ε → Option ε) (h : Heap τ) (name typ : Val τ ε) (args : List (Val τ ε)) :
    newParameter ne h name typ args = match parmType h typ, newIdentList [name] with
      | some (h, t), some l =>
        match args with
        | [] => some (h, ⟨l, t, none⟩)
        | [e] => (constExpr ne e).map fun e => (h, ⟨l, t, e⟩)
        | _ => none
      | _, _ => none := rfl

/-- the default of a parameter: a pointer is kept, a value is pointed to, everything else goes through `NewConstExpr` -/
def DefaultIs (ne : Val τ ε → Option ε) (a : Val τ ε) (c : Option ε) : Prop :=
  a = .exprP c ∨ (∃ e, a = .expr e ∧ c = some e) ∨
    ((∀ e, a ≠ .exprP e) ∧ (∀ e, a ≠ .expr e) ∧ ∃ e, ne a = some e ∧ c = some e)

theorem constExpr_iff (ne : Val τ ε → Option ε) (a : Val τ ε) (c : Option ε) : constExpr ne a = some c ↔ DefaultIs ne a c := by
  cases a <;> simp only [constExpr, DefaultIs, Option.map_eq_some_iff] <;> simp <;> grind

/-- `NewParameter` keeps names, type (nil for nil) and default, panics otherwise, and leaves all objects as they are. -/
theorem C58_parameter (ne : Val τ ε → Option ε) (h h' : Heap τ) (name typ : Val τ ε) (args : List (Val τ ε)) (p : Parameter ε) :
    newParameter ne h name typ args = some (h', p) ↔
    newIdentList [name] = some p.idents ∧
      ((typ = .nil ∧ h' = h ∧ p.type = none) ∨ (typ = .ptypeP p.type ∧ h' = h) ∨
        ∃ o, typ ≠ .nil ∧ Holds typ o ∧ h' = h ++ [o] ∧ p.type = some h.length) ∧
      ((args = [] ∧ p.const = none) ∨ ∃ a, args = [a] ∧ DefaultIs ne a p.const) := by
  simp only [← constExpr_iff]
  have ht : ∀ t, parmType h typ = some (h', t) ↔ (typ = .nil ∧ h' = h ∧ t = none) ∨ (typ = .ptypeP t ∧ h' = h) ∨
        ∃ o, typ ≠ .nil ∧ Holds typ o ∧ h' = h ++ [o] ∧ t = some h.length := by
    intro t
    by_cases hn : typ = .nil
    · subst hn
      simp only [parmType, Option.some.injEq, Prod.mk.injEq, reduceCtorEq, false_and, ne_eq, not_true, exists_false, or_false,
        true_and]
      exact and_congr eq_comm eq_comm
    · have : parmType h typ = newParameterType h typ := by
        cases typ <;> first | rfl | exact absurd rfl hn
      rw [this, C58_parameterType]
      simp [hn]
  obtain ⟨l, t, c⟩ := p
  rw [newParameter_eq, ← ht]
  generalize parmType h typ = x
  generalize newIdentList [name] = y
  rcases x with _ | ⟨h1, t1⟩
  · simp
  rcases y with _ | l1
  · simp
  obtain _ | ⟨a, _ | ⟨b, r⟩⟩ := args
  · simp
    grind
  · simp
    grind
  · simp

example : (newParameter (τ := Unit) (ε := Nat) (fun _ => none) [] (.identP (some ⟨r!"x", ⟨1, 1, 0⟩, ⟨1, 2, 1⟩⟩)) .nil [.exprP (some 7)]).map
    (fun r => r.2.const) = some (some 7) := by decide

/-- `NewFormalParm` keeps the parameter and the option.  What is missing: options of other types (see `C58_refuted_option`). -/
theorem C58_formal_partial (ne : Val τ ε → Option ε) (h : Heap τ) (name t : Val τ ε) :
    (∀ r, newFormalParm ne h name [] = some r ↔
      ∃ p, (name = .paramP p ∨ ∃ q, p = some q ∧ name = .param q) ∧ r = (h, ⟨none, p⟩)) ∧
    (∀ args, 3 ≤ args.length → newFormalParm ne h name args = none) ∧
    (newFormalParm ne h name [t] = (newParameter ne h name t []).map fun r => (r.1, ⟨none, some r.2⟩)) ∧
    (∀ o, newFormalParm ne h name [t, .opt o] = (newParameter ne h name t []).map fun r => (r.1, ⟨some o, some r.2⟩)) ∧
    (∀ o, newFormalParm ne h name [t, .optP o] = (newParameter ne h name t []).map fun r => (r.1, ⟨o, some r.2⟩)) ∧
    (∀ s, newFormalParm ne h name [t, .str s] = if s = r!"VAR" ∨ s = r!"CONST" ∨ s = r!"OUT" then
      (newParameter ne h name t []).map fun r => (r.1, ⟨some s, some r.2⟩) else none) := by
  refine ⟨fun r => ?_, fun args h => ?_, rfl, fun _ => rfl, fun _ => rfl, fun s => ?_⟩
  · cases name <;> simp [newFormalParm, eq_comm]
  · obtain _ | ⟨a, _ | ⟨b, _ | ⟨c, l⟩⟩⟩ := args
    · simp at h
    · simp at h
    · simp at h
    · rfl
  unfold newFormalParm formalParmOpt
  by_cases hs : s = r!"VAR" ∨ s = r!"CONST" ∨ s = r!"OUT"
  · simp only [if_pos hs]
  · simp only [if_neg hs]

/-- An option of another type, for instance a number, is dropped without a panic. -/
theorem C58_refuted_option (ne : Val τ ε → Option ε) (h : Heap τ) (name t : Val τ ε) (n : Int) :
    newFormalParm ne h name [t, .int n] = newFormalParm ne h name [t] := rfl

end

/-! ## Examples -/

def exIdent (s : Str) : Ident := ⟨s, ⟨1, 1, 0⟩, ⟨1, 1, 0⟩⟩

example : newIdentList [(.ident (exIdent r!"a") : Val Unit Unit), .identP (some (exIdent r!"b"))] = some [some (exIdent r!"a"), some (exIdent r!"b")] := rfl

example : newFormalParm (fun _ => none) [] (.ident (exIdent r!"a") : Val Unit Unit) [.ident (exIdent r!"T"), .str r!"VAR"] =
    some ([⟨some (.id none (some (exIdent r!"T")) none), false⟩], ⟨some r!"VAR", some ⟨[some (exIdent r!"a")], some 0, none⟩⟩) := by decide

example : newExternalOptions r!"lib" [(.str r!"f" : Val Unit Unit)] = some ⟨r!"lib", some r!"f", none⟩ := rfl

example : newTypeId (.ident (exIdent r!"U") : Val Unit Unit) [.ident (exIdent r!"T"), .declP (some 3)] =
    some (.id (some (exIdent r!"U")) (some (exIdent r!"T")) (some 3)) := rfl

end TP.Props
