import Verif.Model.ClassType
import Verif.Lemmas.Case

/-!
# C30: member lookup finds the nearest accessible member
-/

namespace TP.Spec
open TP

section
variable {ν : Type}

/-- all members of a section in order: fields, methods, properties -/
def sectionMembers (s : Section ν) : List (Decl ν) :=
  s.fields.flatMap (fun f => f.names.map (fun n => ⟨n, f.node⟩)) ++ s.methods ++ s.props

/-- all members of a class -/
def members (ss : List (Section ν)) : List (Decl ν) := ss.flatMap sectionMembers

/-- all members of a class that are not private -/
def openMembers (ss : List (Section ν)) : List (Decl ν) := (ss.filter (fun s => !s.priv)).flatMap sectionMembers

/-- the class that a type name stands for: follow aliases, and a forward declaration to the full class -/
inductive Denotes (types : Nat → TypeNode ν) : Nat → Nat → Prop
  | cls {d : Nat} {h : List (Option Nat)} {ms : List (Section ν)} (e : types d = .cls h ms) : Denotes types d d
  | alias {d d' c : Nat} (e : types d = .alias (some d')) (h : Denotes types d' c) : Denotes types d c
  | forward {d d' c : Nat} (e : types d = .forward (some d')) (h : Denotes types d' c) : Denotes types d c

/-- `Ancestors types c as`: `as` are the ancestors of the class `c`, nearest first, given by their sections; the
parent of a class is the class denoted by the first item of its heritage. -/
inductive Ancestors (types : Nat → TypeNode ν) : Nat → List (List (Section ν)) → Prop
  | root {c : Nat} {h : List (Option Nat)} {ms : List (Section ν)} (e : types c = .cls h ms)
      (hr : ∀ r rest, h = some r :: rest → ∀ d, ¬ Denotes types r d) : Ancestors types c []
  | step {c r d : Nat} {h : List (Option Nat)} {ms : List (Section ν)} {as : List (List (Section ν))}
      {h' : List (Option Nat)} {ms' : List (Section ν)} (e : types c = .cls (some r :: h) ms)
      (hd : Denotes types r d) (e' : types d = .cls h' ms') (ha : Ancestors types d as) :
      Ancestors types c (ms' :: as)

/-- the first declaration with that name, ignoring case -/
def named (u : Uni) (name : Str) (ds : List (Decl ν)) : Option (Decl ν) :=
  ds.find? (fun d => u.toLower d.name = u.toLower name)

/-- what a lookup must return: a member of the class, else the nearest non-private one of an ancestor -/
def nearest (u : Uni) (name : Str) (own : List (Section ν)) (as : List (List (Section ν))) : Option (Decl ν) :=
  match named u name (members own) with
  | some d => some d
  | none => as.findSome? (fun ss => named u name (openMembers ss))

/-- every type name used as parent is directly the name of a class -/
def DirectHeritage (types : Nat → TypeNode ν) : Prop :=
  ∀ c h ms r rest, types c = .cls h ms → h = some r :: rest → ∃ h' ms', types r = .cls h' ms'

end
end TP.Spec

namespace TP.Props
open TP TP.Spec TP.ClassType

section
variable {ν : Type} (u : Uni)

theorem identFind_eq (names : List Str) (name : Str) :
    identFind u names name = names.find? (fun n => u.toLower n = u.toLower name) := by
  induction names with
  | nil => rfl
  | cons n ns ih =>
    unfold identFind
    by_cases h : u.toLower n = u.toLower name <;> simp [h, ih]

theorem declsFind_eq (ds : List (Decl ν)) (name : Str) : declsFind u ds name = named u name ds := by
  induction ds with
  | nil => rfl
  | cons n ns ih =>
    unfold declsFind
    by_cases h : u.toLower n.name = u.toLower name <;> simp [h, ih, named]

variable {u}

/-- lower-casing the name twice is lower-casing it once (true for every name of ASCII characters, `lowIdem_ascii`) -/
def LowIdem (u : Uni) (name : Str) : Prop := u.toLower (u.toLower name) = u.toLower name

theorem lowIdem_ascii (u : Uni) (name : Str) (h : ∀ c ∈ name, c.toNat < 128) : LowIdem u name := by
  unfold LowIdem Uni.toLower
  rw [List.map_map]
  apply List.map_congr_left
  intro c hc
  have hc := h c hc
  simp only [Function.comp]
  rw [u.low_ascii c hc]
  by_cases hu : 65 ≤ c.toNat ∧ c.toNat ≤ 90
  · have := asciiLow_upper hu.1 hu.2
    rw [u.low_ascii _ (by omega)]
    exact asciiLow_lower (by omega)
  · have : asciiLow c = c := by
      unfold asciiLow asciiUpper
      rw [if_neg]; simp; omega
    rw [this, u.low_ascii c hc, this]

theorem find_map_field (f : ClassField ν) (kw : Str) :
    (named u kw (f.names.map (fun n => (⟨n, f.node⟩ : Decl ν))) = none ↔ identFind u f.names kw = none) := by
  rw [identFind_eq]
  simp [named, List.find?_eq_none]

theorem findField_eq (kw : Str) (fs : List (ClassField ν)) :
    findField u kw fs = (named u kw (fs.flatMap (fun f => f.names.map (fun n => ⟨n, f.node⟩)))).map some := by
  induction fs with
  | nil => rfl
  | cons f fs ih =>
    unfold findField
    rw [List.flatMap_cons]
    have happ : ∀ a b : List (Decl ν), named u kw (a ++ b) = (named u kw a).or (named u kw b) := by
      intro a b; simp [named, List.find?_append]
    rw [happ]
    cases hi : identFind u f.names kw with
    | none =>
      rw [(find_map_field f kw).2 hi, Option.none_or]; exact ih
    | some n =>
      rw [declsFind_eq]
      cases hd : named u kw (f.names.map (fun n => (⟨n, f.node⟩ : Decl ν))) with
      | none => rw [(find_map_field f kw).1 hd] at hi; cases hi
      | some d => rfl

theorem findNamed_eq (kw : Str) (hk : u.toLower kw = kw) (ds : List (Decl ν)) :
    findNamed u kw ds = (named u kw ds).map some := by
  induction ds with
  | nil => rfl
  | cons d ds ih =>
    unfold findNamed
    rw [declsFind_eq]
    by_cases h : u.toLower d.name = kw
    · simp [h, named, hk]
    · rw [if_neg h, ih]
      simp [named, hk, h]

theorem named_append (kw : Str) (a b : List (Decl ν)) : named u kw (a ++ b) = (named u kw a).or (named u kw b) := by
  simp [named, List.find?_append]

theorem findSection_eq (kw : Str) (hk : u.toLower kw = kw) (s : Section ν) (rest : Option (Option (Decl ν))) :
    (match findField u kw s.fields with
      | some r => some r
      | none =>
        match findNamed u kw s.methods with
        | some r => some r
        | none =>
          match findNamed u kw s.props with
          | some r => some r
          | none => rest) = ((named u kw (sectionMembers s)).map some).or rest := by
  rw [findField_eq, findNamed_eq kw hk, findNamed_eq kw hk, sectionMembers, named_append, named_append]
  cases named u kw (s.fields.flatMap (fun f => f.names.map (fun n => (⟨n, f.node⟩ : Decl ν)))) with
  | some d => rfl
  | none =>
    cases named u kw s.methods with
    | some d => rfl
    | none =>
      cases named u kw s.props with
      | some d => rfl
      | none => rfl

theorem findOwn_true (kw : Str) (hk : u.toLower kw = kw) (ss : List (Section ν)) :
    findOwn u kw true ss = (named u kw (members ss)).map some := by
  induction ss with
  | nil => rfl
  | cons s ss ih =>
    unfold findOwn
    simp only [Bool.not_true, Bool.false_and, Bool.false_eq_true, if_false]
    refine (findSection_eq kw hk s _).trans ?_
    rw [ih, show members (s :: ss) = sectionMembers s ++ members ss from List.flatMap_cons .., named_append]
    cases named u kw (sectionMembers s) <;> rfl

theorem findOwn_false (kw : Str) (hk : u.toLower kw = kw) (ss : List (Section ν)) :
    findOwn u kw false ss = (named u kw (openMembers ss)).map some := by
  induction ss with
  | nil => rfl
  | cons s ss ih =>
    unfold findOwn
    cases hp : s.priv with
    | true =>
      simp only [Bool.not_false, Bool.and_self, if_true]
      rw [ih]; simp [openMembers, hp]
    | false =>
      simp only [Bool.and_false, Bool.false_eq_true, if_false]
      refine (findSection_eq kw hk s _).trans ?_
      rw [ih]
      simp only [openMembers, List.filter_cons, hp, Bool.not_false, if_true, List.flatMap_cons]
      rw [named_append]
      cases named u kw (sectionMembers s) <;> rfl

theorem named_low (name : Str) (hl : LowIdem u name) (ds : List (Decl ν)) :
    named u (u.toLower name) ds = named u name ds := by
  unfold named
  rw [show u.toLower (u.toLower name) = u.toLower name from hl]

theorem denotes_direct {types : Nat → TypeNode ν} {r d : Nat} {h : List (Option Nat)} {ms : List (Section ν)}
    (e : types r = .cls h ms) (hd : Denotes types r d) : d = r := by
  cases hd with
  | cls _ => rfl
  | alias e' _ => rw [e] at e'; cases e'
  | forward e' _ => rw [e] at e'; cases e'

theorem find_open (types : Nat → TypeNode ν) (hdir : DirectHeritage types) (name : Str) (hl : LowIdem u name)
    {c : Nat} {as : List (List (Section ν))} (ha : Ancestors types c as) :
    ∀ {hc : List (Option Nat)} {ms : List (Section ν)}, types c = .cls hc ms → ∀ fuel, as.length < fuel →
      findMemberDecl u types name fuel c false =
        some ((ms :: as).findSome? (fun ss => named u name (openMembers ss))) ∧
      findMemberDecl u types name fuel c true = some (nearest u name ms as) := by
  induction ha with
  | @root c h ms e hr =>
    intro hc ms' e' fuel hf
    rw [e] at e'; cases e'
    cases fuel with
    | zero => simp at hf
    | succ fuel =>
      have hp : getParentClass types h = none := by
        unfold getParentClass
        cases h with
        | nil => rfl
        | cons o rest =>
          cases o with
          | none => rfl
          | some r =>
            cases ht : types r with
            | cls h' ms' => exact absurd (Denotes.cls ht) (hr r rest rfl r)
            | forward a => simp only [ht]
            | alias a => simp only [ht]
            | other => simp only [ht]
      constructor
      · unfold findMemberDecl
        rw [e]
        simp only [findOwn_false _ hl, hp, named_low name hl]
        cases hn : named u name (openMembers ms) <;> simp [hn]
      · unfold findMemberDecl
        rw [e]
        simp only [findOwn_true _ hl, hp, named_low name hl, nearest]
        cases named u name (members ms) <;> simp
  | @step c r d h ms as h' ms' e hd e' ha ih =>
    intro hc ms'' e'' fuel hf
    rw [e] at e''; cases e''
    cases fuel with
    | zero => simp at hf
    | succ fuel =>
      obtain ⟨h2, ms2, er⟩ := hdir c _ _ r h e rfl
      have hdr := denotes_direct er hd
      subst hdr
      have hp : getParentClass types (some d :: h) = some d := by
        simp only [getParentClass, er]
      obtain ⟨i1, _⟩ := ih e' fuel (by simp at hf; omega)
      constructor
      · unfold findMemberDecl
        rw [e]
        simp only [findOwn_false _ hl, hp, named_low name hl]
        cases hn : named u name (openMembers ms) with
        | some d => simp [hn]
        | none =>
          simp only [Option.map_none]
          rw [i1, List.findSome?_cons, List.findSome?_cons]
          simp [hn, List.findSome?_cons]
      · unfold findMemberDecl
        rw [e]
        simp only [findOwn_true _ hl, hp, named_low name hl, nearest]
        cases hn : named u name (members ms) with
        | some d => simp
        | none => simp only [Option.map_none]; exact i1

/-- If the parents are named directly (not by an alias): for every class with the ancestors `as` and every name, the
lookup returns what `nearest` says.  Missing for the full claim: parents given by an alias, see `C30_refuted`. -/
theorem C30_partial (types : Nat → TypeNode ν) (hdir : DirectHeritage types) (name : Str) (hl : LowIdem u name)
    {c : Nat} {as : List (List (Section ν))} (ha : Ancestors types c as) {hc : List (Option Nat)}
    {ms : List (Section ν)} (e : types c = .cls hc ms) (fuel : Nat) (hf : as.length < fuel) :
    findMemberDecl u types name fuel c true = some (nearest u name ms as) :=
  (find_open types hdir name hl ha e fuel hf).2

/-- The casing of the name does not matter. -/
theorem C30_case (types : Nat → TypeNode ν) (n₁ n₂ : Str) (h : SameName n₁ n₂) (fuel c : Nat) (b : Bool) :
    findMemberDecl u types n₁ fuel c b = findMemberDecl u types n₂ fuel c b := by
  induction fuel generalizing c b with
  | zero => rfl
  | succ fuel ih =>
    unfold findMemberDecl
    rw [SameName.lower u h]
    cases types c with
    | cls hh ms => simp only [ih]
    | _ => rfl

theorem own_spec {ms : List (Section ν)} {b : Bool} {name : Str} {r : Option (Decl ν)}
    (h : findOwn u (u.toLower name) b ms = some r) (hb : b = false) :
    ∀ d, r = some d → d ∈ openMembers ms := by
  subst hb
  induction ms with
  | nil => cases h
  | cons s ss ih =>
    unfold findOwn at h
    intro d hd
    subst hd
    cases hp : s.priv with
    | true =>
      simp only [hp, Bool.not_false, Bool.and_self, if_true] at h
      have := ih h d rfl
      simpa [openMembers, hp] using this
    | false =>
      simp only [hp, Bool.and_false, Bool.false_eq_true, if_false] at h
      have hmem : ∀ d, d ∈ sectionMembers s → d ∈ openMembers (s :: ss) := by
        intro d hd
        simp only [openMembers, List.filter_cons, hp, Bool.not_false, if_true, List.flatMap_cons, List.mem_append]
        exact Or.inl hd
      have hnamed : ∀ (ds : List (Decl ν)) (r : Option (Decl ν)),
          findNamed u (u.toLower name) ds = some r → ∀ d, r = some d → d ∈ ds := by
        intro ds
        induction ds with
        | nil => intro r h; cases h
        | cons d0 ds ih =>
          intro r h d hd
          unfold findNamed at h
          split at h
          · injection h with h
            rw [← h, declsFind_eq] at hd
            have := List.mem_of_find?_eq_some hd
            simp only [List.mem_singleton] at this
            rw [this]; simp
          · exact List.mem_cons_of_mem _ (ih r h d hd)
      cases hf : findField u (u.toLower name) s.fields with
      | some r =>
        rw [hf] at h; simp only [Option.some.injEq] at h
        subst h
        rw [findField_eq] at hf
        cases hn : named u (u.toLower name)
            (s.fields.flatMap (fun f => f.names.map (fun n => (⟨n, f.node⟩ : Decl ν)))) with
        | none => rw [hn] at hf; cases hf
        | some d' =>
          rw [hn] at hf; simp at hf; subst hf
          apply hmem
          have := List.mem_of_find?_eq_some hn
          simp only [sectionMembers, List.mem_append]
          exact Or.inl (Or.inl this)
      | none =>
        rw [hf] at h
        simp only at h
        cases hm : findNamed u (u.toLower name) s.methods with
        | some r =>
          rw [hm] at h; simp only [Option.some.injEq] at h
          subst h
          apply hmem
          have := hnamed _ _ hm d rfl
          simp only [sectionMembers, List.mem_append]
          exact Or.inl (Or.inr this)
        | none =>
          rw [hm] at h
          simp only at h
          cases hq : findNamed u (u.toLower name) s.props with
          | some r =>
            rw [hq] at h; simp only [Option.some.injEq] at h
            subst h
            apply hmem
            have := hnamed _ _ hq d rfl
            simp only [sectionMembers, List.mem_append]
            exact Or.inr this
          | none =>
            rw [hq] at h
            simp only at h
            have := ih h d rfl
            simp only [openMembers, List.filter_cons, hp, Bool.not_false, if_true, List.flatMap_cons,
              List.mem_append]
            exact Or.inr this

/-- In every hierarchy, also with aliases or cycles: a declaration found without access to private members is a
non-private member of some class. -/
theorem C30_no_private (types : Nat → TypeNode ν) (name : Str) (fuel c : Nat) (d : Decl ν)
    (h : findMemberDecl u types name fuel c false = some (some d)) :
    ∃ c' hc ms, types c' = .cls hc ms ∧ d ∈ openMembers ms := by
  induction fuel generalizing c with
  | zero => cases h
  | succ fuel ih =>
    unfold findMemberDecl at h
    cases ht : types c with
    | cls hc ms =>
      rw [ht] at h
      simp only at h
      cases ho : findOwn u (u.toLower name) false ms with
      | some r =>
        rw [ho] at h
        simp only [Option.some.injEq] at h
        exact ⟨c, hc, ms, ht, own_spec ho rfl d h⟩
      | none =>
        rw [ho] at h
        simp only at h
        cases hp : getParentClass types hc with
        | some d' => rw [hp] at h; exact ih d' h
        | none => rw [hp] at h; cases h
    | _ => rw [ht] at h; cases h

end

/-- a class without parent with the public field `X`, an alias of it, and a class derived from the alias -/
def aliasHierarchy : Nat → TypeNode Nat
  | 0 => .cls [] [⟨false, [⟨[r!"X"], 7⟩], [], []⟩]
  | 1 => .alias (some 0)
  | 2 => .cls [some 1] []
  | _ => .other

/-- A parent given by an alias is not found: `type A = class X: Integer end; B = A; C = class(B) end;` has the member
`C.X`, the lookup returns nothing. -/
theorem C30_refuted : ∃ (types : Nat → TypeNode Nat) (c : Nat) (as : List (List (Section Nat))),
    Ancestors types c as ∧ (∃ h ms, types c = .cls h ms ∧ nearest asciiUni r!"X" ms as = some ⟨r!"X", 7⟩) ∧
      ∀ fuel b, findMemberDecl asciiUni types r!"X" (fuel + 1) c b = some none := by
  refine ⟨aliasHierarchy, 2, [[⟨false, [⟨[r!"X"], 7⟩], [], []⟩]], ?_, ⟨[some 1], [], rfl, by decide⟩, ?_⟩
  · exact .step rfl (.alias rfl (.cls rfl)) rfl (.root rfl (by intro r rest h; cases h))
  · intro fuel b; rfl

/-- `type A = class(A) end;` (the parent is resolved at the end of the section, `parser/type.go:175-194`) -/
def selfParent : Nat → TypeNode Nat
  | 0 => .cls [some 0] []
  | _ => .other

/-- Classes may be their own ancestors; then the lookup of an absent member never returns. -/
theorem C30_refuted_cycle : ∀ fuel b, findMemberDecl asciiUni selfParent r!"X" fuel 0 b = none := by
  intro fuel
  induction fuel with
  | zero => intro b; rfl
  | succ fuel ih => intro b; exact ih false

/-- class 2 derives from 1, 1 from 0; `Y` is private in 1 and public in 0 -/
def goodHierarchy : Nat → TypeNode Nat
  | 0 => .cls [] [⟨false, [⟨[r!"X", r!"Y"], 7⟩], [], []⟩]
  | 1 => .cls [some 0] [⟨true, [⟨[r!"Y"], 8⟩], [], []⟩, ⟨false, [], [⟨r!"M", 9⟩], []⟩]
  | 2 => .cls [some 1] [⟨true, [], [], [⟨r!"P", 10⟩]⟩]
  | _ => .other

example : DirectHeritage goodHierarchy := by
  intro c h ms r rest e hh
  match c with
  | 0 => cases e; cases hh
  | 1 => cases e; cases hh; exact ⟨_, _, rfl⟩
  | 2 => cases e; cases hh; exact ⟨_, _, rfl⟩
  | n + 3 => cases e

example : Ancestors goodHierarchy 2
    [[⟨true, [⟨[r!"Y"], 8⟩], [], []⟩, ⟨false, [], [⟨r!"M", 9⟩], []⟩], [⟨false, [⟨[r!"X", r!"Y"], 7⟩], [], []⟩]] :=
  .step rfl (.cls rfl) rfl (.step rfl (.cls rfl) rfl (.root rfl (by intro r rest h; cases h)))

example : findMemberDecl asciiUni goodHierarchy r!"y" 9 2 true = some (some ⟨r!"Y", 7⟩) := by decide
example : findMemberDecl asciiUni goodHierarchy r!"p" 9 2 true = some (some ⟨r!"P", 10⟩) := by decide
example : findMemberDecl asciiUni goodHierarchy r!"y" 9 1 true = some (some ⟨r!"Y", 8⟩) := by decide

end TP.Props
