import Verif.Model.DeclEnv
import Mathlib.Data.Finset.Card

/-!
# Searches that do not end

The searches through types (`ast/type_class.go:87-141`, `ast/type_id.go:58-155`) have no bound in the code.  The model
stops after a number of steps and calls that a hang.  Here: such a search does not end after any number of steps.
-/

namespace TP

section
variable {α : Type} (step : α → Option α)

/-- at least so many steps -/
def Steps : Nat → α → Prop
  | 0, _ => True
  | n + 1, a => ∃ b, step a = some b ∧ Steps n b

theorem Steps.le {step : α → Option α} : ∀ {n m : Nat} {a : α}, Steps step n a → m ≤ n → Steps step m a := by
  intro n
  induction n with
  | zero => intro m a _ h; rw [Nat.le_zero.1 h]; trivial
  | succ n ih =>
    rintro m a ⟨b, h1, h2⟩ h
    cases m with
    | zero => trivial
    | succ m => exact ⟨b, h1, ih h2 (Nat.le_of_succ_le_succ h)⟩

/-- more steps than places -/
theorem Steps.forever [DecidableEq α] (S : Finset α) (hS : ∀ a b, step a = some b → a ∈ S) {n : Nat} (hn : S.card < n) {a : α}
    (h : Steps step n a) (m : Nat) : Steps step m a := by
  classical
  let T : Nat → Finset α := fun n => S.filter (Steps step (n + 1))
  have mem : ∀ n x, x ∈ T n ↔ Steps step (n + 1) x := fun n x => by
    simp only [T, Finset.mem_filter]
    exact ⟨fun h => h.2, fun h => ⟨by obtain ⟨b, hb, -⟩ := h; exact hS _ _ hb, h⟩⟩
  have mono : ∀ n, T (n + 1) ⊆ T n := fun n x hx => (mem _ _).2 (((mem _ _).1 hx).le (Nat.le_succ _))
  have next : ∀ n, T n = T (n + 1) → T (n + 1) = T (n + 2) := fun n e => by
    refine Finset.Subset.antisymm (fun x hx => ?_) (mono _)
    obtain ⟨b, hb, hr⟩ := (mem _ _).1 hx
    have : b ∈ T n := (mem _ _).2 hr
    rw [e] at this
    exact (mem _ _).2 ⟨b, hb, (mem _ _).1 this⟩
  have count : ∀ n, (T n).card + n ≤ S.card ∨ T n = T (n + 1) := by
    intro n
    induction n with
    | zero => exact .inl (Finset.card_filter_le _ _)
    | succ n ih =>
      by_cases e : T n = T (n + 1)
      · exact .inr (next n e)
      · have := Finset.card_lt_card (Finset.ssubset_iff_subset_ne.2 ⟨mono n, fun h => e h.symm⟩)
        exact .inl (by have := ih.resolve_right e; omega)
  have ha : a ∈ T S.card := (mem _ _).2 (h.le hn)
  have e : T S.card = T (S.card + 1) := by
    refine (count S.card).resolve_left fun hc => ?_
    have := Finset.card_pos.2 ⟨a, ha⟩
    omega
  have stay : ∀ j, T (S.card + j) = T S.card ∧ T (S.card + j) = T (S.card + j + 1) := by
    intro j
    induction j with
    | zero => exact ⟨rfl, e⟩
    | succ j ih => exact ⟨ih.2.symm.trans ih.1, next _ ih.2⟩
  have := (mem _ _).1 ((stay m).1 ▸ ha)
  exact this.le (by omega)

/-- more steps than places that can be reached -/
theorem Steps.forever' [DecidableEq α] (S : Finset α) (hS : ∀ a b, a ∈ S → step a = some b → b ∈ S ∨ step b = none) {n : Nat}
    (hn : S.card < n) {a : α} (ha : a ∈ S) (h : Steps step n a) (m : Nat) : Steps step m a := by
  let step' : α → Option α := fun a => if a ∈ S then step a else none
  have key : ∀ n a, a ∈ S ∨ step a = none → (Steps step n a ↔ Steps step' n a) := by
    intro n
    induction n with
    | zero => intro a _; exact Iff.rfl
    | succ n ih =>
      intro a ha
      have e : step' a = step a := by
        rcases ha with ha | ha
        · exact if_pos ha
        · by_cases hm : a ∈ S
          · exact if_pos hm
          · exact (if_neg hm).trans ha.symm
      constructor
      · rintro ⟨b, hb, hr⟩
        have hm : a ∈ S := ha.resolve_right fun h => by rw [h] at hb; cases hb
        exact ⟨b, e.trans hb, (ih b (hS a b hm hb)).1 hr⟩
      · rintro ⟨b, hb, hr⟩
        rw [e] at hb
        have hm : a ∈ S := ha.resolve_right fun h => by rw [h] at hb; cases hb
        exact ⟨b, hb, (ih b (hS a b hm hb)).2 hr⟩
  refine (key m a (.inl ha)).2 (Steps.forever step' S (fun x y hx => ?_) hn ((key n a (.inl ha)).1 h) m)
  by_contra hm
  have : step' x = none := if_neg hm
  rw [this] at hx
  cases hx

end

/-! ## Members of classes -/

namespace ClassType
variable {ν : Type} (u : Uni) (types : Nat → TypeNode ν)

/-- the class where a search for a member goes on -/
def memberStep (name : Str) (c : Nat) : Option Nat :=
  match types c with
  | .cls heritage members =>
    match findOwn u (u.toLower name) false members with
    | some _ => none
    | none => getParentClass types heritage
  | _ => none

theorem findMemberDecl_none {name : Str} : ∀ {n c : Nat}, findMemberDecl u types name n c false = none ↔
    Steps (memberStep u types name) n c := by
  intro n
  induction n with
  | zero => intro c; exact ⟨fun _ => trivial, fun _ => rfl⟩
  | succ n ih =>
    intro c
    unfold findMemberDecl Steps
    have e : memberStep u types name c = match types c with
      | .cls heritage members =>
        match findOwn u (u.toLower name) false members with
        | some _ => none
        | none => getParentClass types heritage
      | _ => none := rfl
    rw [e]
    cases types c with
    | cls h m =>
      simp only
      cases findOwn u (u.toLower name) false m with
      | some r => simp
      | none =>
        simp only
        cases getParentClass types h with
        | none => simp
        | some d => simp [ih]
    | _ => simp

theorem memberStep_lt {name : Str} {b i j : Nat} (hb : ∀ i, b ≤ i → types i = .other) (h : memberStep u types name i = some j) : i < b := by
  by_contra hi
  unfold memberStep at h
  rw [hb i (Nat.le_of_not_lt hi)] at h
  cases h

/-- the search for a member in all the classes there are -/
theorem findMemberDecl_hang {name : Str} {b n c : Nat} (hb : ∀ i, b ≤ i → types i = .other) (hn : b < n)
    (h : findMemberDecl u types name n c false = none) (m : Nat) : findMemberDecl u types name m c false = none := by
  rw [findMemberDecl_none] at h ⊢
  exact h.forever _ (Finset.range b) (fun i j hs => Finset.mem_range.2 (memberStep_lt u types hb hs)) (by simpa using hn) m

/-- the class where a search for a property goes on -/
def propStep (name : Str) (c : Nat) : Option Nat :=
  match types c with
  | .cls heritage members =>
    match findOwnProperty u (u.toLower name) members with
    | some _ => none
    | none => getParentClass types heritage
  | _ => none

theorem findProperty_none {name : Str} : ∀ {n c : Nat}, findProperty u types name n c true = none ↔
    Steps (propStep u types name) n c := by
  intro n
  induction n with
  | zero => intro c; exact ⟨fun _ => trivial, fun _ => rfl⟩
  | succ n ih =>
    intro c
    unfold findProperty Steps
    have e : propStep u types name c = match types c with
      | .cls heritage members =>
        match findOwnProperty u (u.toLower name) members with
        | some _ => none
        | none => getParentClass types heritage
      | _ => none := rfl
    rw [e]
    cases types c with
    | cls h m =>
      simp only
      cases findOwnProperty u (u.toLower name) m with
      | some r => simp
      | none =>
        simp only [if_true]
        cases getParentClass types h with
        | none => simp
        | some d => simp [ih]
    | _ => simp

theorem propStep_lt {name : Str} {b i j : Nat} (hb : ∀ i, b ≤ i → types i = .other) (h : propStep u types name i = some j) : i < b := by
  by_contra hi
  unfold propStep at h
  rw [hb i (Nat.le_of_not_lt hi)] at h
  cases h

/-- the search for a property in all the classes there are -/
theorem findProperty_hang {name : Str} {b n c : Nat} (hb : ∀ i, b ≤ i → types i = .other) (hn : b < n)
    (h : findProperty u types name n c true = none) (m : Nat) : findProperty u types name m c true = none := by
  rw [findProperty_none] at h ⊢
  exact h.forever _ (Finset.range b) (fun i j hs => Finset.mem_range.2 (propStep_lt u types hb hs)) (by simpa using hn) m

end ClassType

/-! ## Ordinal types -/

/-- the type where the classification goes on -/
def Ty.step (types : Nat → Ty) (c : Cls) : Ty → Option Ty
  | .set elem => if c = .simple ∨ c = .ordinal then some elem else none
  | .file (some d) => some (types d)
  | .typeId (some d) => some (types d)
  | _ => none

theorem Ty.is_none {types : Nat → Ty} {c : Cls} : ∀ {n : Nat} {t : Ty}, Ty.is types c n t = none ↔ Steps (Ty.step types c) n t := by
  intro n
  induction n with
  | zero => intro t; exact ⟨fun _ => trivial, fun _ => rfl⟩
  | succ n ih =>
    intro t
    cases t with
    | set e =>
      unfold Ty.is Steps
      by_cases h : c = .simple ∨ c = .ordinal
      · simp [Ty.step, h, ih]
      · simp [Ty.step, h]
    | file r => cases r <;> simp [Ty.is, Steps, Ty.step, ih]
    | typeId r => cases r <;> simp [Ty.is, Steps, Ty.step, ih]
    | _ => simp [Ty.is, Steps, Ty.step]

/-- a type and the types of its elements -/
def Ty.parts : Ty → List Ty
  | .set t => .set t :: Ty.parts t
  | t => [t]

theorem Ty.parts_self (t : Ty) : t ∈ t.parts := by cases t <;> simp [Ty.parts]

theorem Ty.parts_length (t : Ty) : t.parts.length = DS.depth t := by
  induction t with
  | set t ih => simp [Ty.parts, DS.depth, ih]
  | _ => rfl

theorem Ty.parts_trans {s e : Ty} : ∀ {t : Ty}, s ∈ t.parts → s = .set e → e ∈ t.parts := by
  intro t
  induction t with
  | set t ih =>
    intro h hs
    rcases List.mem_cons.1 h with h | h
    · rw [h] at hs; cases hs
      exact List.mem_cons_of_mem _ (Ty.parts_self _)
    · exact List.mem_cons_of_mem _ (ih h hs)
  | _ =>
    intro h hs
    rw [List.mem_singleton.1 h] at hs
    cases hs

namespace DS

theorem tys_mem (k : DS) (i : Nat) : (∃ e, k.tys i = .embedded e) ∨ k.tys i = .other ∨ ∃ t ∈ k.types, k.tys i = k.ty t := by
  match i with
  | 0 => exact .inl ⟨_, rfl⟩
  | 1 => exact .inl ⟨_, rfl⟩
  | 2 => exact .inl ⟨_, rfl⟩
  | 3 => exact .inl ⟨_, rfl⟩
  | 4 => exact .inl ⟨_, rfl⟩
  | i + 5 =>
    simp only [tys]
    cases e : k.types[i]? with
    | none => exact .inr (.inl rfl)
    | some t => exact .inr (.inr ⟨t, List.mem_of_getElem? e, rfl⟩)

/-- the classification of a type through all the types there are -/
theorem ordinal_hang {k : DS} {t : PType (Decl Node)} (h : k.ordinal t = none) (m : Nat) :
    Ty.is k.tys .ordinal m (k.ty t) = none := by
  unfold ordinal at h
  let L := (k.ty t).parts ++ k.types.flatMap fun t => (k.ty t).parts
  have hL : L.length = depth (k.ty t) + (k.types.map fun t => depth (k.ty t)).sum := by
    simp only [L, List.length_append, List.length_flatMap, Ty.parts_length]
  rw [Ty.is_none] at h ⊢
  refine h.forever' _ L.toFinset (fun a b ha hs => ?_) (Nat.lt_of_le_of_lt L.toFinset_card_le (by omega))
    (List.mem_toFinset.2 (List.mem_append_left _ (Ty.parts_self _))) m
  have ref : ∀ i, k.tys i ∈ L.toFinset ∨ Ty.step k.tys .ordinal (k.tys i) = none := by
    intro i
    rcases k.tys_mem i with ⟨e, he⟩ | he | ⟨t', ht', he⟩
    · exact .inr (by rw [he]; rfl)
    · exact .inr (by rw [he]; rfl)
    · refine .inl (List.mem_toFinset.2 (List.mem_append_right _ (List.mem_flatMap.2 ⟨t', ht', ?_⟩)))
      rw [he]; exact Ty.parts_self _
  cases a with
  | set e =>
    simp only [Ty.step, or_true, if_true, Option.some.injEq] at hs
    subst hs
    refine .inl (List.mem_toFinset.2 ?_)
    rcases List.mem_append.1 (List.mem_toFinset.1 ha) with ha | ha
    · exact List.mem_append_left _ (Ty.parts_trans ha rfl)
    · obtain ⟨t', ht', ha⟩ := List.mem_flatMap.1 ha
      exact List.mem_append_right _ (List.mem_flatMap.2 ⟨t', ht', Ty.parts_trans ha rfl⟩)
  | file r =>
    cases r with
    | none => cases hs
    | some d => cases hs; exact ref d
  | typeId r =>
    cases r with
    | none => cases hs
    | some d => cases hs; exact ref d
  | _ => cases hs

theorem typeNodes_other (k : DS) (i : Nat) (h : k.types.length ≤ i) : k.typeNodes i = .other := by
  unfold typeNodes
  rw [List.getElem?_eq_none h]

variable (u : Uni)

theorem findR_hang {r : Option (Option (Decl Node))} (h : findR r = .hang) : r = none := by
  cases r with
  | none => rfl
  | some o => cases o <;> cases h

/-- the search for a member -/
theorem findMember_hang {k : DS} {hs : List (TypeId (Decl Node))} {ms : Sects (Decl Node)} {name : Str}
    (h : k.findMember u hs ms name = .hang) : ClassType.findOwn u (u.toLower name) true (sections ms) = none ∧
      ∃ c, ClassType.getParentClass k.typeNodes (hs.map k.typeNo) = some c ∧
      ∀ m, ClassType.findMemberDecl u k.typeNodes name m c false = none := by
  unfold findMember at h
  cases e : ClassType.findOwn u (u.toLower name) true (sections ms) with
  | some r => rw [e] at h; exact nomatch findR_hang h
  | none =>
    rw [e] at h
    cases e' : ClassType.getParentClass k.typeNodes (hs.map k.typeNo) with
    | none => rw [e'] at h; cases h
    | some c =>
      rw [e'] at h
      exact ⟨rfl, c, rfl, ClassType.findMemberDecl_hang u _ k.typeNodes_other (Nat.lt_succ_self _) (findR_hang h)⟩

/-- the search for a property -/
theorem findProp_hang {k : DS} {hs : List (TypeId (Decl Node))} {ms : Sects (Decl Node)} {name : Str}
    (h : k.findProp u hs ms name = .hang) : ClassType.findOwnProperty u (u.toLower name) (sections ms) = none ∧
      ∃ c, ClassType.getParentClass k.typeNodes (hs.map k.typeNo) = some c ∧
      ∀ m, ClassType.findProperty u k.typeNodes name m c true = none := by
  unfold findProp at h
  cases e : ClassType.findOwnProperty u (u.toLower name) (sections ms) with
  | some r => rw [e] at h; cases h
  | none =>
    rw [e] at h
    cases e' : ClassType.getParentClass k.typeNodes (hs.map k.typeNo) with
    | none => rw [e'] at h; cases h
    | some c =>
      rw [e'] at h
      exact ⟨rfl, c, rfl, ClassType.findProperty_hang u _ k.typeNodes_other (Nat.lt_succ_self _) (findR_hang h)⟩

end DS
end TP
