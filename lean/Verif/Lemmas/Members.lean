import Verif.Spec.Members
import Verif.Props.C30

/-!
# The search for members finds what the tree of the class says
-/

namespace TP
open Spec Props ClassType

variable {u : Uni} {k : DS}

/-! ## The members of a class -/

theorem fields_members : ∀ fs : Fields (Decl Node),
    (DS.fields fs).flatMap (fun f => f.names.map (fun n => (⟨n, f.node⟩ : Decl Node))) = fieldDecls fs
  | .nil => rfl
  | .cons [] t rest => by
    rw [fieldDecls, ← fields_members rest, DS.fields]; rfl
  | .cons (i :: is) t rest => by
    rw [fieldDecls, ← fields_members rest, DS.fields, List.flatMap_cons]
    simp [List.map_map, Function.comp_def]

theorem methods_members : ∀ ms : Methods (Decl Node), DS.methods ms = methodDecls ms
  | .nil => rfl
  | .cons (.func _ _ _ _) _ rest => by rw [DS.methods, methodDecls, methods_members rest]; rfl
  | .cons (.ctor _ _) _ rest => by rw [DS.methods, methodDecls, methods_members rest]; rfl
  | .cons (.dtor _) _ rest => by rw [DS.methods, methodDecls, methods_members rest]; rfl

theorem typed_eq (i : OptIntf (Decl Node)) : DS.hasIntf i = typed i := by cases i <;> rfl

theorem propDecl_eq (p : ClassProp (Decl Node)) : DS.propDecl p = propDeclOf p := by
  cases p with
  | mk i intf ix rd wr st df im parent =>
    cases parent with
    | none => simp [DS.propDecl, propDeclOf, fromParent, typed_eq]
    | some d =>
      obtain ⟨n, d⟩ := d
      cases d <;> simp [DS.propDecl, propDeclOf, fromParent, typed_eq]

theorem props_members : ∀ ps : Props (Decl Node), DS.props ps = (propList ps).map propDeclOf
  | .nil => rfl
  | .cons p rest => by rw [DS.props, propList, props_members rest, List.map_cons, propDecl_eq]

theorem section_members (v : Visibility) (fs : Fields (Decl Node)) (ms : Methods (Decl Node)) (ps : Props (Decl Node)) :
    sectionMembers (⟨v == .priv, DS.fields fs, DS.methods ms, DS.props ps⟩ : Section Node) =
      fieldDecls fs ++ methodDecls ms ++ (propList ps).map propDeclOf := by
  unfold sectionMembers
  rw [fields_members, methods_members, props_members]

theorem members_eq : ∀ ms : Sects (Decl Node), members (DS.sections ms) = everyMember (classMembers ms)
  | .nil => rfl
  | .cons v fs m ps rest => by
    rw [DS.sections, members, List.flatMap_cons, section_members, classMembers, everyMember, List.map_append]
    have := members_eq rest
    rw [members, everyMember] at this
    rw [this]
    simp [List.map_map, Function.comp_def]

theorem openMembers_eq : ∀ ms : Sects (Decl Node), openMembers (DS.sections ms) = openMember (classMembers ms)
  | .nil => rfl
  | .cons v fs m ps rest => by
    have ih := openMembers_eq rest
    rw [DS.sections, classMembers]
    unfold openMembers openMember at ih ⊢
    rw [List.filter_cons, List.filter_append, List.map_append, ← ih]
    by_cases hv : v = .priv
    · subst hv
      have : List.filter (fun m : Member' => m.1 != .priv) ((fieldDecls fs ++ methodDecls m ++ (propList ps).map propDeclOf).map
          (fun d => (Visibility.priv, d))) = [] := by
        rw [List.filter_eq_nil_iff]
        intro x hx
        obtain ⟨d, -, rfl⟩ := List.mem_map.1 hx
        exact fun h => by cases h
      rw [this]
      rfl
    · have h1 : (v == .priv) = false := by cases v <;> first | rfl | exact absurd rfl hv
      have : List.filter (fun m : Member' => m.1 != .priv) ((fieldDecls fs ++ methodDecls m ++ (propList ps).map propDeclOf).map
          (fun d => (v, d))) = (fieldDecls fs ++ methodDecls m ++ (propList ps).map propDeclOf).map (fun d => (v, d)) := by
        rw [List.filter_eq_self]
        intro x hx
        obtain ⟨d, -, rfl⟩ := List.mem_map.1 hx
        simp [bne, h1]
      rw [this]
      simp only [h1, Bool.not_false, if_true, List.flatMap_cons]
      rw [← h1, section_members]
      simp [List.map_map, Function.comp_def]

/-- is a property -/
abbrev isPropNode (d : Decl Node) : Bool := match d.node with | .prop .. => true | _ => false

theorem fieldDecls_noProp : ∀ fs : Fields (Decl Node), ∀ d ∈ fieldDecls fs, isPropNode d = false
  | .nil, d, h => by cases h
  | .cons [] t rest, d, h => fieldDecls_noProp rest d h
  | .cons (i :: is) t rest, d, h => by
    rw [fieldDecls] at h
    rcases List.mem_append.1 h with h | h
    · obtain ⟨j, -, rfl⟩ := List.mem_map.1 h; rfl
    · exact fieldDecls_noProp rest d h

theorem methodDecls_noProp : ∀ ms : Methods (Decl Node), ∀ d ∈ methodDecls ms, isPropNode d = false
  | .nil, d, h => by cases h
  | .cons (.func _ _ _ _) _ rest, d, h => by
    rw [methodDecls] at h
    rcases List.mem_cons.1 h with rfl | h
    · rfl
    · exact methodDecls_noProp rest d h
  | .cons (.ctor _ _) _ rest, d, h => by
    rw [methodDecls] at h
    rcases List.mem_cons.1 h with rfl | h
    · rfl
    · exact methodDecls_noProp rest d h
  | .cons (.dtor _) _ rest, d, h => by
    rw [methodDecls] at h
    rcases List.mem_cons.1 h with rfl | h
    · rfl
    · exact methodDecls_noProp rest d h

theorem propDeclOf_isProp (p : ClassProp (Decl Node)) : isPropNode (propDeclOf p) = true := by cases p; rfl

theorem propMember_cons (v : Visibility) (fs : Fields (Decl Node)) (m : Methods (Decl Node)) (ps : Props (Decl Node)) (l : List Member') :
    propMember ((fieldDecls fs ++ methodDecls m ++ (propList ps).map propDeclOf).map (fun d => (v, d)) ++ l) =
      (propList ps).map propDeclOf ++ propMember l := by
  unfold propMember
  rw [List.map_append, List.filter_append, List.map_map]
  congr 1
  rw [show ((fun m : Member' => m.2) ∘ fun d => (v, d)) = id from rfl, List.map_id, List.filter_append, List.filter_append]
  have h1 : (fieldDecls fs).filter isPropNode = [] := List.filter_eq_nil_iff.2 fun d hd => by simp [fieldDecls_noProp fs d hd]
  have h2 : (methodDecls m).filter isPropNode = [] := List.filter_eq_nil_iff.2 fun d hd => by simp [methodDecls_noProp m d hd]
  have h3 : ((propList ps).map propDeclOf).filter isPropNode = (propList ps).map propDeclOf := List.filter_eq_self.2 fun d hd => by
    obtain ⟨p, -, rfl⟩ := List.mem_map.1 hd
    exact propDeclOf_isProp p
  change (fieldDecls fs).filter isPropNode ++ (methodDecls m).filter isPropNode ++ ((propList ps).map propDeclOf).filter isPropNode = _
  rw [h1, h2, h3]; rfl

theorem firstNamed_eq (name : Str) (l : List (Decl Node)) : named u name l = firstNamed u name l := by
  rfl

theorem firstNamed_append (name : Str) (a b : List (Decl Node)) :
    firstNamed u name (a ++ b) = (firstNamed u name a).or (firstNamed u name b) := by
  simp [firstNamed, List.find?_append]

theorem ownProperty_eq (name : Str) : ∀ ms : Sects (Decl Node),
    findOwnProperty u (u.toLower name) (DS.sections ms) = firstNamed u name (propMember (classMembers ms))
  | .nil => rfl
  | .cons v fs m ps rest => by
    rw [DS.sections, findOwnProperty, classMembers, propMember_cons, firstNamed_append, ← ownProperty_eq name rest]
    simp only [props_members]
    have : (List.map propDeclOf (propList ps)).find? (fun d => decide (u.toLower d.name = u.toLower name)) =
        firstNamed u name (List.map propDeclOf (propList ps)) := rfl
    rw [this]
    cases firstNamed u name (List.map propDeclOf (propList ps)) <;> rfl

/-! ## The search -/

theorem parent_some {h : List (TypeId (Decl Node))} {c : Nat} (e : getParentClass k.typeNodes (h.map k.typeNo) = some c) :
    ∃ h' ms', ParentIs k h h' ms' ∧ k.typeNodes c = .cls (h'.map k.typeNo) (DS.sections ms') := by
  cases h with
  | nil => cases e
  | cons t rest =>
    rw [List.map_cons] at e
    cases ht : k.typeNo t with
    | none => rw [ht] at e; cases e
    | some d =>
      rw [ht] at e
      simp only [getParentClass] at e
      cases hd : k.types[d]? with
      | none => rw [show k.typeNodes d = .other by unfold DS.typeNodes; rw [hd]] at e; cases e
      | some ty =>
        have hn : k.typeNodes d = k.typeNode ty := by unfold DS.typeNodes; rw [hd]
        rw [hn] at e
        cases ty with
        | cls h' ms' =>
          cases e
          refine ⟨h', ms', ⟨t, rest, ?_⟩, hn⟩
          unfold DS.typeNo at ht
          split at ht
          · rename_i nm i hr
            cases ht
            exact ⟨nm, _, rfl, hr, hd⟩
          · cases ht
        | _ => cases e

theorem parent_none {h : List (TypeId (Decl Node))} (e : getParentClass k.typeNodes (h.map k.typeNo) = none)
    {h' : List (TypeId (Decl Node))} {ms' : Sects (Decl Node)} : ¬ ParentIs k h h' ms' := by
  rintro ⟨t, rest, nm, c, rfl, hr, hc⟩
  have h1 : k.typeNo t = some c := by unfold DS.typeNo; rw [hr]
  have h2 : k.typeNodes c = .cls (h'.map k.typeNo) (DS.sections ms') := by unfold DS.typeNodes; rw [hc]; rfl
  rw [List.map_cons, h1] at e
  simp [getParentClass, h2] at e

theorem parent_unique {h h1 h2 : List (TypeId (Decl Node))} {m1 m2 : Sects (Decl Node)} (p1 : ParentIs k h h1 m1) (p2 : ParentIs k h h2 m2) :
    h1 = h2 ∧ m1 = m2 := by
  obtain ⟨t, rest, nm, c, rfl, hr, hc⟩ := p1
  obtain ⟨t', rest', nm', c', e, hr', hc'⟩ := p2
  cases e
  rw [hr] at hr'
  cases hr'
  rw [hc] at hc'
  cases hc'
  exact ⟨rfl, rfl⟩

/-- a search through ancestors gives one result -/
theorem Spec.NearestIs.unique {f : List Member' → Option (Decl Node)} {h : List (TypeId (Decl Node))} {d d' : Decl Node} (n : NearestIs k f h d) :
    NearestIs k f h d' → d = d' := by
  induction n with
  | here p e =>
    rintro (⟨p', e'⟩ | ⟨p', e', -⟩)
    · obtain ⟨rfl, rfl⟩ := parent_unique p p'
      exact Option.some.inj (e.symm.trans e')
    · obtain ⟨rfl, rfl⟩ := parent_unique p p'
      cases e.symm.trans e'
  | above p e _ ih =>
    rintro (⟨p', e'⟩ | ⟨p', e', n'⟩)
    · obtain ⟨rfl, rfl⟩ := parent_unique p p'
      cases e.symm.trans e'
    · obtain ⟨rfl, rfl⟩ := parent_unique p p'
      exact ih n'

theorem findMemberDecl_nearest {name : Str} (hl : LowIdem u name) {d : Decl Node} : ∀ (fuel c : Nat) {h h' : List (TypeId (Decl Node))}
    {ms' : Sects (Decl Node)}, ParentIs k h h' ms' → k.typeNodes c = .cls (h'.map k.typeNo) (DS.sections ms') →
    findMemberDecl u k.typeNodes name fuel c false = some (some d) →
    NearestIs k (fun l => firstNamed u name (openMember l)) h d := by
  intro fuel
  induction fuel with
  | zero => intro c h h' ms' _ _ e; cases e
  | succ fuel ih =>
    intro c h h' ms' hp hc e
    unfold findMemberDecl at e
    rw [hc] at e
    simp only at e
    rw [findOwn_false _ hl, openMembers_eq, named_low name hl, firstNamed_eq] at e
    cases hf : firstNamed u name (openMember (classMembers ms')) with
    | some d' =>
      rw [hf] at e
      simp only [Option.map_some, Option.some.injEq] at e
      rw [e] at hf
      exact .here hp hf
    | none =>
      rw [hf] at e
      simp only [Option.map_none] at e
      cases hg : getParentClass k.typeNodes (h'.map k.typeNo) with
      | none => rw [hg] at e; cases e
      | some c' =>
        rw [hg] at e
        obtain ⟨h2, ms2, hp2, hc2⟩ := parent_some hg
        exact .above hp hf (ih c' hp2 hc2 e)

theorem findR_found {r : Option (Option (Decl Node))} {d : Decl Node} (h : DS.findR r = .found d) : r = some (some d) := by
  cases r with
  | none => cases h
  | some o => cases o <;> cases h; rfl

/-- What is found under a name is what the name stands for. -/
theorem findMember_standsFor {name : Str} (hl : LowIdem u name) {h : List (TypeId (Decl Node))} {ms : Sects (Decl Node)} {d : Decl Node}
    (e : k.findMember u h ms name = .found d) : StandsFor u k h (classMembers ms) name d := by
  unfold DS.findMember at e
  rw [findOwn_true _ hl, members_eq, named_low name hl, firstNamed_eq] at e
  unfold StandsFor
  cases hf : firstNamed u name (everyMember (classMembers ms)) with
  | some d' =>
    rw [hf] at e
    simp only [Option.map_some] at e
    have := findR_found e
    simp only [Option.some.injEq] at this
    exact .inl (by rw [this])
  | none =>
    rw [hf] at e
    simp only [Option.map_none] at e
    cases hg : getParentClass k.typeNodes (h.map k.typeNo) with
    | none => rw [hg] at e; cases e
    | some c =>
      rw [hg] at e
      obtain ⟨h2, ms2, hp2, hc2⟩ := parent_some hg
      exact .inr ⟨rfl, findMemberDecl_nearest hl _ c hp2 hc2 (findR_found e)⟩

theorem findNamed_mem {kw : Str} : ∀ {ds : List (Decl Node)} {d : Decl Node}, findNamed u kw ds = some (some d) → d ∈ ds
  | [], _, h => by cases h
  | d0 :: ds, d, h => by
    unfold findNamed at h
    split at h
    · rw [declsFind_eq] at h
      have := List.mem_of_find?_eq_some (Option.some.inj h)
      exact List.mem_cons.2 (.inl (List.mem_singleton.1 this))
    · exact List.mem_cons_of_mem _ (findNamed_mem h)

theorem findOwn_mem {kw : Str} {b : Bool} : ∀ {ss : List (Section Node)} {d : Decl Node}, findOwn u kw b ss = some (some d) →
    d ∈ members ss ∧ (b = false → d ∈ openMembers ss)
  | [], _, h => by cases h
  | s :: ss, d, h => by
    have rest : findOwn u kw b ss = some (some d) → d ∈ members (s :: ss) ∧ (b = false → d ∈ openMembers (s :: ss)) := fun e => by
      obtain ⟨h1, h2⟩ := findOwn_mem e
      refine ⟨List.mem_append_right _ h1, fun hb => ?_⟩
      have := h2 hb
      unfold openMembers at this ⊢
      rw [List.filter_cons]
      split
      · exact List.mem_append_right _ this
      · exact this
    unfold findOwn at h
    split at h
    · exact rest h
    · rename_i hc
      have hm : d ∈ sectionMembers s → d ∈ members (s :: ss) ∧ (b = false → d ∈ openMembers (s :: ss)) := fun e => by
        refine ⟨List.mem_append_left _ e, fun hb => ?_⟩
        subst hb
        have hs : s.priv = false := by simpa using hc
        unfold openMembers
        rw [List.filter_cons, hs]
        exact List.mem_append_left _ e
      rw [findField_eq] at h
      cases hf : named u kw (s.fields.flatMap (fun f => f.names.map (fun n => (⟨n, f.node⟩ : Decl Node)))) with
      | some d' =>
        rw [hf] at h
        simp only [Option.map_some, Option.some.injEq] at h
        subst h
        exact hm (List.mem_append_left _ (List.mem_append_left _ (List.mem_of_find?_eq_some hf)))
      | none =>
        rw [hf] at h
        simp only [Option.map_none] at h
        cases hm' : findNamed u kw s.methods with
        | some r =>
          rw [hm'] at h
          simp only [Option.some.injEq] at h
          subst h
          exact hm (List.mem_append_left _ (List.mem_append_right _ (findNamed_mem hm')))
        | none =>
          rw [hm'] at h
          simp only at h
          cases hp : findNamed u kw s.props with
          | some r =>
            rw [hp] at h
            simp only [Option.some.injEq] at h
            subst h
            exact hm (List.mem_append_right _ (findNamed_mem hp))
          | none =>
            rw [hp] at h
            exact rest h

theorem findMemberDecl_ancestor {name : Str} {d : Decl Node} : ∀ (fuel c : Nat) {h h' : List (TypeId (Decl Node))}
    {ms' : Sects (Decl Node)}, ParentIs k h h' ms' → k.typeNodes c = .cls (h'.map k.typeNo) (DS.sections ms') →
    findMemberDecl u k.typeNodes name fuel c false = some (some d) → OfAncestor k h d := by
  intro fuel
  induction fuel with
  | zero => intro c h h' ms' _ _ e; cases e
  | succ fuel ih =>
    intro c h h' ms' hp hc e
    unfold findMemberDecl at e
    rw [hc] at e
    simp only at e
    cases hf : findOwn u (u.toLower name) false (DS.sections ms') with
    | some r =>
      rw [hf] at e
      simp only [Option.some.injEq] at e
      subst e
      exact .here hp (openMembers_eq ms' ▸ (findOwn_mem hf).2 rfl)
    | none =>
      rw [hf] at e
      simp only at e
      cases hg : getParentClass k.typeNodes (h'.map k.typeNo) with
      | none => rw [hg] at e; cases e
      | some c' =>
        rw [hg] at e
        obtain ⟨h2, ms2, hp2, hc2⟩ := parent_some hg
        exact .above hp (ih c' hp2 hc2 e)

/-- What is found is a member of the class or of an ancestor. -/
theorem findMember_usable {name : Str} {h : List (TypeId (Decl Node))} {ms : Sects (Decl Node)} {d : Decl Node}
    (e : k.findMember u h ms name = .found d) : Usable k h (classMembers ms) d := by
  unfold DS.findMember at e
  cases hf : findOwn u (u.toLower name) true (DS.sections ms) with
  | some r =>
    rw [hf] at e
    have := findR_found e
    simp only [Option.some.injEq] at this
    subst this
    exact .inl (members_eq ms ▸ (findOwn_mem hf).1)
  | none =>
    rw [hf] at e
    simp only at e
    cases hg : getParentClass k.typeNodes (h.map k.typeNo) with
    | none => rw [hg] at e; cases e
    | some c =>
      rw [hg] at e
      obtain ⟨h2, ms2, hp2, hc2⟩ := parent_some hg
      exact .inr (findMemberDecl_ancestor _ c hp2 hc2 (findR_found e))

theorem findProperty_nearest {name : Str} {r : Option (Decl Node)} : ∀ (fuel c : Nat) {h h' : List (TypeId (Decl Node))}
    {ms' : Sects (Decl Node)}, ParentIs k h h' ms' → k.typeNodes c = .cls (h'.map k.typeNo) (DS.sections ms') →
    findProperty u k.typeNodes name fuel c true = some r →
    ∀ d, r = some d ↔ NearestIs k (fun l => firstNamed u name (propMember l)) h d := by
  intro fuel
  induction fuel with
  | zero => intro c h h' ms' _ _ e; cases e
  | succ fuel ih =>
    intro c h h' ms' hp hc e d
    unfold findProperty at e
    rw [hc] at e
    simp only at e
    rw [ownProperty_eq] at e
    cases hf : firstNamed u name (propMember (classMembers ms')) with
    | some d' =>
      rw [hf] at e
      simp only [Option.some.injEq] at e
      subst e
      have : NearestIs k (fun l => firstNamed u name (propMember l)) h d' := .here hp hf
      constructor
      · intro e; cases e; exact this
      · intro n; rw [this.unique n]
    | none =>
      rw [hf] at e
      simp only [if_true] at e
      cases hg : getParentClass k.typeNodes (h'.map k.typeNo) with
      | none =>
        rw [hg] at e
        simp only [Option.some.injEq] at e
        subst e
        constructor
        · intro e; cases e
        · rintro (⟨p', e'⟩ | ⟨p', e', n'⟩)
          · obtain ⟨rfl, rfl⟩ := parent_unique hp p'
            cases hf.symm.trans e'
          · obtain ⟨rfl, rfl⟩ := parent_unique hp p'
            cases n' with
            | here p2 _ => exact absurd p2 (parent_none hg)
            | above p2 _ _ => exact absurd p2 (parent_none hg)
      | some c' =>
        rw [hg] at e
        obtain ⟨h2, ms2, hp2, hc2⟩ := parent_some hg
        rw [ih c' hp2 hc2 e d]
        constructor
        · exact .above hp hf
        · rintro (⟨p', e'⟩ | ⟨p', e', n'⟩)
          · obtain ⟨rfl, rfl⟩ := parent_unique hp p'
            cases hf.symm.trans e'
          · obtain ⟨rfl, rfl⟩ := parent_unique hp p'
            exact n'

/-- The property found is the one that is meant, and none is found if there is none. -/
theorem findProp_spec {name : Str} {h : List (TypeId (Decl Node))} {ms : Sects (Decl Node)} :
    (∀ d, k.findProp u h ms name = .found d → ∀ d', d' = d ↔ PropertyIs u k h (classMembers ms) name d') ∧
    (k.findProp u h ms name = .none → ∀ d, ¬ PropertyIs u k h (classMembers ms) name d) := by
  unfold DS.findProp PropertyIs
  rw [ownProperty_eq]
  cases hf : firstNamed u name (propMember (classMembers ms)) with
  | some d' =>
    refine ⟨fun d e d'' => ?_, fun e => by cases e⟩
    cases e
    simp [eq_comm]
  | none =>
    simp only [reduceCtorEq, true_and, false_or]
    cases hg : getParentClass k.typeNodes (h.map k.typeNo) with
    | none =>
      refine ⟨fun d e => (by cases e), fun _ d n => ?_⟩
      cases n with
      | here p2 _ => exact absurd p2 (parent_none hg)
      | above p2 _ _ => exact absurd p2 (parent_none hg)
    | some c =>
      obtain ⟨h2, ms2, hp2, hc2⟩ := parent_some hg
      simp only
      cases hr : findProperty u k.typeNodes name (k.types.length + 1) c true with
      | none => exact ⟨fun d e => (by cases e), fun e => by cases e⟩
      | some r =>
        have := findProperty_nearest _ c hp2 hc2 hr
        cases r with
        | none => exact ⟨fun d e => (by cases e), fun _ d n => by cases (this d).2 n⟩
        | some d0 =>
          refine ⟨fun d e d'' => ?_, fun e => by cases e⟩
          cases e
          rw [← this d'', Option.some.injEq, eq_comm]

end TP
