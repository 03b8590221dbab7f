import Verif.Lemmas.RestrictBlock
import Verif.Lemmas.Members
import Verif.Lemmas.RefsGoal
import Verif.Lemmas.TraceSection

/-!
# Declarations that are found lead to the tree
-/

namespace TP
open Spec Maps

variable {u : Uni} {S : Dcl (Decl Node) → Prop} {T : List (PType (Decl Node))}

theorem Spec.Leads.mono {S' : Dcl (Decl Node) → Prop} {T' : List (PType (Decl Node))} (hS : ∀ x, S x → S' x) (hT : T <+: T') {d : Decl Node}
    (h : Leads S T d) : Leads S' T' d := by
  obtain ⟨name, node⟩ := d
  cases node with
  | embedded k n => exact h
  | type j =>
    obtain ⟨ty, h1, h2⟩ := h
    obtain ⟨l, rfl⟩ := hT
    refine ⟨ty, ?_, hS _ h2⟩
    rw [List.getElem?_append_left (List.getElem?_eq_some_iff.1 h1).1]
    exact h1
  | uses j => exact hS _ h
  | unit j => exact hS _ h
  | program => exact hS _ h
  | prop i a b c d => exact h
  | decl t i =>
    rcases h with h | h | ⟨h1, h2⟩
    · exact .inl h
    · exact .inr (.inl h)
    · exact .inr (.inr ⟨h1, hS _ h2⟩)

/-! ## Members -/

theorem leads_member {d : Decl Node} : ∀ {ms : Sects (Decl Node)}, d ∈ everyMember (classMembers ms) → Leads S T d
  | .nil, h => by cases h
  | .cons v fs m ps rest, h => by
    rw [classMembers, everyMember, List.map_append, List.mem_append] at h
    rcases h with h | h
    · rw [List.map_map, show ((fun m : Member' => m.2) ∘ fun d => (v, d)) = id from rfl, List.map_id, List.mem_append, List.mem_append] at h
      rcases h with (h | h) | h
      · have key : ∀ fs : Fields (Decl Node), d ∈ fieldDecls fs → Leads S T d := by
          intro fs
          induction fs using fieldDecls.induct with
          | case1 => intro h; cases h
          | case2 t rest ih => exact ih
          | case3 i is t rest ih =>
            intro h
            rw [fieldDecls] at h
            rcases List.mem_append.1 h with h | h
            · obtain ⟨j, -, rfl⟩ := List.mem_map.1 h; exact .inl rfl
            · exact ih h
        exact key fs h
      · have key : ∀ ms : Methods (Decl Node), d ∈ methodDecls ms → Leads S T d := by
          intro ms h
          rw [← methods_members] at h
          revert h
          induction ms using DS.methods.induct with
          | case1 => intro h; cases h
          | case2 h0 _ rest ih =>
            intro h
            rw [DS.methods] at h
            rcases List.mem_cons.1 h with rfl | h
            · exact .inr (.inl rfl)
            · exact ih h
        exact key m h
      · obtain ⟨p, -, rfl⟩ := List.mem_map.1 h
        cases p
        exact rfl
    · exact leads_member h

theorem leads_ancestor {k : DS} {h : List (TypeId (Decl Node))} {d : Decl Node} (a : OfAncestor k h d) : Leads S T d := by
  induction a with
  | @here _ _ ms d _ hm =>
    refine leads_member (ms := ms) ?_
    unfold openMember at hm
    unfold everyMember
    obtain ⟨x, hx, rfl⟩ := List.mem_map.1 hm
    exact List.mem_map_of_mem (List.mem_filter.1 hx).1
  | above _ _ ih => exact ih

theorem leads_findMember {k : DS} {name : Str} {h : List (TypeId (Decl Node))} {ms : Sects (Decl Node)} {d : Decl Node}
    (e : k.findMember u h ms name = .found d) : Leads S T d :=
  (findMember_usable e).elim (fun h => leads_member h) leads_ancestor

theorem leads_first {name : Str} {ms : Sects (Decl Node)} {d : Decl Node} (e : firstNamed u name (propMember (classMembers ms)) = some d) :
    Leads S T d := by
  have := List.mem_of_find?_eq_some e
  exact leads_member (List.mem_filter.1 this).1

theorem leads_nearest {k : DS} {name : Str} {h : List (TypeId (Decl Node))} {d : Decl Node}
    (n : NearestIs k (fun l => firstNamed u name (propMember l)) h d) : Leads S T d := by
  induction n with
  | here _ e => exact leads_first e
  | above _ _ _ ih => exact ih

theorem leads_findProp {k : DS} {name : Str} {h : List (TypeId (Decl Node))} {ms : Sects (Decl Node)} {d : Decl Node}
    (e : k.findProp u h ms name = .found d) : Leads S T d := by
  rcases (findProp_spec.1 d e d).1 rfl with h | ⟨-, h⟩
  · exact leads_first h
  · exact leads_nearest h

theorem leads_emb {kind : EmbKind} {name : Str} {d : Decl Node} (e : DS.emb u kind name = some d) : Leads S T d := by
  unfold DS.emb at e
  split at e
  · rename_i kn hk
    cases e
    exact ⟨rfl, List.mem_of_find?_eq_some hk⟩
  · cases e

/-! ## Tables -/

/-- all declarations of the tables lead to the tree -/
def LedM (S : Dcl (Decl Node) → Prop) (T : List (PType (Decl Node))) (h : Maps Node) : Prop := ∀ j, ∀ p ∈ tbl h j, Leads S T p.2

namespace LedM
variable {h : Maps Node}

theorem cons (hs : LedM S T h) {o : MapObj Node} (ho : ∀ p ∈ objTbl o, Leads S T p.2) : LedM S T (o :: h) := by
  intro j p hm
  rw [tbl_cons] at hm
  split at hm
  · exact ho p hm
  · exact hs j p hm

theorem upd (hs : LedM S T h) {t : Nat} {m : Tbl Node} (hm : ∀ p ∈ m, Leads S T p.2) : LedM S T (upd h t m) := by
  intro j p hp
  rw [tbl_upd] at hp
  split at hp
  · split at hp
    · exact hm p hp
    · exact hm p hp
    · cases hp
  · exact hs j p hp

theorem tset {t : Tbl Node} (h : ∀ p ∈ t, Leads S T p.2) {ds : List (Decl Node)} (hd : ∀ d ∈ ds, Leads S T d) : ∀ p ∈ (t.set u ds).1, Leads S T p.2 := by
  intro p hp
  rcases tblSet_mem u _ _ p hp with hp | ⟨hp, -⟩
  · exact h p hp
  · exact hd _ hp

theorem set (hs : LedM S T h) (i : Nat) {ds : List (Decl Node)} (hd : ∀ d ∈ ds, Leads S T d) : LedM S T (h.set u i ds).1 := by
  have := set_eq u h i ds
  cases e : target h i with
  | none => rw [e] at this; rw [this.1]; exact hs
  | some t => rw [e] at this; rw [this]; exact hs.upd (tset (hs t) hd)

theorem overwrite (hs : LedM S T h) (i : Nat) {d : Decl Node} (name : Str) (hd : Leads S T d) : LedM S T (h.overwrite u i name d).1 := by
  have := overwrite_eq u h i name d
  cases e : target h i with
  | none => rw [e] at this; rw [this]; exact hs
  | some t =>
    rw [e] at this
    rw [this]
    refine hs.upd fun p hp => ?_
    rcases List.mem_cons.1 hp with rfl | hp
    · exact hd
    · exact hs t p hp

theorem get (hs : LedM S T h) {i : Nat} {name : Str} {d : Decl Node} (e : h.get u i name = some d) : Leads S T d := by
  rw [get_layers] at e
  obtain ⟨j, -, hj⟩ := List.exists_of_findSome?_eq_some e
  unfold own at hj
  cases ho : h.obj j with
  | none => rw [ho] at hj; cases hj
  | some o =>
    rw [ho] at hj
    have ht := tbl_obj ho
    have hj' := hs j
    rw [ht] at hj'
    cases o with
    | impl m => exact hj' _ (find_mem hj)
    | chained p m => exact hj' _ (find_mem hj)
    | composite ms => cases hj
    | embedded =>
      have := find_mem (show (embTable u Node).find (u.toUpper name) = some d from hj)
      unfold embTable at this
      obtain ⟨kn, hk, he⟩ := List.mem_map.1 this
      injection he with h1 h2
      subst h2
      exact ⟨rfl, hk⟩

theorem ctxGet (hs : LedM S T h) : ∀ {cs : Ctxs} {i : Nat} {name : Str} {d : Decl Node}, Ctxs.get u h cs i name = some d → Leads S T d
  | [], _, _, _, e => by cases e
  | o :: cs, i, name, d, e => by
    unfold Ctxs.get at e
    split at e
    · cases o with
      | program p us m => exact hs.get e
      | unit p q m => exact hs.get e
      | stackable p q m =>
        simp only at e
        cases hg : h.get u m name with
        | some r => rw [hg] at e; cases e; exact hs.get hg
        | none => rw [hg] at e; exact ctxGet hs e
    · exact ctxGet hs e

end LedM

/-- all declarations that can be found lead to the tree -/
structure Led (S : Dcl (Decl Node) → Prop) (T : List (PType (Decl Node))) (k : DS) : Prop where
  maps : LedM S T k.w.maps
  types : k.types <+: T
  refs : ∀ d : Decl Node, some d ∈ k.refs → Leads S T d

namespace Led
variable {k : DS}

theorem same (h : Led S T k) {k' : DS} (e : k'.w.maps = k.w.maps) (e1 : k'.types = k.types) (e2 : k'.refs = k.refs) : Led S T k' :=
  ⟨e ▸ h.maps, e1 ▸ h.types, e2 ▸ h.refs⟩

theorem mono {S' : Dcl (Decl Node) → Prop} {T' : List (PType (Decl Node))} (hS : ∀ x, S x → S' x) (hT : T <+: T') (h : Led S T k) : Led S' T' k :=
  ⟨fun j p hp => (h.maps j p hp).mono hS hT, h.types.trans hT, fun d hd => (h.refs d hd).mono hS hT⟩

theorem get (h : Led S T k) {name : Str} {d : Decl Node} (e : k.get u name = some d) : Leads S T d := h.maps.ctxGet e

theorem member (h : Led S T k) {ns : Decl Node} {name : Str} {d : Decl Node} (e : k.member u ns name = .found d) : Leads S T d := by
  have key : ∀ dm, DS.inMap u k dm name = .found d → Leads S T d := by
    intro dm e
    unfold DS.inMap at e
    split at e
    · cases e
    · split at e
      · rename_i h1; cases e; exact LedM.get h.maps h1
      · cases e
  unfold DS.member at e
  split at e
  · split at e
    · cases e
    · exact key _ e
  · exact key _ e
  · exact key _ e
  · cases e

theorem rollback (h : Led S T k) : Led S T k.rollback := by
  unfold DS.rollback World.clone
  split
  · rename_i w c e
    split at e
    · cases e
    · cases e
      exact h.same rfl rfl rfl
  · exact h

theorem newMap (h : Led S T k) {o : MapObj Node} (ho : ∀ p ∈ objTbl o, Leads S T p.2) : Led S T { k with w := (k.w.newMap o).1 } :=
  ⟨h.maps.cons ho, h.types, h.refs⟩

theorem nil : ∀ p ∈ ([] : Tbl Node), Leads S T p.2 := fun _ h => by cases h

theorem stack (h : Led S T k) : Led S T k.stack := by
  unfold DS.stack World.stack
  split
  · rename_i w c e
    split at e
    · cases e
    · cases e
      exact ⟨LedM.cons h.maps nil, h.types, h.refs⟩
  · exact h

theorem restore (h : Led S T k) (k0 : DS) : Led S T (k0.restore k) := by
  unfold DS.restore
  split
  · exact h.same rfl rfl rfl
  · exact h

theorem setW (h : Led S T k) {k1 k' : DS} {c : Nat} {ds : List (Decl Node)} (hd : ∀ d ∈ ds, Leads S T d) (h1 : k1.types <+: T) (h2 : k1.refs = k.refs)
    (e : k1.setR (k.w.set u c ds) = .ok k') : Led S T k' := by
  rw [setR_ok e]
  refine ⟨?_, h1, by rw [show ({ k1 with w := (k.w.set u c ds).1 } : DS).refs = k1.refs from rfl, h2]; exact h.refs⟩
  show LedM S T (k.w.set u c ds).1.maps
  unfold World.set
  split
  · exact h.maps
  · exact LedM.set h.maps _ hd

/-- what may be declared -/
def okS (S : Dcl (Decl Node) → Prop) (T : List (PType (Decl Node))) (k : DS) (is : List Ident) (kind : DKind (Decl Node)) : Prop :=
  (∀ x ∈ dcls is kind, S x) ∧ (k.addType kind).types <+: T

/-- what may complete a forward declaration -/
def okC (S : Dcl (Decl Node) → Prop) (T : List (PType (Decl Node))) (k : DS) (i : Ident) (ty : PType (Decl Node)) : Prop :=
  S (.type i.name ty) ∧ k.types ++ [ty] <+: T

theorem addType_refs (k : DS) (kind : DKind (Decl Node)) : (k.addType kind).refs = k.refs := by cases kind <;> rfl

theorem last {l T : List (PType (Decl Node))} {ty : PType (Decl Node)} (h : l ++ [ty] <+: T) : T[l.length]? = some ty := by
  obtain ⟨r, rfl⟩ := h
  simp

theorem set (h : Led S T k) {is : List Ident} {kind : DKind (Decl Node)} {k' : DS} (ok : okS S T k is kind) (e : k.set u is kind = .ok k') :
    Led S T k' := by
  refine h.setW (fun d hd => ?_) ok.2 (addType_refs k kind) e
  obtain ⟨i, hi, rfl⟩ := List.mem_map.1 hd
  have ok1 := ok.1
  cases kind with
  | type t => exact ⟨t, last ok.2, ok1 _ (List.mem_map.2 ⟨i, hi, rfl⟩)⟩
  | _ => exact .inr (.inr ⟨rfl, ok1 _ (List.mem_map.2 ⟨i, hi, rfl⟩)⟩)

theorem complete (h : Led S T k) {old : Decl Node} {i : Ident} {ty : PType (Decl Node)} {k' : DS} (ok : okC S T k i ty)
    (e : k.complete u old i ty = .ok k') : Led S T k' := by
  unfold DS.complete at e
  split at e
  · split at e
    · rw [setR_ok e]
      refine ⟨?_, ok.2, h.refs⟩
      show LedM S T (k.w.overwrite u _ _ _).1.maps
      unfold World.overwrite
      split
      · exact h.maps
      · exact LedM.overwrite h.maps _ _ ⟨_, last ok.2, ok.1⟩
    · cases e
  · cases e

theorem newRef (h : Led S T k) (name : Str) : Led S T (k.newRef name).1 :=
  ⟨h.maps, h.types, fun d hd => by
    rcases List.mem_append.1 hd with hd | hd
    · exact h.refs d hd
    · cases List.mem_singleton.1 hd⟩

theorem runRef (h : Led S T k) (r : Nat × Str) : Led S T (k.runRef u r) := by
  unfold DS.runRef
  split
  · rename_i d e
    refine ⟨h.maps, h.types, fun d' hd => ?_⟩
    rcases List.mem_or_eq_of_mem_set hd with hd | hd
    · exact h.refs d' hd
    · cases hd; exact h.get e
  · exact h

theorem runSection (h : Led S T k) : Led S T (k.runSection u) := by
  unfold DS.runSection
  have : ∀ (l : List (Nat × Str)) (k : DS), Led S T k → Led S T (l.foldl (DS.runRef u) k) := by
    intro l
    induction l with
    | nil => exact fun k h => h
    | cons r l ih => exact fun k h => ih _ (h.runRef r)
  exact this _ _ h

end Led

/-! ## The restricted parser against itself -/

/-- what may be declared -/
noncomputable abbrev ledEnv (u : Uni) (S : Dcl (Decl Node) → Prop) (T : List (PType (Decl Node))) : DEnv DS (Decl Node) :=
  (declEnv u).restrict (Led.okS S T) (Led.okC S T)

/-- the replacement that marks whether the declaration is one of the tree -/
def markLed (S : Dcl (Decl Node) → Prop) (T : List (PType (Decl Node))) : Spec.Tr (Decl Node) (Decl Node × Prop) :=
  ⟨fun _ d => (d, Leads S T d), id, id, id⟩

theorem markLed_unmark : (markLed S T).then unmark = Spec.Tr.one := rfl

def BothLed (S : Dcl (Decl Node) → Prop) (T : List (PType (Decl Node))) (k l : DS) : Prop := k = l ∧ Led S T k

theorem markedLed {f : Spec.Tr (Decl Node) (Decl Node × Prop) → Refs (Decl Node × Prop)} {l : Refs (Decl Node)}
    (h : ∀ m, f m = l.map m.pair) (e : f markAll = f (markLed S T)) : ∀ p ∈ l, Leads S T p.2 := by
  rw [h, h] at e
  intro p hp
  have := List.map_inj_left.1 e p hp
  have : True = Leads S T p.2 := congrArg (fun x => x.2.2) this
  exact this ▸ trivial

namespace LedSim
local notation "m₁" => markAll
local notation "m₂" => markLed S T

theorem sameD_eq {d e : Decl Node} (h : SameD m₁ m₂ d e) : d = e := by
  obtain ⟨i, j, h⟩ := h
  exact congrArg Prod.fst h

theorem ptype_unmark {x y : PType (Decl Node)} (h : x.tr m₁ = y.tr m₂) : x = y := by
  have := congrArg (PType.tr unmark) h
  rwa [PType.tr_tr, PType.tr_tr, markAll_unmark, markLed_unmark, PType.tr_one, PType.tr_one] at this

theorem sects_unmark {x y : Sects (Decl Node)} (h : x.tr m₁ = y.tr m₂) : x = y := by
  have := congrArg (Sects.tr unmark) h
  rwa [Sects.tr_tr, Sects.tr_tr, markAll_unmark, markLed_unmark, Sects.tr_one, Sects.tr_one] at this

theorem prop_unmark {x y : ClassProp (Decl Node)} (h : x.tr m₁ = y.tr m₂) : x = y := by
  have := congrArg (ClassProp.tr unmark) h
  rwa [ClassProp.tr_tr, ClassProp.tr_tr, markAll_unmark, markLed_unmark, ClassProp.tr_one, ClassProp.tr_one] at this

theorem kind_unmark {x y : DKind (Decl Node)} (h : x.tr m₁ = y.tr m₂) : x = y := by
  have := congrArg (DKind.tr unmark) h
  rwa [DKind.tr_tr, DKind.tr_tr, markAll_unmark, markLed_unmark, DKind.tr_one, DKind.tr_one] at this

theorem heritage_unmark {x y : List (TypeId (Decl Node))} (h : x.map (TypeId.tr m₁) = y.map (TypeId.tr m₂)) : x = y := by
  have := congrArg (List.map (TypeId.tr unmark)) h
  rwa [map_then TypeId.tr_tr, map_then TypeId.tr_tr, markAll_unmark, markLed_unmark, map_fun_id TypeId.tr_one, map_fun_id TypeId.tr_one] at this

theorem declR_self {a : Str} {d : Decl Node} (h : Leads S T d) : DeclR u Eq m₁ m₂ a a d d := by
  have : True = Leads S T d := propext ⟨fun _ => h, fun _ => trivial⟩
  refine ⟨⟨⟨d.name, ⟨0, 0, 0⟩, ⟨0, 0, 0⟩⟩, ⟨d.name, ⟨0, 0, 0⟩, ⟨0, 0, 0⟩⟩, ?_⟩, fun t t' _ h1 h2 => ?_⟩
  · exact congrArg (Prod.mk d) this
  · exact congrArg (Prod.mk d) this

theorem opt_self {a : Str} {r : Option (Decl Node)} (h : ∀ d, r = some d → Leads S T d) :
    Option.Rel (DeclR u Eq m₁ m₂ a a) r r := by
  cases r with
  | none => exact .none
  | some d => exact .some (declR_self (h d rfl))

theorem find_self {a : Str} {r : FindR (Decl Node)} (h : ∀ d, r = .found d → Leads S T d) :
    FindRR u Eq m₁ m₂ a a r r := by
  cases r with
  | found d => exact declR_self (h d rfl)
  | none => trivial
  | hang => trivial

theorem setRR_self {r : SetR DS} (h : ∀ k, r = .ok k → Led S T k) : SetRR (BothLed S T) r r := by
  cases r with
  | ok k => exact ⟨rfl, h k rfl⟩
  | err => trivial
  | panic => trivial

theorem sim (u : Uni) (S : Dcl (Decl Node) → Prop) (T : List (PType (Decl Node))) :
    DSim u Eq markAll (markLed S T) (BothLed S T) (ledEnv u S T) (ledEnv u S T) where
  get := by
    rintro k _ a _ ⟨rfl, h⟩ rfl
    exact opt_self fun d e => h.get e
  isType h := by rw [sameD_eq h]
  isNamespace h := by rw [sameD_eq h]
  isUses h := by rw [sameD_eq h]
  member := by
    rintro k _ d e a _ ⟨rfl, h⟩ hd rfl
    cases sameD_eq hd
    cases e : (ledEnv u S T).member k d a with
    | found x => exact declR_self (h.member e)
    | error => trivial
    | panic => trivial
  rollback := by
    rintro k _ ⟨rfl, h⟩
    exact ⟨rfl, h.rollback⟩
  refl _ := rfl
  name := by rintro i j h; exact congrArg Ident.name h
  str := rfl
  isLabel h := by rw [sameD_eq h]
  emb := by
    rintro k a _ rfl
    exact opt_self fun d e => leads_emb e
  set := by
    rintro k _ is js a b ⟨rfl, h⟩ h1 h2
    cases kind_unmark h2
    cases (by simpa [markAll, markLed] using h1 : is = js)
    refine setRR_self fun k' e => ?_
    unfold ledEnv DEnv.restrict at e
    simp only at e
    split at e
    · rename_i c; exact h.set c e
    · cases e
  complete := by
    rintro k _ d e i j x y ⟨rfl, h⟩ h1 h2 h3
    cases sameD_eq h1
    cases ptype_unmark h3
    cases (show i = j from h2)
    refine setRR_self fun k' e => ?_
    unfold ledEnv DEnv.restrict at e
    simp only at e
    split at e
    · rename_i c; exact h.complete c e
    · cases e
  stack := by
    rintro k _ ⟨rfl, h⟩
    exact ⟨rfl, h.stack⟩
  restore := by
    rintro k0 _ k _ ⟨rfl, _⟩ ⟨rfl, h⟩
    exact ⟨rfl, h.restore k0⟩
  newRef := by
    rintro k _ a _ ⟨rfl, h⟩ rfl
    exact ⟨⟨rfl, h.newRef a⟩, rfl⟩
  openSection := by
    rintro k _ ⟨rfl, h⟩
    exact ⟨rfl, h.same rfl rfl rfl⟩
  runSection := by
    rintro k _ ⟨rfl, h⟩
    exact ⟨rfl, h.runSection⟩
  closeSection := by
    rintro k0 _ k _ ⟨rfl, _⟩ ⟨rfl, h⟩
    exact ⟨rfl, h.same rfl rfl rfl⟩
  ordinal := by
    rintro k _ x y ⟨rfl, h⟩ h1
    rw [ptype_unmark h1]
  findMember := by
    rintro k _ h h' x y a _ ⟨rfl, _⟩ h1 h2 rfl
    cases heritage_unmark h1
    cases sects_unmark h2
    exact find_self fun d e => leads_findMember e
  findProp := by
    rintro k _ h h' x y a _ ⟨rfl, _⟩ h1 h2 rfl
    cases heritage_unmark h1
    cases sects_unmark h2
    exact find_self fun d e => leads_findProp e
  inherits := by
    rintro k _ p q d e ⟨rfl, _⟩ h1 h2
    cases sameD_eq h2
    cases prop_unmark h1
    rfl

theorem tokR_self (t : Token) : TokR u Eq m₁ m₂ t t := ⟨rfl, fun _ _ => .rfl, rfl, rfl, fun _ => rfl, fun _ => rfl, rfl, rfl, rfl, rfl⟩

theorem strR_self (tl : Tail) : ∀ ts : List Token, StrR u Eq m₁ m₂ False ts tl ts tl
  | [] => .nil (by cases tl <;> first | trivial | exact tokR_self _)
  | _ :: ts => .cons (tokR_self _) (strR_self tl ts)

/-- what a run returns, if it returns -/
theorem out {α : Type} {A : α → α → Prop} {p : P DS α} (h : PR u Eq markAll (markLed S T) False (BothLed S T) A p p) {s s' : PS DS} {a : α}
    (hs : Led S T s.cx) (e : p s = .ok a s') : A a a ∧ Led S T s'.cx := by
  have := h s s ⟨strR_self _ _, rfl, hs⟩
  rw [e] at this
  exact ⟨this.1, this.2.cx.2⟩

end LedSim

/-! ## The base -/

theorem runSection_types (k : DS) : (k.runSection u).types = k.types := by
  unfold DS.runSection
  have : ∀ (l : List (Nat × Str)) (k : DS), (l.foldl (DS.runRef u) k).types = k.types := by
    intro l
    induction l with
    | nil => exact fun k => rfl
    | cons r l ih =>
      intro k
      rw [List.foldl_cons, ih]
      unfold DS.runRef
      split <;> rfl
  exact this _ _

theorem ledBase (u : Uni) (S : Dcl (Decl Node) → Prop) (T : List (PType (Decl Node))) :
    ReBase u (declEnv u) S (fun k => k.types <+: T) (Led.okS S T) (Led.okC S T) where
  set := by
    intro c is k c' e hF
    have e' := setR_ok (show (c.addType k).setR _ = .ok c' from e)
    have h : (c.addType k).types <+: T := by rw [e'] at hF; exact hF
    refine ⟨?_, fun hS => ⟨hS, h⟩⟩
    cases k with
    | type t => exact (List.prefix_append _ _).trans h
    | _ => exact h
  complete := by
    intro c old i ty c' e hF
    change c.complete u old i ty = .ok c' at e
    unfold DS.complete at e
    split at e
    · split at e
      · have e' := setR_ok e
        rw [e'] at hF
        exact ⟨(List.prefix_append _ _).trans hF, fun hS => ⟨hS, hF⟩⟩
      · cases e
    · cases e
  roll := by intro c h; rw [show ((declEnv u).rollback c).types = c.types from rollback_types c] at h; exact h
  newRef := id
  stack := by intro c h; rw [show ((declEnv u).stack c).types = c.types from stack_types c] at h; exact h
  restore := by intro c c' h; rw [show ((declEnv u).restore c c').types = c'.types from restore_types c c'] at h; exact h
  sect := by
    intro c c' h
    rw [show ((declEnv u).closeSection c ((declEnv u).runSection c')).types = c'.types from runSection_types c'] at h
    exact h
  openS := id

end TP
