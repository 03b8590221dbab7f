import Verif.Spec.Refs
import Verif.Lemmas.NamedGoal
import Verif.Lemmas.RefsTr
import Verif.Lemmas.RelDecl

/-!
# Declarations are stored under their names

Every table stores a declaration under its name in lower case, so what is found for a name has this name up to the case of
letters.
-/

namespace TP
open Spec Maps

variable {u : Uni}

theorem Spec.Recased.trans {a b c : Str} (h : Recased u a b) (h' : Recased u b c) : Recased u a c := by
  induction h' with
  | same => exact h
  | low _ ih => exact ih.low
  | up _ ih => exact ih.up

/-! ## Tables -/

/-- the declarations are stored under their names -/
def TidyT (u : Uni) (t : Tbl Node) : Prop := ∀ p ∈ t, p.1 = u.toLower p.2.name

def TidyM (u : Uni) (h : Maps Node) : Prop := ∀ j, TidyT u (tbl h j)

/-- all declarations are stored under their names -/
def Tidy (u : Uni) (k : DS) : Prop := TidyM u k.w.maps

theorem tidy_nil : TidyT u [] := fun _ h => by cases h

theorem TidyT.set {t : Tbl Node} (h : TidyT u t) (ds : List (Decl Node)) : TidyT u (t.set u ds).1 := by
  intro p hp
  rcases tblSet_mem u _ _ p hp with hp | ⟨-, e⟩
  · exact h p hp
  · exact e

namespace TidyM
variable {h : Maps Node}

theorem cons (hs : TidyM u h) {o : MapObj Node} (ho : TidyT u (objTbl o)) : TidyM u (o :: h) := by
  intro j p hm
  rw [tbl_cons] at hm
  split at hm
  · exact ho p hm
  · exact hs j p hm

theorem upd (hs : TidyM u h) {t : Nat} {m : Tbl Node} (hm : TidyT u m) : TidyM u (upd h t m) := by
  intro j p hp
  rw [tbl_upd] at hp
  split at hp
  · split at hp
    · exact hm p hp
    · exact hm p hp
    · cases hp
  · exact hs j p hp

theorem set (hs : TidyM u h) (i : Nat) (ds : List (Decl Node)) : TidyM u (h.set u i ds).1 := by
  have := set_eq u h i ds
  cases e : target h i with
  | none => rw [e] at this; rw [this.1]; exact hs
  | some t => rw [e] at this; rw [this]; exact hs.upd ((hs t).set ds)

theorem overwrite (hs : TidyM u h) (i : Nat) {d : Decl Node} {name : Str} (hd : d.name = name) : TidyM u (h.overwrite u i name d).1 := by
  have := overwrite_eq u h i name d
  cases e : target h i with
  | none => rw [e] at this; rw [this]; exact hs
  | some t =>
    rw [e] at this
    rw [this]
    refine hs.upd fun p hp => ?_
    rcases List.mem_cons.1 hp with rfl | hp
    · exact congrArg u.toLower hd.symm
    · exact hs t p hp

/-- the name of an embedded type in lower case -/
theorem emb_low {kn : EmbKind × Str} (h : kn ∈ embeddedTypes) : u.toLower kn.2 = u.toLower (u.toUpper kn.2) := by
  have key : ∀ kn ∈ embeddedTypes, ∀ c ∈ kn.2, c.toNat < 128 ∧ (asciiUp c).toNat < 128 ∧ asciiLow c = asciiLow (asciiUp c) := by decide
  unfold Uni.toLower Uni.toUpper
  rw [List.map_map]
  refine List.map_congr_left fun c hc => ?_
  obtain ⟨h1, h2, h3⟩ := key kn h c hc
  show u.low c = u.low (u.up c)
  rw [u.up_ascii c h1, u.low_ascii c h1, u.low_ascii _ h2, h3]

theorem emb_name {kn : EmbKind × Str} (h : kn ∈ embeddedTypes) {name : Str} (e : u.toUpper kn.2 = u.toUpper name) :
    Recased u name (u.toLower kn.2) := by
  rw [emb_low h, e]
  exact Recased.same.up.low

theorem get (hs : TidyM u h) {i : Nat} {name : Str} {d : Decl Node} (e : h.get u i name = some d) : Recased u name (u.toLower d.name) := by
  rw [get_layers] at e
  obtain ⟨j, -, hj⟩ := List.exists_of_findSome?_eq_some e
  unfold own at hj
  cases ho : h.obj j with
  | none => rw [ho] at hj; cases hj
  | some o =>
    rw [ho] at hj
    have ht := tbl_obj ho
    have key : ∀ {m : Tbl Node}, TidyT u m → m.find (u.toLower name) = some d → Recased u name (u.toLower d.name) := by
      intro m hm he
      have := hm _ (find_mem he)
      rw [← show u.toLower name = u.toLower d.name from this]
      exact Recased.same.low
    cases o with
    | impl m => exact key (by have := hs j; rw [ht] at this; exact this) hj
    | chained p m => exact key (by have := hs j; rw [ht] at this; exact this) hj
    | composite ms => cases hj
    | embedded =>
      have := find_mem (show (embTable u Node).find (u.toUpper name) = some d from hj)
      unfold embTable at this
      obtain ⟨kn, hk, he⟩ := List.mem_map.1 this
      injection he with h1 h2
      subst h2
      exact emb_name hk h1

theorem ctxGet (hs : TidyM u h) : ∀ {cs : Ctxs} {i : Nat} {name : Str} {d : Decl Node}, Ctxs.get u h cs i name = some d →
    Recased u name (u.toLower d.name)
  | [], _, _, _, e => by cases e
  | o :: cs, i, name, d, e => by
    unfold Ctxs.get at e
    split at e
    · cases o with
      | program p us m => exact hs.get e
      | unit p q m => exact hs.get e
      | stackable p q m =>
        simp only at e
        cases hg : h.get u m name with
        | some r => rw [hg] at e; cases e; exact hs.get hg
        | none => rw [hg] at e; exact ctxGet hs e
    · exact ctxGet hs e

end TidyM

/-! ## Members of classes -/

section
variable {name : Str} {d : Decl Node}

theorem declsFind_name : ∀ {ds : List (Decl Node)}, ClassType.declsFind u ds (u.toLower name) = some d → Recased u name (u.toLower d.name)
  | [], e => by cases e
  | x :: ds, e => by
    unfold ClassType.declsFind at e
    split at e
    · rename_i c; cases e; rw [c]; exact Recased.same.low.low
    · exact declsFind_name e

theorem findField_name : ∀ {fs : List (ClassField Node)}, ClassType.findField u (u.toLower name) fs = some (some d) → Recased u name (u.toLower d.name)
  | [], e => by cases e
  | f :: fs, e => by
    unfold ClassType.findField at e
    split at e
    · injection e with e; exact declsFind_name e
    · exact findField_name e

theorem findNamed_name : ∀ {fs : List (Decl Node)}, ClassType.findNamed u (u.toLower name) fs = some (some d) → Recased u name (u.toLower d.name)
  | [], e => by cases e
  | f :: fs, e => by
    unfold ClassType.findNamed at e
    split at e
    · injection e with e; exact declsFind_name e
    · exact findNamed_name e

theorem findOwn_name {b : Bool} : ∀ {fs : List (Section Node)}, ClassType.findOwn u (u.toLower name) b fs = some (some d) → Recased u name (u.toLower d.name)
  | [], e => by cases e
  | f :: fs, e => by
    unfold ClassType.findOwn at e
    split at e
    · exact findOwn_name e
    · cases h1 : ClassType.findField u (u.toLower name) f.fields with
      | some r => rw [h1] at e; cases e; exact findField_name h1
      | none =>
        rw [h1] at e
        cases h2 : ClassType.findNamed u (u.toLower name) f.methods with
        | some r => simp only [h2] at e; cases e; exact findNamed_name h2
        | none =>
          simp only [h2] at e
          cases h3 : ClassType.findNamed u (u.toLower name) f.props with
          | some r => rw [h3] at e; cases e; exact findNamed_name h3
          | none => rw [h3] at e; exact findOwn_name e

theorem findMemberDecl_name {types : Nat → TypeNode Node} : ∀ {n c : Nat} {b : Bool},
    ClassType.findMemberDecl u types name n c b = some (some d) → Recased u name (u.toLower d.name)
  | 0, _, _, e => by cases e
  | n + 1, c, b, e => by
    unfold ClassType.findMemberDecl at e
    cases hc : types c with
    | cls h ms =>
      rw [hc] at e
      simp only at e
      cases h1 : ClassType.findOwn u (u.toLower name) b ms with
      | some r => rw [h1] at e; cases e; exact findOwn_name h1
      | none =>
        rw [h1] at e
        cases h2 : ClassType.getParentClass types h with
        | some p => simp only [h2] at e; exact findMemberDecl_name e
        | none => simp only [h2] at e; cases e
    | _ => rw [hc] at e; cases e

theorem findOwnProperty_name : ∀ {fs : List (Section Node)}, ClassType.findOwnProperty u (u.toLower name) fs = some d → Recased u name (u.toLower d.name)
  | [], e => by cases e
  | f :: fs, e => by
    unfold ClassType.findOwnProperty at e
    split at e
    · rename_i x hx
      cases e
      have := List.find?_some hx
      rw [of_decide_eq_true this]
      exact Recased.same.low
    · exact findOwnProperty_name e

theorem findProperty_name {types : Nat → TypeNode Node} : ∀ {n c : Nat} {b : Bool},
    ClassType.findProperty u types name n c b = some (some d) → Recased u name (u.toLower d.name)
  | 0, _, _, e => by cases e
  | n + 1, c, b, e => by
    unfold ClassType.findProperty at e
    cases hc : types c with
    | cls h ms =>
      rw [hc] at e
      simp only at e
      cases h1 : ClassType.findOwnProperty u (u.toLower name) ms with
      | some r => rw [h1] at e; cases e; exact findOwnProperty_name h1
      | none =>
        rw [h1] at e
        simp only at e
        split at e
        · cases h2 : ClassType.getParentClass types h with
          | some p => rw [h2] at e; exact findProperty_name e
          | none => rw [h2] at e; cases e
        · cases e
    | _ => rw [hc] at e; cases e

theorem findMember_name {k : DS} {h : List (TypeId (Decl Node))} {ms : Sects (Decl Node)} (e : k.findMember u h ms name = .found d) :
    Recased u name (u.toLower d.name) := by
  have key : ∀ {r : Option (Option (Decl Node))}, DS.findR r = .found d → r = some (some d) := by
    intro r hr
    match r with
    | some (some x) => cases hr; rfl
    | some none => cases hr
    | none => cases hr
  unfold DS.findMember at e
  cases h1 : ClassType.findOwn u (u.toLower name) true (DS.sections ms) with
  | some r => rw [h1] at e; cases key e; exact findOwn_name h1
  | none =>
    rw [h1] at e
    simp only at e
    cases h2 : ClassType.getParentClass k.typeNodes (h.map k.typeNo) with
    | some c => rw [h2] at e; exact findMemberDecl_name (key e)
    | none => rw [h2] at e; cases e

theorem findProp_name {k : DS} {h : List (TypeId (Decl Node))} {ms : Sects (Decl Node)} (e : k.findProp u h ms name = .found d) :
    Recased u name (u.toLower d.name) := by
  have key : ∀ {r : Option (Option (Decl Node))}, DS.findR r = .found d → r = some (some d) := by
    intro r hr
    match r with
    | some (some x) => cases hr; rfl
    | some none => cases hr
    | none => cases hr
  unfold DS.findProp at e
  cases h1 : ClassType.findOwnProperty u (u.toLower name) (DS.sections ms) with
  | some r => rw [h1] at e; cases e; exact findOwnProperty_name h1
  | none =>
    rw [h1] at e
    simp only at e
    cases h2 : ClassType.getParentClass k.typeNodes (h.map k.typeNo) with
    | some c => rw [h2] at e; exact findProperty_name (key e)
    | none => rw [h2] at e; cases e

theorem emb_found {kind : EmbKind} (e : DS.emb u kind name = some d) : Recased u name (u.toLower d.name) := by
  unfold DS.emb at e
  split at e
  · rename_i kn hk
    cases e
    have := List.find?_some hk
    simp only [Bool.and_eq_true, beq_iff_eq] at this
    exact TidyM.emb_name (List.mem_of_find?_eq_some hk) this.2
  · cases e
end

/-! ## The operations -/

namespace Tidy
variable {k : DS}

theorem same (h : Tidy u k) {k' : DS} (e : k'.w.maps = k.w.maps) : Tidy u k' := by
  unfold Tidy; rw [e]; exact h

theorem get (h : Tidy u k) {name : Str} {d : Decl Node} (e : k.get u name = some d) : Recased u name (u.toLower d.name) := h.ctxGet e

theorem member (h : Tidy u k) {ns : Decl Node} {name : Str} {d : Decl Node} (e : k.member u ns name = .found d) :
    Recased u name (u.toLower d.name) := by
  have key : ∀ dm, DS.inMap u k dm name = .found d → Recased u name (u.toLower d.name) := by
    intro dm e
    unfold DS.inMap at e
    split at e
    · cases e
    · split at e
      · rename_i h1; cases e; exact TidyM.get h h1
      · cases e
  unfold DS.member at e
  split at e
  · split at e
    · cases e
    · exact key _ e
  · exact key _ e
  · exact key _ e
  · cases e

theorem rollback (h : Tidy u k) : Tidy u k.rollback := by
  unfold DS.rollback World.clone
  split
  · rename_i w c e
    split at e
    · cases e
    · cases e
      exact h
  · exact h

theorem stack (h : Tidy u k) : Tidy u k.stack := by
  unfold DS.stack World.stack
  split
  · rename_i w c e
    split at e
    · cases e
    · cases e
      exact TidyM.cons h tidy_nil
  · exact h

theorem restore (h : Tidy u k) (k0 : DS) : Tidy u (k0.restore k) := by
  unfold DS.restore
  split
  · exact h
  · exact h

theorem setW (h : Tidy u k) {k1 k' : DS} {c : Nat} {ds : List (Decl Node)} (e : k1.setR (k.w.set u c ds) = .ok k') : Tidy u k' := by
  rw [setR_ok e]
  show TidyM u (k.w.set u c ds).1.maps
  unfold World.set
  split
  · exact h
  · exact TidyM.set h _ _

theorem set (h : Tidy u k) {is : List Ident} {kind : DKind (Decl Node)} {k' : DS} (e : k.set u is kind = .ok k') : Tidy u k' := h.setW e

theorem complete (h : Tidy u k) {old : Decl Node} {i : Ident} {ty : PType (Decl Node)} {k' : DS} (e : k.complete u old i ty = .ok k') :
    Tidy u k' := by
  unfold DS.complete at e
  split at e
  · split at e
    · rw [setR_ok e]
      show TidyM u (k.w.overwrite u _ _ _).1.maps
      unfold World.overwrite
      split
      · exact h
      · exact TidyM.overwrite h _ rfl
    · cases e
  · cases e

theorem runRef (h : Tidy u k) (r : Nat × Str) : Tidy u (k.runRef u r) := by
  unfold DS.runRef
  split
  · exact h
  · exact h

theorem runSection (h : Tidy u k) : Tidy u (k.runSection u) := by
  unfold DS.runSection
  have : ∀ (l : List (Nat × Str)) (k : DS), Tidy u k → Tidy u (l.foldl (DS.runRef u) k) := by
    intro l
    induction l with
    | nil => exact fun k h => h
    | cons r l ih => exact fun k h => ih _ (h.runRef r)
  exact this _ _ h

end Tidy

/-! ## The parser against itself -/

/-- the replacement that marks every declaration -/
def markAll : Spec.Tr (Decl Node) (Decl Node × Prop) := ⟨fun _ d => (d, True), id, id, id⟩

/-- the replacement that marks whether the reference is one to this declaration -/
def mark (u : Uni) : Spec.Tr (Decl Node) (Decl Node × Prop) := ⟨fun i d => (d, Refers u i d), id, id, id⟩

/-- the replacement that takes the marks away -/
def unmark : Spec.Tr (Decl Node × Prop) (Decl Node) := ⟨fun _ p => p.1, id, id, id⟩

theorem markAll_unmark : markAll.then unmark = Spec.Tr.one := rfl
theorem mark_unmark : (mark u).then unmark = Spec.Tr.one := rfl

/-- the same tidy context -/
def Both (u : Uni) (k l : DS) : Prop := k = l ∧ Tidy u k

theorem marked {f : Spec.Tr (Decl Node) (Decl Node × Prop) → Refs (Decl Node × Prop)} {l : Refs (Decl Node)}
    (h : ∀ m, f m = l.map m.pair) (e : f markAll = f (mark u)) : ∀ p ∈ l, Refers u p.1 p.2 := by
  rw [h, h] at e
  intro p hp
  have := List.map_inj_left.1 e p hp
  have : True = Refers u p.1 p.2 := congrArg (fun x => x.2.2) this
  exact this ▸ trivial


section
local notation "m₁" => markAll
local notation "m₂" => mark u

theorem sameD_eq {d e : Decl Node} (h : SameD m₁ m₂ d e) : d = e := by
  obtain ⟨i, j, h⟩ := h
  exact congrArg Prod.fst h

theorem ptype_unmark {x y : PType (Decl Node)} (h : x.tr m₁ = y.tr m₂) : x = y := by
  have := congrArg (PType.tr unmark) h
  rwa [PType.tr_tr, PType.tr_tr, markAll_unmark, mark_unmark, PType.tr_one, PType.tr_one] at this

theorem sects_unmark {x y : Sects (Decl Node)} (h : x.tr m₁ = y.tr m₂) : x = y := by
  have := congrArg (Sects.tr unmark) h
  rwa [Sects.tr_tr, Sects.tr_tr, markAll_unmark, mark_unmark, Sects.tr_one, Sects.tr_one] at this

theorem prop_unmark {x y : ClassProp (Decl Node)} (h : x.tr m₁ = y.tr m₂) : x = y := by
  have := congrArg (ClassProp.tr unmark) h
  rwa [ClassProp.tr_tr, ClassProp.tr_tr, markAll_unmark, mark_unmark, ClassProp.tr_one, ClassProp.tr_one] at this

theorem kind_unmark {x y : DKind (Decl Node)} (h : x.tr m₁ = y.tr m₂) : x = y := by
  have := congrArg (DKind.tr unmark) h
  rwa [DKind.tr_tr, DKind.tr_tr, markAll_unmark, mark_unmark, DKind.tr_one, DKind.tr_one] at this

theorem heritage_unmark {x y : List (TypeId (Decl Node))} (h : x.map (TypeId.tr m₁) = y.map (TypeId.tr m₂)) : x = y := by
  have := congrArg (List.map (TypeId.tr unmark)) h
  rwa [map_then TypeId.tr_tr, map_then TypeId.tr_tr, markAll_unmark, mark_unmark, map_fun_id TypeId.tr_one, map_fun_id TypeId.tr_one] at this

/-- what has been found for a name that an identifier asks for -/
theorem declR_self {a : Str} {d : Decl Node} (h : Recased u a (u.toLower d.name)) : DeclR u Eq m₁ m₂ a a d d := by
  have key : ∀ t : Token, SoughtAs u t a → Refers u (Ident.ofTok t) d := by
    intro t ht
    refine Recased.trans (?_ : Recased u t.raw a) h
    have val : Recased u t.raw (t.value u) := by
      unfold Token.value
      split
      · exact Recased.same.up
      · exact .same
    rcases ht with rfl | rfl | rfl
    · exact .same
    · exact val
    · exact val.low
  refine ⟨⟨⟨d.name, ⟨0, 0, 0⟩, ⟨0, 0, 0⟩⟩, ⟨d.name, ⟨0, 0, 0⟩, ⟨0, 0, 0⟩⟩, ?_⟩, fun t t' _ h1 h2 => ?_⟩
  · exact congrArg (Prod.mk d) (propext ⟨fun _ => Recased.same.low, fun _ => trivial⟩)
  · exact congrArg (Prod.mk d) (propext ⟨fun _ => key t' h2, fun _ => trivial⟩)

theorem opt_self {a : Str} {r : Option (Decl Node)} (h : ∀ d, r = some d → Recased u a (u.toLower d.name)) :
    Option.Rel (DeclR u Eq m₁ m₂ a a) r r := by
  cases r with
  | none => exact .none
  | some d => exact .some (declR_self (h d rfl))

theorem find_self {a : Str} {r : FindR (Decl Node)} (h : ∀ d, r = .found d → Recased u a (u.toLower d.name)) :
    FindRR u Eq m₁ m₂ a a r r := by
  cases r with
  | found d => exact declR_self (h d rfl)
  | none => trivial
  | hang => trivial

theorem setRR_self {r : SetR DS} (h : ∀ k, r = .ok k → Tidy u k) : SetRR (Both u) r r := by
  cases r with
  | ok k => exact ⟨rfl, h k rfl⟩
  | err => trivial
  | panic => trivial

/-- the parser against itself, with marked declarations -/
theorem selfSim (u : Uni) : DSim u Eq markAll (mark u) (Both u) (declEnv u) (declEnv u) where
  get := by
    rintro k _ a _ ⟨rfl, h⟩ rfl
    exact opt_self fun d e => h.get e
  isType h := by rw [sameD_eq h]
  isNamespace h := by rw [sameD_eq h]
  isUses h := by rw [sameD_eq h]
  member := by
    rintro k _ d e a _ ⟨rfl, h⟩ hd rfl
    cases sameD_eq hd
    cases e : (declEnv u).member k d a with
    | found x => exact declR_self (h.member e)
    | error => trivial
    | panic => trivial
  rollback := by
    rintro k _ ⟨rfl, h⟩
    exact ⟨rfl, h.rollback⟩
  refl _ := rfl
  name := by rintro i j h; exact congrArg Ident.name h
  str := rfl
  isLabel h := by rw [sameD_eq h]
  emb := by
    rintro k a _ rfl
    exact opt_self fun d e => emb_found e
  set := by
    rintro k _ is js a b ⟨rfl, h⟩ h1 h2
    cases kind_unmark h2
    cases (by simpa [markAll, mark] using h1 : is = js)
    exact setRR_self fun k' e => h.set e
  complete := by
    rintro k _ d e i j x y ⟨rfl, h⟩ h1 h2 h3
    cases sameD_eq h1
    cases ptype_unmark h3
    cases (show i = j from h2)
    exact setRR_self fun k' e => h.complete e
  stack := by
    rintro k _ ⟨rfl, h⟩
    exact ⟨rfl, h.stack⟩
  restore := by
    rintro k0 _ k _ ⟨rfl, _⟩ ⟨rfl, h⟩
    exact ⟨rfl, h.restore k0⟩
  newRef := by
    rintro k _ a _ ⟨rfl, h⟩ rfl
    exact ⟨⟨rfl, h.same rfl⟩, rfl⟩
  openSection := by
    rintro k _ ⟨rfl, h⟩
    exact ⟨rfl, h.same rfl⟩
  runSection := by
    rintro k _ ⟨rfl, h⟩
    exact ⟨rfl, h.runSection⟩
  closeSection := by
    rintro k0 _ k _ ⟨rfl, _⟩ ⟨rfl, h⟩
    exact ⟨rfl, h.same rfl⟩
  ordinal := by
    rintro k _ x y ⟨rfl, h⟩ h1
    rw [ptype_unmark h1]
  findMember := by
    rintro k _ h h' x y a _ ⟨rfl, _⟩ h1 h2 rfl
    cases heritage_unmark h1
    cases sects_unmark h2
    exact find_self fun d e => findMember_name e
  findProp := by
    rintro k _ h h' x y a _ ⟨rfl, _⟩ h1 h2 rfl
    cases heritage_unmark h1
    cases sects_unmark h2
    exact find_self fun d e => findProp_name e
  inherits := by
    rintro k _ p q d e ⟨rfl, _⟩ h1 h2
    cases sameD_eq h2
    cases prop_unmark h1
    rfl

theorem tokR_self (t : Token) : TokR u Eq m₁ m₂ t t := ⟨rfl, fun _ _ => .rfl, rfl, rfl, fun _ => rfl, fun _ => rfl, rfl, rfl, rfl, rfl⟩

theorem strR_self (tl : Tail) : ∀ ts : List Token, StrR u Eq m₁ m₂ False ts tl ts tl
  | [] => .nil (by cases tl <;> first | trivial | exact tokR_self _)
  | _ :: ts => .cons (tokR_self _) (strR_self tl ts)

end

/-- what a run returns, if it returns -/
theorem PR.out {α : Type} {A : α → α → Prop} {p : P DS α} (h : PR u Eq markAll (mark u) False (Both u) A p p) {s s' : PS DS} {a : α}
    (hs : Tidy u s.cx) (e : p s = .ok a s') : A a a ∧ Tidy u s'.cx := by
  have := h s s ⟨strR_self _ _, rfl, hs⟩
  rw [e] at this
  exact ⟨this.1, this.2.cx.2⟩

end TP
