import Verif.Lemmas.IdentsTr
import Verif.Lemmas.Tidy

/-!
# Identifiers that stand for tokens

The parser is compared with itself.  In the one tree the identifiers that do not stand for a token have another mark than in the
other one; as the trees are the same, there are none.
-/

set_option linter.unusedSectionVars false

namespace TP
open Spec

variable {u : Uni} {S : Token → Prop}

/-- it is the identifier of one of these tokens -/
def FromTok (S : Token → Prop) (i : Ident) : Prop := ∃ t, S t ∧ i = Ident.ofTok t

open Classical in
/-- the mark of an identifier -/
noncomputable def tagId (S : Token → Prop) (c : Nat) (i : Ident) : Ident :=
  { i with start := { i.start with line := 3 * i.start.line + if FromTok S i then 0 else c } }

noncomputable def tag (S : Token → Prop) (c : Nat) : Spec.Tr (Decl Node) (Decl Node) := ⟨fun _ d => d, id, tagId S c, id⟩

/-- the replacement that takes the marks away -/
def untag : Spec.Tr (Decl Node) (Decl Node) := ⟨fun _ d => d, id, fun i => { i with start := { i.start with line := i.start.line / 3 } }, id⟩

theorem tag_untag {c : Nat} (hc : c < 3) : (tag S c).then untag = Spec.Tr.one := by
  classical
  have : ∀ i, untag.id (tagId S c i) = i := by
    intro i
    have : (3 * i.start.line + if FromTok S i then 0 else c) / 3 = i.start.line := by split <;> omega
    simp only [untag, tagId, this]
  unfold Spec.Tr.then Spec.Tr.one
  simp only [tag, this]
  rfl

theorem tag_from {i : Ident} (h : tagId S 1 i = tagId S 2 i) : FromTok S i := by
  by_contra hn
  have := congrArg (fun i => i.start.line) h
  simp only [tagId, hn, if_false] at this
  omega

theorem tag_eq {i j : Ident} (h : tagId S 1 i = tagId S 2 j) : i = j := by
  have e : ∀ c, c < 3 → ∀ i, untag.id (tagId S c i) = i := fun c hc i => congrFun (congrArg Spec.Tr.id (tag_untag (S := S) hc)) i
  rw [← e 1 (by omega) i, h, e 2 (by omega)]

/-- all of them stand for tokens -/
theorem tagged {f : Spec.Tr (Decl Node) (Decl Node) → List Ident} {l : List Ident}
    (h : ∀ m : Spec.Tr (Decl Node) (Decl Node), f m = l.map m.id) (e : f (tag S 1) = f (tag S 2)) : ∀ i ∈ l, FromTok S i := by
  rw [h, h] at e
  exact fun i hi => tag_from (List.map_inj_left.1 e i hi)

section
local notation "m₁" => tag S 1
local notation "m₂" => tag S 2

theorem tag_sameD {d e : Decl Node} (h : SameD m₁ m₂ d e) : d = e := by
  obtain ⟨i, j, h⟩ := h
  exact h

theorem ptype_untag {x y : PType (Decl Node)} (h : x.tr m₁ = y.tr m₂) : x = y := by
  have := congrArg (PType.tr untag) h
  rwa [PType.tr_tr, PType.tr_tr, tag_untag (by omega), tag_untag (by omega), PType.tr_one, PType.tr_one] at this

theorem sects_untag {x y : Sects (Decl Node)} (h : x.tr m₁ = y.tr m₂) : x = y := by
  have := congrArg (Sects.tr untag) h
  rwa [Sects.tr_tr, Sects.tr_tr, tag_untag (by omega), tag_untag (by omega), Sects.tr_one, Sects.tr_one] at this

theorem prop_untag {x y : ClassProp (Decl Node)} (h : x.tr m₁ = y.tr m₂) : x = y := by
  have := congrArg (ClassProp.tr untag) h
  rwa [ClassProp.tr_tr, ClassProp.tr_tr, tag_untag (by omega), tag_untag (by omega), ClassProp.tr_one, ClassProp.tr_one] at this

theorem kind_untag {x y : DKind (Decl Node)} (h : x.tr m₁ = y.tr m₂) : x = y := by
  have := congrArg (DKind.tr untag) h
  rwa [DKind.tr_tr, DKind.tr_tr, tag_untag (by omega), tag_untag (by omega), DKind.tr_one, DKind.tr_one] at this

theorem heritage_untag {x y : List (TypeId (Decl Node))} (h : x.map (TypeId.tr m₁) = y.map (TypeId.tr m₂)) : x = y := by
  have := congrArg (List.map (TypeId.tr untag)) h
  rwa [map_then TypeId.tr_tr, map_then TypeId.tr_tr, tag_untag (by omega), tag_untag (by omega), map_fun_id TypeId.tr_one,
    map_fun_id TypeId.tr_one] at this

theorem tag_idents {is js : List Ident} (h : is.map (m₁).id = js.map (m₂).id) : is = js := by
  have := congrArg (List.map untag.id) h
  rw [then_ids, then_ids, tag_untag (by omega), tag_untag (by omega)] at this
  simpa [Spec.Tr.one] using this

theorem tag_declR (a b : Str) (d : Decl Node) : DeclR u Eq m₁ m₂ a b d d :=
  ⟨⟨⟨[], ⟨0, 0, 0⟩, ⟨0, 0, 0⟩⟩, ⟨[], ⟨0, 0, 0⟩, ⟨0, 0, 0⟩⟩, rfl⟩, fun _ _ _ _ _ => rfl⟩

theorem tag_opt (a b : Str) (r : Option (Decl Node)) : Option.Rel (DeclR u Eq m₁ m₂ a b) r r := by
  cases r with
  | none => exact .none
  | some d => exact .some (tag_declR a b d)

theorem tag_find (a b : Str) (r : FindR (Decl Node)) : FindRR u Eq m₁ m₂ a b r r := by
  cases r with
  | found d => exact tag_declR a b d
  | none => trivial
  | hang => trivial

theorem tag_set (r : SetR DS) : SetRR Eq r r := by
  cases r with
  | ok k => rfl
  | err => trivial
  | panic => trivial

/-- the parser against itself, with marked identifiers -/
theorem tagSim (u : Uni) (S : Token → Prop) : DSim u Eq (tag S 1) (tag S 2) Eq (declEnv u) (declEnv u) where
  get := by
    rintro k _ a _ rfl rfl
    exact tag_opt _ _ _
  isType h := by rw [tag_sameD h]
  isNamespace h := by rw [tag_sameD h]
  isUses h := by rw [tag_sameD h]
  member := by
    rintro k _ d e a _ rfl hd rfl
    cases tag_sameD hd
    cases e : (declEnv u).member k d a with
    | found x => exact tag_declR _ _ _
    | error => trivial
    | panic => trivial
  rollback := by rintro k _ rfl; rfl
  refl _ := rfl
  name := by rintro i j h; exact congrArg Ident.name (tag_eq h)
  str := rfl
  isLabel h := by rw [tag_sameD h]
  emb := by
    rintro k a _ rfl
    exact tag_opt _ _ _
  set := by
    rintro k _ is js a b rfl h1 h2
    cases kind_untag h2
    cases tag_idents h1
    exact tag_set _
  complete := by
    rintro k _ d e i j x y rfl h1 h2 h3
    cases tag_sameD h1
    cases ptype_untag h3
    cases tag_eq h2
    exact tag_set _
  stack := by rintro k _ rfl; rfl
  restore := by rintro k0 _ k _ rfl rfl; rfl
  newRef := by rintro k _ a _ rfl rfl; exact ⟨rfl, rfl⟩
  openSection := by rintro k _ rfl; rfl
  runSection := by rintro k _ rfl; rfl
  closeSection := by rintro k0 _ k _ rfl rfl; rfl
  ordinal := by
    rintro k _ x y rfl h1
    rw [ptype_untag h1]
  findMember := by
    rintro k _ h h' x y a _ rfl h1 h2 rfl
    cases heritage_untag h1
    cases sects_untag h2
    exact tag_find _ _ _
  findProp := by
    rintro k _ h h' x y a _ rfl h1 h2 rfl
    cases heritage_untag h1
    cases sects_untag h2
    exact tag_find _ _ _
  inherits := by
    rintro k _ p q d e rfl h1 h2
    cases tag_sameD h2
    cases prop_untag h1
    rfl

theorem tag_tok {t : Token} (h : FromTok S (Ident.ofTok t)) : TokR u Eq m₁ m₂ t t := by
  have : tagId S 1 (Ident.ofTok t) = tagId S 2 (Ident.ofTok t) := by simp only [tagId, h, if_true]
  exact ⟨rfl, fun _ _ => .rfl, rfl, rfl, fun _ => rfl, fun _ => rfl, this, rfl, rfl, rfl⟩

end

/-- the identifiers of the tokens to come are those of these tokens -/
def Among (S : Token → Prop) (ts : List Token) (tl : Tail) : Prop :=
  (∀ t ∈ ts, FromTok S (Ident.ofTok t)) ∧ ∀ x p, tl = .eof x p → FromTok S (Ident.ofTok (eofTok x p))

theorem tag_str {tl : Tail} : ∀ {ts : List Token}, Among S ts tl → StrR u Eq (tag S 1) (tag S 2) False ts tl ts tl
  | [], h => by
    refine .nil ?_
    cases tl with
    | eof x p => exact tag_tok (h.2 x p rfl)
    | nil => trivial
    | hang => trivial
  | t :: _, h => .cons (tag_tok (h.1 t (by simp))) (tag_str ⟨fun t ht => h.1 t (by simp [ht]), h.2⟩)

theorem str_among {tl : Tail} : ∀ {ts : List Token}, StrR u Eq (tag S 1) (tag S 2) False ts tl ts tl → Among S ts tl
  | [], h => by
    cases h with
    | nil h =>
      refine ⟨fun _ h => (nomatch h), fun x p e => ?_⟩
      subst e
      exact tag_from (TokR.id h)
    | cut h => exact h.elim
  | t :: ts, h => by
    cases h with
    | cons h h' =>
      obtain ⟨h1, h2⟩ := str_among h'
      refine ⟨fun x hx => ?_, h2⟩
      rcases List.mem_cons.1 hx with rfl | hx
      · exact tag_from (TokR.id h)
      · exact h1 x hx

/-- from these tokens it leads to these tokens, with a result in `A` -/
def PL {α : Type} (S : Token → Prop) (A : α → Prop) (p : P DS α) : Prop :=
  ∀ s a s', Among S s.ts s.tail → p s = .ok a s' → A a ∧ Among S s'.ts s'.tail

abbrev PL0 {α : Type} (S : Token → Prop) (p : P DS α) : Prop := PL S (fun _ => True) p

/-- all identifiers are those of these tokens -/
def AllFrom (S : Token → Prop) (l : List Ident) : Prop := ∀ i ∈ l, FromTok S i

namespace AllFrom
variable {α : Type}

theorem nil : AllFrom S [] := fun _ h => by cases h

theorem append {l l' : List Ident} (h : AllFrom S l) (h' : AllFrom S l') : AllFrom S (l ++ l') := fun p hp =>
  (List.mem_append.1 hp).elim (h p) (h' p)

theorem cons {i : Ident} {l : List Ident} (h : FromTok S i) (h' : AllFrom S l) : AllFrom S (i :: l) := fun p hp =>
  (List.mem_cons.1 hp).elim (fun e => e ▸ h) (h' p)

theorem flat {l : List α} {f : α → List Ident} (h : ∀ a ∈ l, AllFrom S (f a)) : AllFrom S (l.flatMap f) := fun p hp => by
  obtain ⟨a, ha, hp⟩ := List.mem_flatMap.1 hp
  exact h a ha p hp

end AllFrom

namespace PL
variable {α β : Type}

theorem bind {A : α → Prop} {B : β → Prop} {p : P DS α} {f : α → P DS β} (h : PL S A p) (h' : ∀ a, A a → PL S B (f a)) :
    PL S B (p >>= f) := by
  intro s b s' hs e
  change P.bind p f s = _ at e
  unfold P.bind at e
  cases hp : p s with
  | ok a s1 =>
    rw [hp] at e
    obtain ⟨h1, h2⟩ := h s a s1 hs hp
    exact h' a h1 s1 b s' h2 e
  | _ => rw [hp] at e; cases e

theorem pure {A : α → Prop} {a : α} (h : A a) : PL S A (Pure.pure a) := fun _ _ _ hs e => by cases e; exact ⟨h, hs⟩
theorem fail {A : α → Prop} : PL S A P.fail := fun _ _ _ _ e => by cases e
theorem wait {A : α → Prop} : PL S A P.wait := fun _ _ _ _ e => by cases e
theorem panic {A : α → Prop} : PL S A P.panic := fun _ _ _ _ e => by cases e

theorem mono {A B : α → Prop} {p : P DS α} (h : PL S A p) (h' : ∀ a, A a → B a) : PL S B p := fun s a s' hs e =>
  ⟨h' a (h s a s' hs e).1, (h s a s' hs e).2⟩

theorem ite {A : α → Prop} {c : Prop} [Decidable c] {p q : P DS α} (h : PL S A p) (h' : PL S A q) : PL S A (if c then p else q) := by
  split
  · exact h
  · exact h'

/-- from the parser compared with itself -/
theorem self {A : α → α → Prop} {B : α → Prop} {p : P DS α} (h : PR u Eq (tag S 1) (tag S 2) False Eq A p p) (h' : ∀ a, A a a → B a) :
    PL S B p := fun s a s' hs e => by
  have := h s s ⟨tag_str hs, rfl⟩
  rw [e] at this
  exact ⟨h' a this.1, str_among this.2.ts⟩

theorem cur (u : Uni) : PL S (fun t => FromTok S (Ident.ofTok t)) P.cur :=
  self (u := u) PR.cur fun _ h => tag_from (TokR.id h)
theorem cur? (u : Uni) : PL0 S P.cur? := self (u := u) PR.cur? fun _ _ => trivial
theorem next (u : Uni) : PL0 S P.next := self (u := u) PR.next fun _ _ => trivial
theorem is (u : Uni) {pred : Pred} [Resp u Eq (tag S 1) (tag S 2) pred] : PL0 S (P.is pred) := self (u := u) PR.is fun _ _ => trivial
theorem current (u : Uni) {pred : Pred} [Resp u Eq (tag S 1) (tag S 2) pred] : PL S (fun t => FromTok S (Ident.ofTok t)) (P.current pred) :=
  self (u := u) PR.current fun _ h => tag_from (TokR.id h.1)
theorem nextIs (u : Uni) {pred : Pred} [Resp u Eq (tag S 1) (tag S 2) pred] : PL S (fun t => FromTok S (Ident.ofTok t)) (P.nextIs pred) :=
  self (u := u) PR.nextIs fun _ h => tag_from (TokR.id h.1)

theorem askP (f : DS → α) : PL0 S (TP.askP f) := fun _ _ _ hs e => by cases e; exact ⟨trivial, hs⟩

theorem stepP {f : DS → Option DS} : PL0 S (TP.stepP f) := fun s _ _ hs e => by
  unfold TP.stepP at e
  cases hf : f s.cx with
  | some c => rw [hf] at e; cases e; exact ⟨trivial, hs⟩
  | none => rw [hf] at e; cases e

theorem stepR {f : DS → SetR DS} : PL0 S (TP.stepR f) := fun s _ _ hs e => by
  unfold TP.stepR at e
  cases hf : f s.cx with
  | ok c => rw [hf] at e; cases e; exact ⟨trivial, hs⟩
  | err => rw [hf] at e; cases e
  | panic => rw [hf] at e; cases e

end PL

end TP
