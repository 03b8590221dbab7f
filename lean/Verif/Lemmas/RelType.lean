import Verif.Lemmas.RelStmt

/-!
# Two runs of the parser of types
-/

namespace TP
open Spec

variable {κ₁ κ₂ δ₁ δ₂ ε : Type}
variable {u : Uni} {nm : Str → Str → Prop} {m₁ : Tr δ₁ ε} {m₂ : Tr δ₂ ε} {w : Prop} {K : κ₁ → κ₂ → Prop}
variable {D₁ : DEnv κ₁ δ₁} {D₂ : DEnv κ₂ δ₂}

local notation "PP" => PR u nm m₁ m₂ w K

/-- the results of searches are related -/
def FindRR (u : Uni) (nm : Str → Str → Prop) (m₁ : Tr δ₁ ε) (m₂ : Tr δ₂ ε) (a b : Str) : FindR δ₁ → FindR δ₂ → Prop
  | .found d, .found e => DeclR u nm m₁ m₂ a b d e
  | .none, .none => True
  | .hang, .hang => True
  | _, _ => False

/-- what is needed by the parser of types and declarations -/
structure DSim (u : Uni) (nm : Str → Str → Prop) (m₁ : Tr δ₁ ε) (m₂ : Tr δ₂ ε) (K : κ₁ → κ₂ → Prop) (D₁ : DEnv κ₁ δ₁)
    (D₂ : DEnv κ₂ δ₂) : Prop extends ESim u nm m₁ m₂ K D₁.toEnv D₂.toEnv where
  refl : ∀ a, nm a a
  name : ∀ {i j}, m₁.id i = m₂.id j → nm i.name j.name
  str : m₁.str = m₂.str
  isLabel : ∀ {d e}, SameD m₁ m₂ d e → D₁.isLabel d = D₂.isLabel e
  emb : ∀ {k a b}, nm a b → Option.Rel (DeclR u nm m₁ m₂ a b) (D₁.emb k a) (D₂.emb k b)
  set : ∀ {k l is js a b}, K k l → is.map m₁.id = js.map m₂.id → a.tr m₁ = b.tr m₂ → SetRR K (D₁.set k is a) (D₂.set l js b)
  complete : ∀ {k l d e i j x y}, K k l → SameD m₁ m₂ d e → m₁.id i = m₂.id j → x.tr m₁ = y.tr m₂ →
    SetRR K (D₁.complete k d i x) (D₂.complete l e j y)
  stack : ∀ {k l}, K k l → K (D₁.stack k) (D₂.stack l)
  restore : ∀ {k0 l0 k l}, K k0 l0 → K k l → K (D₁.restore k0 k) (D₂.restore l0 l)
  newRef : ∀ {k l a b}, K k l → nm a b → K (D₁.newRef k a).1 (D₂.newRef l b).1 ∧ m₁.ref (D₁.newRef k a).2 = m₂.ref (D₂.newRef l b).2
  openSection : ∀ {k l}, K k l → K (D₁.openSection k) (D₂.openSection l)
  runSection : ∀ {k l}, K k l → K (D₁.runSection k) (D₂.runSection l)
  closeSection : ∀ {k0 l0 k l}, K k0 l0 → K k l → K (D₁.closeSection k0 k) (D₂.closeSection l0 l)
  ordinal : ∀ {k l x y}, K k l → x.tr m₁ = y.tr m₂ → D₁.ordinal k x = D₂.ordinal l y
  findMember : ∀ {k l h h' x y a b}, K k l → h.map (TypeId.tr m₁) = h'.map (TypeId.tr m₂) → x.tr m₁ = y.tr m₂ → nm a b →
    FindRR u nm m₁ m₂ a b (D₁.findMember k h x a) (D₂.findMember l h' y b)
  findProp : ∀ {k l h h' x y a b}, K k l → h.map (TypeId.tr m₁) = h'.map (TypeId.tr m₂) → x.tr m₁ = y.tr m₂ → nm a b →
    FindRR u nm m₁ m₂ a b (D₁.findProp k h x a) (D₂.findProp l h' y b)
  inherits : ∀ {k l p q d e}, K k l → p.tr m₁ = q.tr m₂ → SameD m₁ m₂ d e → D₁.inherits k p d = D₂.inherits l q e

section
variable {δ : Type} (m : Tr δ ε)
theorem TypeId.tr_mk (a b c) : TypeId.tr m ⟨a, b, c⟩ = ⟨a.map m.id, m.id b, c.tr m b⟩ := rfl
theorem TRef.tr_none (i) : TRef.tr m i .none = .none := rfl
theorem TRef.tr_now (i d) : TRef.tr m i (.now d) = .now (m.decl i d) := rfl
theorem TRef.tr_later (i d) : TRef.tr m i (.later d) = .later (m.ref d) := rfl
theorem EnumElem.tr_mk (a b) : EnumElem.tr m ⟨a, b⟩ = ⟨m.id a, b.map (·.tr m)⟩ := rfl
theorem Stored.tr_const (b) : Stored.tr m (.const b) = .const b := rfl
theorem Stored.tr_ref (r) : Stored.tr m (.ref r) = .ref (r.tr m) := rfl
theorem PropDefault.tr_value (e) : PropDefault.tr m (.value e) = .value (e.tr m) := rfl
theorem PropDefault.tr_noDefault : PropDefault.tr m .noDefault = .noDefault := rfl

theorem Sects.tr_snoc (v : Visibility) (fs : Fields δ) (ms : Methods δ) : ∀ p : Sects δ,
    (p.snoc v fs ms).tr m = (p.tr m).snoc v (fs.tr m) (ms.tr m)
  | .nil => rfl
  | .cons _ _ _ _ r => by simp only [Sects.snoc, Sects.tr, Sects.tr_snoc v fs ms r]

theorem Sects.tr_add (v : Visibility) (fs : Fields δ) (ms : Methods δ) (ps : TP.Props δ) : ∀ p : Sects δ,
    (p.add v fs ms ps).tr m = (p.tr m).add v (fs.tr m) (ms.tr m) (ps.tr m)
  | .nil => rfl
  | .cons _ _ _ _ r => by simp only [Sects.add, Sects.tr, Sects.tr_add v fs ms ps r]

theorem qualExpr_tr (q : QualId δ) : (qualExpr q).tr m = qualExpr (q.tr m) := by
  simp only [qualExpr, Expr.tr, SExpr.tr, Term.tr, Factor.tr, Desig.tr, Items.tr, MulTail.tr, AddTail.tr, RelTail.tr, Option.map_none]
end

macro_rules | `(tactic| rel_done) => `(tactic|
  (show _ = _; simp only [TypeId.tr_mk, TRef.tr_none, TRef.tr_now, TRef.tr_later, EnumElem.tr_mk, Stored.tr_const, Stored.tr_ref, PropDefault.tr_value, PropDefault.tr_noDefault, Sects.tr_snoc, Sects.tr_add, qualExpr_tr, QualId.tr_mk, IdentRef.tr_mk, PType.tr, OptPTypes.tr, PTypes.tr, FieldList.tr, Fields.tr, OptVariant.tr, Variants.tr, OptParams.tr, Params.tr, ParamTy.tr, Sects.tr, Methods.tr, Heading.tr, TP.Props.tr, ClassProp.tr, OptIntf.tr, Exprs.tr, List.map_cons, List.map_nil, Option.map_some, Option.map_none, *]))

theorem PR.setDecl (S : DSim u nm m₁ m₂ K D₁ D₂) {is js : List Ident} {a : DKind δ₁} {b : DKind δ₂} (h1 : is.map m₁.id = js.map m₂.id)
    (h2 : a.tr m₁ = b.tr m₂) : PP (fun _ _ => True) (TP.setDecl D₁ is a) (TP.setDecl D₂ js b) := by
  intro s t hs
  have := S.set hs.cx h1 h2
  unfold TP.setDecl
  cases h : D₁.set s.cx is a <;> cases h' : D₂.set t.cx js b <;> rw [h, h'] at this <;> try exact this.elim
  · exact ⟨trivial, hs.ts, this⟩
  · trivial
  · trivial

theorem PR.stacked {α β : Type} {A : α → β → Prop} (S : DSim u nm m₁ m₂ K D₁ D₂) {p : P κ₁ α} {q : P κ₂ β} (h : PP A p q) :
    PP A (TP.stacked D₁ p) (TP.stacked D₂ q) := by
  intro s t hs
  have := h _ _ (⟨hs.ts, S.stack hs.cx⟩ : SR u nm m₁ m₂ w K { s with cx := D₁.stack s.cx } { t with cx := D₂.stack t.cx })
  unfold TP.stacked
  cases hp : p { s with cx := D₁.stack s.cx } with
  | wait => exact trivial
  | err => rw [hp] at this; cases hq : q { t with cx := D₂.stack t.cx } <;> rw [hq] at this <;> first | exact trivial | exact this.elim
  | panic => rw [hp] at this; cases hq : q { t with cx := D₂.stack t.cx } <;> rw [hq] at this <;> first | exact trivial | exact this.elim
  | ok a s' =>
    rw [hp] at this
    cases hq : q { t with cx := D₂.stack t.cx } <;> rw [hq] at this <;> try exact this.elim
    exact ⟨this.1, this.2.ts, S.restore hs.cx this.2.cx⟩

theorem PR.newRef (S : DSim u nm m₁ m₂ K D₁ D₂) {a b : Str} (h : nm a b) :
    PP (EqR m₁.ref m₂.ref) (TP.newRef D₁ a) (TP.newRef D₂ b) := fun _ _ hs =>
  ⟨(S.newRef hs.cx h).2, hs.ts, (S.newRef hs.cx h).1⟩

theorem PR.checkOrdinal (S : DSim u nm m₁ m₂ K D₁ D₂) {x : PType δ₁} {y : PType δ₂} (h : x.tr m₁ = y.tr m₂) :
    PP (fun _ _ => True) (TP.checkOrdinal D₁ x) (TP.checkOrdinal D₂ y) := by
  intro s t hs
  unfold TP.checkOrdinal
  rw [S.ordinal hs.cx h]
  cases D₂.ordinal t.cx y with
  | none => trivial
  | some b =>
    cases b
    · trivial
    · exact ⟨trivial, hs⟩

theorem PR.findMember (S : DSim u nm m₁ m₂ K D₁ D₂) {h : List (TypeId δ₁)} {h' : List (TypeId δ₂)} {x : Sects δ₁} {y : Sects δ₂} {a b : Str}
    (hh : h.map (TypeId.tr m₁) = h'.map (TypeId.tr m₂)) (hx : x.tr m₁ = y.tr m₂) (hab : nm a b) :
    PP (DeclR u nm m₁ m₂ a b) (TP.findMember D₁ h x a) (TP.findMember D₂ h' y b) := by
  intro s t hs
  have := S.findMember hs.cx hh hx hab
  unfold TP.findMember
  cases e : D₁.findMember s.cx h x a <;> cases e' : D₂.findMember t.cx h' y b <;> rw [e, e'] at this <;> try exact this.elim
  · exact ⟨this, hs⟩
  · trivial
  · trivial

theorem PR.findProp (S : DSim u nm m₁ m₂ K D₁ D₂) {h : List (TypeId δ₁)} {h' : List (TypeId δ₂)} {x : Sects δ₁} {y : Sects δ₂} {a b : Str}
    (hh : h.map (TypeId.tr m₁) = h'.map (TypeId.tr m₂)) (hx : x.tr m₁ = y.tr m₂) (hab : nm a b) :
    PP (Option.Rel (DeclR u nm m₁ m₂ a b)) (TP.findProp D₁ h x a) (TP.findProp D₂ h' y b) := by
  intro s t hs
  have := S.findProp hs.cx hh hx hab
  unfold TP.findProp
  cases e : D₁.findProp s.cx h x a <;> cases e' : D₂.findProp t.cx h' y b <;> rw [e, e'] at this <;> try exact this.elim
  · exact ⟨.some this, hs⟩
  · exact ⟨.none, hs⟩
  · trivial

macro_rules | `(tactic| rel_leaf) => `(tactic| exact PR.currentP)
macro_rules | `(tactic| rel_leaf) => `(tactic| (apply PR.traced; rel_leaf))
set_option hygiene false in
macro_rules | `(tactic| rel_leaf) => `(tactic| first
  | exact (exprR S.toESim hnm).expr | exact (exprR S.toESim hnm).exprs _ | exact (exprR S.toESim hnm).desig
  | exact PR.parseQualId S.toESim | exact PR.getDecl S.toESim (by assumption) | exact PR.getDecl S.toESim (TokR.val (by assumption))
  | exact PR.getDecl S.toESim (TokR.raw (by assumption)) | exact PR.checkOrdinal S (by assumption)
  | exact PR.setDecl S (by simp only [List.map_cons, List.map_nil, *]) rfl | fail)
set_option hygiene false in
macro_rules | `(tactic| rel_step) => `(tactic| (apply PR.stacked S))
macro_rules | `(tactic| rel_step) => `(tactic| (apply PR.traced))

theorem PR.parseIdents (p : Pred) [Resp u nm m₁ m₂ p] : ∀ {n m : Nat}, n ≤ m →
    PP (EqR (List.map m₁.id) (List.map m₂.id)) (TP.parseIdents p n) (TP.parseIdents p m)
  | 0, _, _ => PR.wait
  | n + 1, m + 1, h => by
    have ih := PR.parseIdents p (Nat.le_of_succ_le_succ h)
    unfold TP.parseIdents
    rel

theorem PR.optSemi : PP (fun _ _ => True) TP.optSemi TP.optSemi := by
  unfold TP.optSemi
  rel

theorem PR.parseMethodDirectives (hstr : m₁.str = m₂.str) : ∀ {n m : Nat}, n ≤ m →
    PP (EqR (List.map m₁.str) (List.map m₂.str)) (TP.parseMethodDirectives u n) (TP.parseMethodDirectives u m)
  | 0, _, _ => PR.wait
  | n + 1, m + 1, h => by
    have ih := PR.parseMethodDirectives hstr (Nat.le_of_succ_le_succ h)
    have hs (w : Str) : m₁.str w = m₂.str w := by rw [hstr]
    clear hstr
    unfold TP.parseMethodDirectives
    refine PR.cur.bind ?_
    intro a b hab
    dsimp only
    rw [hab.upv]
    rel

theorem PR.parseMethodDirectiveList (hstr : m₁.str = m₂.str) {n m : Nat} (hnm : n ≤ m) :
    PP (EqR (List.map m₁.str) (List.map m₂.str)) (TP.parseMethodDirectiveList u n) (TP.parseMethodDirectiveList u m) := by
  unfold TP.parseMethodDirectiveList
  exact PR.optSemi.bind fun _ _ _ => (PR.parseMethodDirectives hstr hnm).traced

theorem PR.parseVisibility : PP Eq (TP.parseVisibility u) (TP.parseVisibility u) := by
  unfold TP.parseVisibility
  refine PR.current.bind ?_
  rintro a b ⟨hab, -, -⟩
  dsimp only
  rw [hab.upv]
  rel

theorem PR.parseParmOpt : PP Eq (TP.parseParmOpt u) (TP.parseParmOpt u) := by
  unfold TP.parseParmOpt
  rel

theorem PR.parseFuncWord : PP Eq (TP.parseFuncWord u) (TP.parseFuncWord u) := by
  unfold TP.parseFuncWord
  rel

theorem PR.parseOfObject : PP Eq (TP.parseOfObject u) (TP.parseOfObject u) := by
  unfold TP.parseOfObject
  rel

theorem PR.parseDestructor : PP (EqR (Heading.tr m₁) (Heading.tr m₂)) (TP.parseDestructor u) (TP.parseDestructor u) := by
  unfold TP.parseDestructor
  rel

section
variable (S : DSim u nm m₁ m₂ K D₁ D₂)
include S

theorem PR.parseTypeIdWithUnit :
    PP (Option.Rel (EqR (TypeId.tr m₁) (TypeId.tr m₂))) (TP.parseTypeIdWithUnit u D₁) (TP.parseTypeIdWithUnit u D₂) := by
  unfold TP.parseTypeIdWithUnit
  refine PR.cur.bind ?_
  rel_intro
  rename_i hab hid _
  refine (PR.getDecl S.toESim hab.val).bind ?_
  rintro _ _ (hde | _)
  · refine PR.ite (by simp only [S.isUses hde.same]) (fun _ _ => ?_) (fun _ _ => PR.pure .none)
    refine PR.nextIs.bind fun _ _ _ => PR.nextIs.bind ?_
    rel_intro
    refine PR.pure (.some ?_)
    rel_done
  · exact PR.ite rfl (fun h _ => by cases h) (fun _ _ => PR.pure .none)

theorem PR.parseTypeIdWithoutUnit :
    PP (EqR (TypeId.tr m₁) (TypeId.tr m₂)) (TP.parseTypeIdWithoutUnit D₁) (TP.parseTypeIdWithoutUnit D₂) := by
  unfold TP.parseTypeIdWithoutUnit
  refine PR.cur.bind ?_
  rel_intro
  rename_i hab hid _
  refine PR.next.bind fun _ _ _ => (PR.getDecl S.toESim hab.raw).bind ?_
  rintro _ _ (hde | _)
  · have hr := hde.refer _ _ hab .raw .raw
    rel
  · refine (PR.newRef S hab.raw).bind ?_
    rel_intro
    rel

theorem PR.parseTypeId : PP (EqR (TypeId.tr m₁) (TypeId.tr m₂)) (TP.parseTypeId u D₁) (TP.parseTypeId u D₂) := by
  unfold TP.parseTypeId
  refine (PR.parseTypeIdWithUnit S).bind ?_
  rel_intro
  · exact PR.pure (by assumption)
  · exact PR.parseTypeIdWithoutUnit S

set_option hygiene false in
macro_rules | `(tactic| rel_leaf) => `(tactic| exact PR.parseTypeId S)

theorem PR.parsePointer : PP (EqR (PType.tr m₁) (PType.tr m₂)) (TP.parsePointer u D₁) (TP.parsePointer u D₂) := by
  unfold TP.parsePointer
  rel

theorem PR.parseEmb (k : EmbKind) :
    PP (Option.Rel (EqR (PType.tr m₁) (PType.tr m₂))) (TP.parseEmb u D₁ k) (TP.parseEmb u D₂ k) := by
  unfold TP.parseEmb
  refine PR.cur.bind ?_
  rel_intro
  rename_i a b hab hid _
  have := S.emb (k := k) hab.val
  cases h : D₁.emb k (a.value u) <;> cases h' : D₂.emb k (b.value u) <;> rw [h, h'] at this <;> cases this
  · exact PR.pure .none
  · rename_i hde
    have hr := hde.refer _ _ hab .val .val
    refine PR.next.bind fun _ _ _ => PR.pure (.some ?_)
    rel_done

theorem PR.parseSubrangeIdent {n m : Nat} (hnm : n ≤ m) :
    PP (Option.Rel (EqR (PType.tr m₁) (PType.tr m₂))) (TP.parseSubrangeIdent u D₁ n) (TP.parseSubrangeIdent u D₂ m) := by
  unfold TP.parseSubrangeIdent
  refine PR.rollbackPoint.bind fun s0 t0 hs => PR.cur.bind ?_
  rel_intro
  rename_i a b hab hid _
  refine PR.next.bind fun _ _ _ => PR.is.bind ?_
  rel_intro
  refine PR.ite rfl (fun _ _ => ?_) (fun _ _ => ?_)
  · refine PR.next.bind fun _ _ _ => (exprR S.toESim hnm).expr.bind ?_
    rel_intro
    refine (PR.getDecl S.toESim hab.raw).bind ?_
    rintro _ _ (hde | _)
    · have hr := hde.refer _ _ hab .raw .raw
      refine PR.pure (.some ?_)
      rel_done
    · refine PR.pure (.some ?_)
      rel_done
  · exact (PR.rollbackTo S.toESim hs).bind fun _ _ _ => PR.pure .none

theorem PR.parseTypeForIdent {n m : Nat} (hnm : n ≤ m) :
    PP (EqR (PType.tr m₁) (PType.tr m₂)) (TP.parseTypeForIdent u D₁ n) (TP.parseTypeForIdent u D₂ m) := by
  unfold TP.parseTypeForIdent
  refine (PR.parseTypeIdWithUnit S).bind ?_
  rel_intro
  · rel
  refine (PR.parseEmb S _).bind ?_
  rel_intro
  · exact PR.pure (by assumption)
  refine (PR.parseEmb S _).bind ?_
  rel_intro
  · exact PR.pure (by assumption)
  refine (PR.parseEmb S _).bind ?_
  rel_intro
  · exact PR.pure (by assumption)
  refine (PR.parseSubrangeIdent S hnm).bind ?_
  rel_intro
  · exact PR.pure (by assumption)
  refine (PR.parseTypeIdWithoutUnit S).bind ?_
  rel_intro
  rel

theorem PR.parseConstSubrange {n m : Nat} (hnm : n ≤ m) :
    PP (EqR (PType.tr m₁) (PType.tr m₂)) (TP.parseConstSubrange u D₁ n) (TP.parseConstSubrange u D₂ m) := by
  unfold TP.parseConstSubrange
  rel

theorem PR.optExpr {c : Pred} [Resp u nm m₁ m₂ c] {n m : Nat} (hnm : n ≤ m) :
    PP (EqR (Option.map (Expr.tr m₁)) (Option.map (Expr.tr m₂)))
      (do
      if ← P.is c then do
        P.next
        let e ← parseExpr u D₁.toEnv n
        Pure.pure (some e)
      else Pure.pure none)
      (do
      if ← P.is c then do
        P.next
        let e ← parseExpr u D₂.toEnv m
        Pure.pure (some e)
      else Pure.pure none) := by rel

theorem PR.parseEnumElem {n m : Nat} (hnm : n ≤ m) :
    PP (EqR (EnumElem.tr m₁) (EnumElem.tr m₂)) (TP.parseEnumElem u D₁ n) (TP.parseEnumElem u D₂ m) := by
  unfold TP.parseEnumElem
  refine PR.nextIs.bind ?_
  rel_intro
  refine PR.next.bind fun _ _ _ => (PR.optExpr S hnm).bind ?_
  rel_intro
  rel

theorem PR.parseEnumElems : ∀ {n m : Nat}, n ≤ m →
    PP (EqR (List.map (EnumElem.tr m₁)) (List.map (EnumElem.tr m₂))) (TP.parseEnumElems u D₁ n) (TP.parseEnumElems u D₂ m)
  | 0, _, _ => PR.wait
  | n + 1, m + 1, h => by
    have ih := PR.parseEnumElems (Nat.le_of_succ_le_succ h)
    have := PR.parseEnumElem (w := w) S (Nat.le_of_succ_le_succ h)
    unfold TP.parseEnumElems
    rel

theorem PR.parseEnum {n m : Nat} (hnm : n ≤ m) :
    PP (EqR (PType.tr m₁) (PType.tr m₂)) (TP.parseEnum u D₁ n) (TP.parseEnum u D₂ m) := by
  unfold TP.parseEnum
  have := PR.parseEnumElems (w := w) S hnm
  rel

theorem PR.parseStringType {n m : Nat} (hnm : n ≤ m) :
    PP (EqR (PType.tr m₁) (PType.tr m₂)) (TP.parseStringType u D₁ n) (TP.parseStringType u D₂ m) := by
  unfold TP.parseStringType
  refine PR.cur.bind ?_
  rel_intro
  rename_i a b hab hid _
  have := S.emb (k := .string) hab.val
  cases h : D₁.emb .string (a.value u) <;> cases h' : D₂.emb .string (b.value u) <;> rw [h, h'] at this <;> cases this
  · rel
  · rename_i hde
    have hr := hde.refer _ _ hab .val .val
    dsimp only
    rel

theorem PR.parseFile (packed : Bool) :
    PP (EqR (PType.tr m₁) (PType.tr m₂)) (TP.parseFile u D₁ packed) (TP.parseFile u D₂ packed) := by
  unfold TP.parseFile
  rel

theorem PR.parseClassRef : PP (EqR (PType.tr m₁) (PType.tr m₂)) (TP.parseClassRef u D₁) (TP.parseClassRef u D₂) := by
  unfold TP.parseClassRef
  refine PR.nextIs.bind ?_
  rel_intro
  rename_i a b hab hid _
  refine (PR.getDecl S.toESim hab.val).bind ?_
  rintro _ _ (hde | _)
  · rename_i d e
    refine PR.pure ?_
    show _ = _
    simp only [PType.tr, TypeId.tr_mk, Option.map_none, hid, S.isType hde.same]
    cases D₂.isType e <;> simp [TRef.tr, hde.refer _ _ hab .val .val]
  · rel

theorem PR.parseTypeIds : ∀ {n m : Nat}, n ≤ m →
    PP (EqR (List.map (TypeId.tr m₁)) (List.map (TypeId.tr m₂))) (TP.parseTypeIds u D₁ n) (TP.parseTypeIds u D₂ m)
  | 0, _, _ => PR.wait
  | n + 1, m + 1, h => by
    have ih := PR.parseTypeIds (Nat.le_of_succ_le_succ h)
    unfold TP.parseTypeIds
    rel

theorem PR.parseHeritage {n m : Nat} (hnm : n ≤ m) :
    PP (EqR (List.map (TypeId.tr m₁)) (List.map (TypeId.tr m₂))) (TP.parseHeritage u D₁ n) (TP.parseHeritage u D₂ m) := by
  unfold TP.parseHeritage
  have := PR.parseTypeIds (w := w) S hnm
  rel

theorem PR.parseAccessor {h : List (TypeId δ₁)} {h' : List (TypeId δ₂)} {x : Sects δ₁} {y : Sects δ₂} {w : Str}
    (hh : h.map (TypeId.tr m₁) = h'.map (TypeId.tr m₂)) (hx : x.tr m₁ = y.tr m₂) :
    PP (EqR (Option.map (IdentRef.tr m₁)) (Option.map (IdentRef.tr m₂))) (TP.parseAccessor u D₁ h x w) (TP.parseAccessor u D₂ h' y w) := by
  unfold TP.parseAccessor
  refine PR.is.bind ?_
  rel_intro
  refine PR.ite rfl (fun _ _ => ?_) (fun _ _ => PR.pure rfl)
  refine PR.next.bind fun _ _ _ => PR.cur.bind ?_
  rel_intro
  rename_i a b hab hid _
  refine (PR.findMember S hh hx hab.val).bind ?_
  intro d e hde
  have hr := hde.refer _ _ hab .val .val
  rel

theorem PR.parsePropIndex {n m : Nat} (hnm : n ≤ m) :
    PP (EqR (Option.map (Expr.tr m₁)) (Option.map (Expr.tr m₂))) (TP.parsePropIndex u D₁ n) (TP.parsePropIndex u D₂ m) :=
  PR.optExpr S hnm

theorem PR.parseParmDefault {n m : Nat} (hnm : n ≤ m) :
    PP (EqR (Option.map (Expr.tr m₁)) (Option.map (Expr.tr m₂))) (TP.parseParmDefault u D₁ n) (TP.parseParmDefault u D₂ m) :=
  PR.optExpr S hnm

theorem PR.parseStored {h : List (TypeId δ₁)} {h' : List (TypeId δ₂)} {x : Sects δ₁} {y : Sects δ₂}
    (hh : h.map (TypeId.tr m₁) = h'.map (TypeId.tr m₂)) (hx : x.tr m₁ = y.tr m₂) :
    PP (EqR (Option.map (Stored.tr m₁)) (Option.map (Stored.tr m₂))) (TP.parseStored u D₁ h x) (TP.parseStored u D₂ h' y) := by
  unfold TP.parseStored
  refine PR.is.bind ?_
  rel_intro
  refine PR.ite rfl (fun _ _ => ?_) (fun _ _ => PR.pure rfl)
  refine PR.next.bind fun _ _ _ => PR.cur.bind ?_
  rel_intro
  rename_i a b hab hid _
  dsimp only
  rw [hab.lowv]
  refine PR.ite rfl (fun _ _ => by rel) (fun _ _ => ?_)
  refine PR.ite rfl (fun _ _ => by rel) (fun _ _ => ?_)
  refine (PR.findMember S hh hx (S.refl _)).bind ?_
  intro d e hde
  have hr := hde.refer _ _ hab (hab.lowv ▸ .low) .low
  rel

theorem PR.parseDefault {n m : Nat} (hnm : n ≤ m) :
    PP (EqR (Option.map (PropDefault.tr m₁)) (Option.map (PropDefault.tr m₂))) (TP.parseDefault u D₁ n) (TP.parseDefault u D₂ m) := by
  unfold TP.parseDefault
  rel

theorem PR.parseImplements :
    PP (EqR (Option.map (TypeId.tr m₁)) (Option.map (TypeId.tr m₂))) (TP.parseImplements u D₁) (TP.parseImplements u D₂) := by
  unfold TP.parseImplements
  rel

theorem PR.parseReturn (fn : Bool) :
    PP (EqR (Option.map (TypeId.tr m₁)) (Option.map (TypeId.tr m₂))) (TP.parseReturn u D₁ fn) (TP.parseReturn u D₂ fn) := by
  unfold TP.parseReturn
  rel

theorem PR.parseVariantIdent :
    PP (EqR (Option.map m₁.id) (Option.map m₂.id)) (TP.parseVariantIdent D₁) (TP.parseVariantIdent D₂) := by
  unfold TP.parseVariantIdent
  refine PR.rollbackPoint.bind fun s0 t0 hs => PR.current.bind ?_
  rel_intro
  refine PR.next.bind fun _ _ _ => PR.is.bind ?_
  rel_intro
  refine PR.ite rfl (fun _ _ => ?_) (fun _ _ => ?_)
  · rel
  · exact (PR.rollbackTo S.toESim hs).bind fun _ _ _ => PR.pure rfl

theorem PR.parseConstExprs : ∀ {n m : Nat}, n ≤ m →
    PP (EqR (Exprs.tr m₁) (Exprs.tr m₂)) (TP.parseConstExprs u D₁ n) (TP.parseConstExprs u D₂ m)
  | 0, _, _ => PR.wait
  | n + 1, m + 1, h => by
    have ih := PR.parseConstExprs (Nat.le_of_succ_le_succ h)
    have hnm := Nat.le_of_succ_le_succ h
    unfold TP.parseConstExprs
    rel

end

/-- the parsers of types, with `n` and `m` steps -/
structure TypeR (u : Uni) (nm : Str → Str → Prop) (m₁ : Tr δ₁ ε) (m₂ : Tr δ₂ ε) (w : Prop) (K : κ₁ → κ₂ → Prop) (D₁ : DEnv κ₁ δ₁)
    (D₂ : DEnv κ₂ δ₂) (n m : Nat) : Prop where
  type : PR u nm m₁ m₂ w K (EqR (PType.tr m₁) (PType.tr m₂)) (parseType u D₁ n) (parseType u D₂ m)
  struc : PR u nm m₁ m₂ w K (EqR (PType.tr m₁) (PType.tr m₂)) (parseStruc u D₁ n) (parseStruc u D₂ m)
  array : ∀ (b : Bool), PR u nm m₁ m₂ w K (EqR (PType.tr m₁) (PType.tr m₂)) (parseArray u D₁ b n) (parseArray u D₂ b m)
  index : PR u nm m₁ m₂ w K (EqR (OptPTypes.tr m₁) (OptPTypes.tr m₂)) (parseIndex u D₁ n) (parseIndex u D₂ m)
  indexTypes : PR u nm m₁ m₂ w K (EqR (PTypes.tr m₁) (PTypes.tr m₂)) (parseIndexTypes u D₁ n) (parseIndexTypes u D₂ m)
  set : ∀ (b : Bool), PR u nm m₁ m₂ w K (EqR (PType.tr m₁) (PType.tr m₂)) (parseSet u D₁ b n) (parseSet u D₂ b m)
  rec_ : ∀ (b : Bool), PR u nm m₁ m₂ w K (EqR (PType.tr m₁) (PType.tr m₂)) (parseRec u D₁ b n) (parseRec u D₂ b m)
  fieldList : ∀ (p : Pred) [Resp u nm m₁ m₂ p], PR u nm m₁ m₂ w K (EqR (FieldList.tr m₁) (FieldList.tr m₂)) (parseFieldList u D₁ p n) (parseFieldList u D₂ p m)
  fields : ∀ (p : Pred) [Resp u nm m₁ m₂ p], PR u nm m₁ m₂ w K (EqR (Fields.tr m₁) (Fields.tr m₂)) (parseFields u D₁ p n) (parseFields u D₂ p m)
  variant : PR u nm m₁ m₂ w K (EqR (OptVariant.tr m₁) (OptVariant.tr m₂)) (parseVariant u D₁ n) (parseVariant u D₂ m)
  variants : PR u nm m₁ m₂ w K (EqR (Variants.tr m₁) (Variants.tr m₂)) (parseVariants u D₁ n) (parseVariants u D₂ m)
  procType : PR u nm m₁ m₂ w K (EqR (PType.tr m₁) (PType.tr m₂)) (parseProcType u D₁ n) (parseProcType u D₂ m)
  optParams : ∀ (a b : Str), PR u nm m₁ m₂ w K (EqR (OptParams.tr m₁) (OptParams.tr m₂)) (parseOptParams u D₁ a b n) (parseOptParams u D₂ a b m)
  params : ∀ (a b : Str), PR u nm m₁ m₂ w K (EqR (Params.tr m₁) (Params.tr m₂)) (parseParams u D₁ a b n) (parseParams u D₂ a b m)
  paramList : ∀ (a : Str), PR u nm m₁ m₂ w K (EqR (Params.tr m₁) (Params.tr m₂)) (parseParamList u D₁ a n) (parseParamList u D₂ a m)
  paramTy : PR u nm m₁ m₂ w K (EqR (ParamTy.tr m₁) (ParamTy.tr m₂)) (parseParamTy u D₁ n) (parseParamTy u D₂ m)
  classOrRef : PR u nm m₁ m₂ w K (EqR (PType.tr m₁) (PType.tr m₂)) (parseClassOrRef u D₁ n) (parseClassOrRef u D₂ m)
  cls : PR u nm m₁ m₂ w K (EqR (PType.tr m₁) (PType.tr m₂)) (parseClass u D₁ n) (parseClass u D₂ m)
  sects : ∀ {h h' x y}, h.map (TypeId.tr m₁) = h'.map (TypeId.tr m₂) → x.tr m₁ = y.tr m₂ → PR u nm m₁ m₂ w K (EqR (Sects.tr m₁) (Sects.tr m₂)) (parseSects u D₁ h x n) (parseSects u D₂ h' y m)
  sect : ∀ {h h' x y}, h.map (TypeId.tr m₁) = h'.map (TypeId.tr m₂) → x.tr m₁ = y.tr m₂ → PR u nm m₁ m₂ w K (EqR (Sects.tr m₁) (Sects.tr m₂)) (parseSect u D₁ h x n) (parseSect u D₂ h' y m)
  classFields : PR u nm m₁ m₂ w K (EqR (Fields.tr m₁) (Fields.tr m₂)) (parseClassFields u D₁ n) (parseClassFields u D₂ m)
  methods : PR u nm m₁ m₂ w K (EqR (Methods.tr m₁) (Methods.tr m₂)) (parseMethods u D₁ n) (parseMethods u D₂ m)
  heading : ∀ (a : Str), PR u nm m₁ m₂ w K (EqR (Heading.tr m₁) (Heading.tr m₂)) (parseHeading u D₁ a n) (parseHeading u D₂ a m)
  funcHeading : PR u nm m₁ m₂ w K (EqR (Heading.tr m₁) (Heading.tr m₂)) (parseFuncHeading u D₁ n) (parseFuncHeading u D₂ m)
  ctor : PR u nm m₁ m₂ w K (EqR (Heading.tr m₁) (Heading.tr m₂)) (parseConstructor u D₁ n) (parseConstructor u D₂ m)
  props : ∀ {h h' x y}, h.map (TypeId.tr m₁) = h'.map (TypeId.tr m₂) → x.tr m₁ = y.tr m₂ → PR u nm m₁ m₂ w K (EqR (TP.Props.tr m₁) (TP.Props.tr m₂)) (parseProps u D₁ h x n) (parseProps u D₂ h' y m)
  prop : ∀ {h h' x y}, h.map (TypeId.tr m₁) = h'.map (TypeId.tr m₂) → x.tr m₁ = y.tr m₂ → PR u nm m₁ m₂ w K (EqR (ClassProp.tr m₁) (ClassProp.tr m₂)) (parseProp u D₁ h x n) (parseProp u D₂ h' y m)
  intf : PR u nm m₁ m₂ w K (EqR (OptIntf.tr m₁) (OptIntf.tr m₂)) (parseIntf u D₁ n) (parseIntf u D₂ m)
  classField : PR u nm m₁ m₂ w K (fun a b => a.1.map m₁.id = b.1.map m₂.id ∧ a.2.tr m₁ = b.2.tr m₂) (parseClassField u D₁ n) (parseClassField u D₂ m)
  method : PR u nm m₁ m₂ w K (fun a b => a.1.tr m₁ = b.1.tr m₂ ∧ a.2.map m₁.str = b.2.map m₂.str) (parseMethod u D₁ n) (parseMethod u D₂ m)

theorem typeR_zero (m : Nat) : TypeR u nm m₁ m₂ w K D₁ D₂ 0 m := by
  constructor <;> intros <;> exact PR.wait

set_option hygiene false in
macro_rules | `(tactic| rel_leaf) => `(tactic| first
  | exact ih.type
  | exact ih.struc
  | exact ih.array _
  | exact ih.index
  | exact ih.indexTypes
  | exact ih.set _
  | exact ih.rec_ _
  | exact ih.fieldList _
  | exact ih.fields _
  | exact ih.variant
  | exact ih.variants
  | exact ih.procType
  | exact ih.optParams _ _
  | exact ih.params _ _
  | exact ih.paramList _
  | exact ih.paramTy
  | exact ih.classOrRef
  | exact ih.cls
  | exact ih.sects (by assumption) (by assumption)
  | exact ih.sect (by assumption) (by assumption)
  | exact ih.classFields
  | exact ih.methods
  | exact ih.heading _
  | exact ih.funcHeading
  | exact ih.ctor
  | exact ih.props (by assumption) (by assumption)
  | exact ih.prop (by assumption) (by assumption)
  | exact ih.intf
  | exact ih.classField
  | exact ih.method
  | exact PR.parseIdents _ hnm
  | exact PR.optSemi
  | exact PR.parseMethodDirectiveList S.str hnm
  | exact PR.parseVisibility
  | exact PR.parseParmOpt
  | exact PR.parseFuncWord
  | exact PR.parseOfObject
  | exact PR.parseDestructor
  | exact PR.parsePointer S
  | exact PR.parseClassRef S
  | exact PR.parseImplements S
  | exact PR.parseVariantIdent S
  | exact PR.parseTypeForIdent S hnm
  | exact PR.parseConstSubrange S hnm
  | exact PR.parseEnum S hnm
  | exact PR.parseStringType S hnm
  | exact PR.parseHeritage S hnm
  | exact PR.parsePropIndex S hnm
  | exact PR.parseParmDefault S hnm
  | exact PR.parseDefault S hnm
  | exact PR.parseConstExprs S hnm
  | exact PR.parseFile S _
  | exact PR.parseReturn S _
  | exact PR.parseAccessor S (by assumption) (by assumption)
  | exact PR.parseStored S (by assumption) (by assumption)
  | fail)

theorem TokR.isNum3 {a b : Token} (h : TokR u nm m₁ m₂ a b) {c d e : TType} :
    (a.typ = c ∨ a.typ = d ∨ a.typ = e) = (b.typ = c ∨ b.typ = d ∨ b.typ = e) := by rw [h.typ]

theorem TokR.isIn {a b : Token} (h : TokR u nm m₁ m₂ a b) {l : List Str} (hl : ∀ c ∈ l, Fixed c := by decide) :
    (l.contains (a.value u) = true) = (l.contains (b.value u) = true) := by
  simp only [List.contains_iff_mem]
  refine propext ⟨fun g => ?_, fun g => ?_⟩
  · rw [(h.fix _ (hl _ g)).1 rfl]; exact g
  · rw [(h.fix _ (hl _ g)).2 rfl]; exact g

macro_rules | `(tactic| rel_cond) => `(tactic| exact TokR.isNum3 (by assumption))
macro_rules | `(tactic| rel_cond) => `(tactic| exact TokR.isIn (by assumption))

set_option linter.unusedVariables false

theorem typeR_type (S : DSim u nm m₁ m₂ K D₁ D₂) {n m : Nat} (hnm : n ≤ m) (ih : TypeR u nm m₁ m₂ w K D₁ D₂ n m) :
    PR u nm m₁ m₂ w K (EqR (PType.tr m₁) (PType.tr m₂)) (parseType u D₁ (n + 1)) (parseType u D₂ (m + 1)) := by
  unfold parseType
  rel

theorem typeR_struc (S : DSim u nm m₁ m₂ K D₁ D₂) {n m : Nat} (hnm : n ≤ m) (ih : TypeR u nm m₁ m₂ w K D₁ D₂ n m) :
    PR u nm m₁ m₂ w K (EqR (PType.tr m₁) (PType.tr m₂)) (parseStruc u D₁ (n + 1)) (parseStruc u D₂ (m + 1)) := by
  unfold parseStruc
  have h0 : PP Eq (do if ← P.is (kw u r!"PACKED") then do { P.next; Pure.pure true } else Pure.pure false)
      (do if ← P.is (kw u r!"PACKED") then do { P.next; Pure.pure true } else Pure.pure false) := by rel
  rel

theorem typeR_array (S : DSim u nm m₁ m₂ K D₁ D₂) {n m : Nat} (hnm : n ≤ m) (ih : TypeR u nm m₁ m₂ w K D₁ D₂ n m) :
    ∀ (b : Bool), PR u nm m₁ m₂ w K (EqR (PType.tr m₁) (PType.tr m₂)) (parseArray u D₁ b (n + 1)) (parseArray u D₂ b (m + 1)) := by
  intros
  unfold parseArray
  rel

theorem typeR_index (S : DSim u nm m₁ m₂ K D₁ D₂) {n m : Nat} (hnm : n ≤ m) (ih : TypeR u nm m₁ m₂ w K D₁ D₂ n m) :
    PR u nm m₁ m₂ w K (EqR (OptPTypes.tr m₁) (OptPTypes.tr m₂)) (parseIndex u D₁ (n + 1)) (parseIndex u D₂ (m + 1)) := by
  unfold parseIndex
  rel

theorem typeR_indexTypes (S : DSim u nm m₁ m₂ K D₁ D₂) {n m : Nat} (hnm : n ≤ m) (ih : TypeR u nm m₁ m₂ w K D₁ D₂ n m) :
    PR u nm m₁ m₂ w K (EqR (PTypes.tr m₁) (PTypes.tr m₂)) (parseIndexTypes u D₁ (n + 1)) (parseIndexTypes u D₂ (m + 1)) := by
  unfold parseIndexTypes
  rel

theorem typeR_set (S : DSim u nm m₁ m₂ K D₁ D₂) {n m : Nat} (hnm : n ≤ m) (ih : TypeR u nm m₁ m₂ w K D₁ D₂ n m) :
    ∀ (b : Bool), PR u nm m₁ m₂ w K (EqR (PType.tr m₁) (PType.tr m₂)) (parseSet u D₁ b (n + 1)) (parseSet u D₂ b (m + 1)) := by
  intros
  unfold parseSet
  rel

theorem typeR_rec_ (S : DSim u nm m₁ m₂ K D₁ D₂) {n m : Nat} (hnm : n ≤ m) (ih : TypeR u nm m₁ m₂ w K D₁ D₂ n m) :
    ∀ (b : Bool), PR u nm m₁ m₂ w K (EqR (PType.tr m₁) (PType.tr m₂)) (parseRec u D₁ b (n + 1)) (parseRec u D₂ b (m + 1)) := by
  intros
  unfold parseRec
  rel

theorem typeR_fieldList (S : DSim u nm m₁ m₂ K D₁ D₂) {n m : Nat} (hnm : n ≤ m) (ih : TypeR u nm m₁ m₂ w K D₁ D₂ n m) :
    ∀ (p : Pred) [Resp u nm m₁ m₂ p], PR u nm m₁ m₂ w K (EqR (FieldList.tr m₁) (FieldList.tr m₂)) (parseFieldList u D₁ p (n + 1)) (parseFieldList u D₂ p (m + 1)) := by
  intros
  unfold parseFieldList
  rel

theorem typeR_fields (S : DSim u nm m₁ m₂ K D₁ D₂) {n m : Nat} (hnm : n ≤ m) (ih : TypeR u nm m₁ m₂ w K D₁ D₂ n m) :
    ∀ (p : Pred) [Resp u nm m₁ m₂ p], PR u nm m₁ m₂ w K (EqR (Fields.tr m₁) (Fields.tr m₂)) (parseFields u D₁ p (n + 1)) (parseFields u D₂ p (m + 1)) := by
  intro p hp
  unfold parseFields
  refine PR.cur.bind ?_
  rel_intro
  rename_i a b hab _ _
  refine PR.ite (by rw [(resp_kw r!"CASE").eq a b hab, hp.eq a b hab]) (fun _ _ => PR.pure rfl) (fun _ _ => ?_)
  rel

theorem typeR_variant (S : DSim u nm m₁ m₂ K D₁ D₂) {n m : Nat} (hnm : n ≤ m) (ih : TypeR u nm m₁ m₂ w K D₁ D₂ n m) :
    PR u nm m₁ m₂ w K (EqR (OptVariant.tr m₁) (OptVariant.tr m₂)) (parseVariant u D₁ (n + 1)) (parseVariant u D₂ (m + 1)) := by
  unfold parseVariant
  rel

theorem typeR_variants (S : DSim u nm m₁ m₂ K D₁ D₂) {n m : Nat} (hnm : n ≤ m) (ih : TypeR u nm m₁ m₂ w K D₁ D₂ n m) :
    PR u nm m₁ m₂ w K (EqR (Variants.tr m₁) (Variants.tr m₂)) (parseVariants u D₁ (n + 1)) (parseVariants u D₂ (m + 1)) := by
  unfold parseVariants
  rel

theorem typeR_procType (S : DSim u nm m₁ m₂ K D₁ D₂) {n m : Nat} (hnm : n ≤ m) (ih : TypeR u nm m₁ m₂ w K D₁ D₂ n m) :
    PR u nm m₁ m₂ w K (EqR (PType.tr m₁) (PType.tr m₂)) (parseProcType u D₁ (n + 1)) (parseProcType u D₂ (m + 1)) := by
  unfold parseProcType
  rel

theorem typeR_optParams (S : DSim u nm m₁ m₂ K D₁ D₂) {n m : Nat} (hnm : n ≤ m) (ih : TypeR u nm m₁ m₂ w K D₁ D₂ n m) :
    ∀ (a b : Str), PR u nm m₁ m₂ w K (EqR (OptParams.tr m₁) (OptParams.tr m₂)) (parseOptParams u D₁ a b (n + 1)) (parseOptParams u D₂ a b (m + 1)) := by
  intros
  unfold parseOptParams
  rel

theorem typeR_params (S : DSim u nm m₁ m₂ K D₁ D₂) {n m : Nat} (hnm : n ≤ m) (ih : TypeR u nm m₁ m₂ w K D₁ D₂ n m) :
    ∀ (a b : Str), PR u nm m₁ m₂ w K (EqR (Params.tr m₁) (Params.tr m₂)) (parseParams u D₁ a b (n + 1)) (parseParams u D₂ a b (m + 1)) := by
  intros
  unfold parseParams
  rel

theorem typeR_paramList (S : DSim u nm m₁ m₂ K D₁ D₂) {n m : Nat} (hnm : n ≤ m) (ih : TypeR u nm m₁ m₂ w K D₁ D₂ n m) :
    ∀ (a : Str), PR u nm m₁ m₂ w K (EqR (Params.tr m₁) (Params.tr m₂)) (parseParamList u D₁ a (n + 1)) (parseParamList u D₂ a (m + 1)) := by
  intros
  unfold parseParamList
  rel

theorem typeR_paramTy (S : DSim u nm m₁ m₂ K D₁ D₂) {n m : Nat} (hnm : n ≤ m) (ih : TypeR u nm m₁ m₂ w K D₁ D₂ n m) :
    PR u nm m₁ m₂ w K (EqR (ParamTy.tr m₁) (ParamTy.tr m₂)) (parseParamTy u D₁ (n + 1)) (parseParamTy u D₂ (m + 1)) := by
  unfold parseParamTy
  rel

theorem typeR_classOrRef (S : DSim u nm m₁ m₂ K D₁ D₂) {n m : Nat} (hnm : n ≤ m) (ih : TypeR u nm m₁ m₂ w K D₁ D₂ n m) :
    PR u nm m₁ m₂ w K (EqR (PType.tr m₁) (PType.tr m₂)) (parseClassOrRef u D₁ (n + 1)) (parseClassOrRef u D₂ (m + 1)) := by
  unfold parseClassOrRef
  rel

theorem typeR_cls (S : DSim u nm m₁ m₂ K D₁ D₂) {n m : Nat} (hnm : n ≤ m) (ih : TypeR u nm m₁ m₂ w K D₁ D₂ n m) :
    PR u nm m₁ m₂ w K (EqR (PType.tr m₁) (PType.tr m₂)) (parseClass u D₁ (n + 1)) (parseClass u D₂ (m + 1)) := by
  unfold parseClass
  refine PR.traced ((PR.parseHeritage S hnm).bind ?_)
  rel_intro
  rename_i hh
  rel
  refine (ih.sects hh rfl).traced.bind ?_
  rel_intro
  rel

theorem typeR_sects (S : DSim u nm m₁ m₂ K D₁ D₂) {n m : Nat} (hnm : n ≤ m) (ih : TypeR u nm m₁ m₂ w K D₁ D₂ n m) :
    ∀ {h h' x y}, h.map (TypeId.tr m₁) = h'.map (TypeId.tr m₂) → x.tr m₁ = y.tr m₂ → PR u nm m₁ m₂ w K (EqR (Sects.tr m₁) (Sects.tr m₂)) (parseSects u D₁ h x (n + 1)) (parseSects u D₂ h' y (m + 1)) := by
  intro h h' x y hh hx
  unfold parseSects
  rel

theorem typeR_sect (S : DSim u nm m₁ m₂ K D₁ D₂) {n m : Nat} (hnm : n ≤ m) (ih : TypeR u nm m₁ m₂ w K D₁ D₂ n m) :
    ∀ {h h' x y}, h.map (TypeId.tr m₁) = h'.map (TypeId.tr m₂) → x.tr m₁ = y.tr m₂ → PR u nm m₁ m₂ w K (EqR (Sects.tr m₁) (Sects.tr m₂)) (parseSect u D₁ h x (n + 1)) (parseSect u D₂ h' y (m + 1)) := by
  intro h h' x y hh hx
  unfold parseSect
  refine PR.parseVisibility.bind ?_
  rel_intro
  refine PR.is.bind ?_
  rel_intro
  refine PR.ite rfl (fun _ _ => by rel) (fun _ _ => ?_)
  refine ih.classFields.traced.bind ?_
  rel_intro
  refine ih.methods.traced.bind ?_
  rel_intro
  refine (ih.props hh (by rel_done)).traced.bind ?_
  rel_intro
  rel

theorem typeR_classFields (S : DSim u nm m₁ m₂ K D₁ D₂) {n m : Nat} (hnm : n ≤ m) (ih : TypeR u nm m₁ m₂ w K D₁ D₂ n m) :
    PR u nm m₁ m₂ w K (EqR (Fields.tr m₁) (Fields.tr m₂)) (parseClassFields u D₁ (n + 1)) (parseClassFields u D₂ (m + 1)) := by
  unfold parseClassFields
  refine PR.is.bind ?_
  rel_intro
  refine PR.ite rfl (fun _ _ => PR.pure rfl) (fun _ _ => ?_)
  refine ih.classField.traced.bind ?_
  rintro a b ⟨h1, h2⟩
  rel

theorem typeR_methods (S : DSim u nm m₁ m₂ K D₁ D₂) {n m : Nat} (hnm : n ≤ m) (ih : TypeR u nm m₁ m₂ w K D₁ D₂ n m) :
    PR u nm m₁ m₂ w K (EqR (Methods.tr m₁) (Methods.tr m₂)) (parseMethods u D₁ (n + 1)) (parseMethods u D₂ (m + 1)) := by
  unfold parseMethods
  refine PR.is.bind ?_
  rel_intro
  refine PR.ite rfl (fun _ _ => PR.pure rfl) (fun _ _ => ?_)
  refine ih.method.traced.bind ?_
  rintro a b ⟨h1, h2⟩
  rel

theorem typeR_heading (S : DSim u nm m₁ m₂ K D₁ D₂) {n m : Nat} (hnm : n ≤ m) (ih : TypeR u nm m₁ m₂ w K D₁ D₂ n m) :
    ∀ (a : Str), PR u nm m₁ m₂ w K (EqR (Heading.tr m₁) (Heading.tr m₂)) (parseHeading u D₁ a (n + 1)) (parseHeading u D₂ a (m + 1)) := by
  intro w
  unfold parseHeading
  rel

theorem typeR_funcHeading (S : DSim u nm m₁ m₂ K D₁ D₂) {n m : Nat} (hnm : n ≤ m) (ih : TypeR u nm m₁ m₂ w K D₁ D₂ n m) :
    PR u nm m₁ m₂ w K (EqR (Heading.tr m₁) (Heading.tr m₂)) (parseFuncHeading u D₁ (n + 1)) (parseFuncHeading u D₂ (m + 1)) := by
  unfold parseFuncHeading
  rel

theorem typeR_ctor (S : DSim u nm m₁ m₂ K D₁ D₂) {n m : Nat} (hnm : n ≤ m) (ih : TypeR u nm m₁ m₂ w K D₁ D₂ n m) :
    PR u nm m₁ m₂ w K (EqR (Heading.tr m₁) (Heading.tr m₂)) (parseConstructor u D₁ (n + 1)) (parseConstructor u D₂ (m + 1)) := by
  unfold parseConstructor
  rel

theorem typeR_props (S : DSim u nm m₁ m₂ K D₁ D₂) {n m : Nat} (hnm : n ≤ m) (ih : TypeR u nm m₁ m₂ w K D₁ D₂ n m) :
    ∀ {h h' x y}, h.map (TypeId.tr m₁) = h'.map (TypeId.tr m₂) → x.tr m₁ = y.tr m₂ → PR u nm m₁ m₂ w K (EqR (TP.Props.tr m₁) (TP.Props.tr m₂)) (parseProps u D₁ h x (n + 1)) (parseProps u D₂ h' y (m + 1)) := by
  intro h h' x y hh hx
  unfold parseProps
  rel

theorem typeR_prop (S : DSim u nm m₁ m₂ K D₁ D₂) {n m : Nat} (hnm : n ≤ m) (ih : TypeR u nm m₁ m₂ w K D₁ D₂ n m) :
    ∀ {h h' x y}, h.map (TypeId.tr m₁) = h'.map (TypeId.tr m₂) → x.tr m₁ = y.tr m₂ → PR u nm m₁ m₂ w K (EqR (ClassProp.tr m₁) (ClassProp.tr m₂)) (parseProp u D₁ h x (n + 1)) (parseProp u D₂ h' y (m + 1)) := by
  intro h h' x y hh hx
  unfold parseProp
  refine PR.current.bind fun _ _ _ => PR.next.bind fun _ _ _ => PR.cur.bind ?_
  rel_intro
  rename_i t t' ht hid _
  refine PR.traced (PR.next.bind fun _ _ _ => ih.intf.bind ?_)
  intro i1 i2 hi
  refine (PR.parsePropIndex S hnm).bind ?_
  intro x1 x2 hx'
  refine (PR.findProp S hh hx ht.raw).bind ?_
  intro par par' hpar
  refine (PR.parseAccessor S hh hx).bind ?_
  intro r1 r2 hr
  refine (PR.parseAccessor S hh hx).bind ?_
  intro w1 w2 hw
  refine (PR.parseStored S hh hx).bind ?_
  intro s1 s2 hs'
  refine (PR.parseDefault S hnm).bind ?_
  intro d1 d2 hd
  refine (PR.parseImplements S).bind ?_
  intro m1 m2 hm
  have h0 : ∀ p q, p.map (m₁.decl (Ident.ofTok t)) = q.map (m₂.decl (Ident.ofTok t')) → (ClassProp.mk (Ident.ofTok t) i1 x1 r1 w1 s1 d1 m1 p).tr m₁ = (ClassProp.mk (Ident.ofTok t') i2 x2 r2 w2 s2 d2 m2 q).tr m₂ := by
    intro p q hpq
    simp only [ClassProp.tr, *]
  intro s s' hs
  refine ⟨?_, hs⟩
  cases hpar with
  | none => exact h0 _ _ rfl
  | some hd =>
    rename_i d e
    dsimp only
    rw [S.inherits hs.cx (h0 none none rfl) hd.same]
    refine h0 _ _ ?_
    split
    · exact congrArg some (hd.refer _ _ ht .raw .raw)
    · rfl

theorem typeR_intf (S : DSim u nm m₁ m₂ K D₁ D₂) {n m : Nat} (hnm : n ≤ m) (ih : TypeR u nm m₁ m₂ w K D₁ D₂ n m) :
    PR u nm m₁ m₂ w K (EqR (OptIntf.tr m₁) (OptIntf.tr m₂)) (parseIntf u D₁ (n + 1)) (parseIntf u D₂ (m + 1)) := by
  unfold parseIntf
  rel

theorem typeR_classField (S : DSim u nm m₁ m₂ K D₁ D₂) {n m : Nat} (hnm : n ≤ m) (ih : TypeR u nm m₁ m₂ w K D₁ D₂ n m) :
    PR u nm m₁ m₂ w K (fun a b => a.1.map m₁.id = b.1.map m₂.id ∧ a.2.tr m₁ = b.2.tr m₂) (parseClassField u D₁ (n + 1)) (parseClassField u D₂ (m + 1)) := by
  unfold parseClassField
  refine (PR.parseIdents _ hnm).bind ?_
  rel_intro
  rename_i h1
  refine PR.next.bind fun _ _ _ => ih.type.bind ?_
  rel_intro
  rename_i h2
  exact PR.pure ⟨h1, h2⟩

theorem typeR_method (S : DSim u nm m₁ m₂ K D₁ D₂) {n m : Nat} (hnm : n ≤ m) (ih : TypeR u nm m₁ m₂ w K D₁ D₂ n m) :
    PR u nm m₁ m₂ w K (fun a b => a.1.tr m₁ = b.1.tr m₂ ∧ a.2.map m₁.str = b.2.map m₂.str) (parseMethod u D₁ (n + 1)) (parseMethod u D₂ (m + 1)) := by
  unfold parseMethod
  refine PR.current.bind ?_
  rintro a b ⟨hab, -, -⟩
  rw [hab.upv]
  refine PR.stacked S ?_
  refine (ih.heading _).bind ?_
  rel_intro
  rename_i h1
  refine (PR.parseMethodDirectiveList S.str hnm).bind ?_
  rel_intro
  rename_i h2
  exact PR.pure ⟨h1, h2⟩

theorem typeR_succ (S : DSim u nm m₁ m₂ K D₁ D₂) {n m : Nat} (hnm : n ≤ m) (ih : TypeR u nm m₁ m₂ w K D₁ D₂ n m) :
    TypeR u nm m₁ m₂ w K D₁ D₂ (n + 1) (m + 1) where
  type := typeR_type S hnm ih
  struc := typeR_struc S hnm ih
  array := typeR_array S hnm ih
  index := typeR_index S hnm ih
  indexTypes := typeR_indexTypes S hnm ih
  set := typeR_set S hnm ih
  rec_ := typeR_rec_ S hnm ih
  fieldList := typeR_fieldList S hnm ih
  fields := typeR_fields S hnm ih
  variant := typeR_variant S hnm ih
  variants := typeR_variants S hnm ih
  procType := typeR_procType S hnm ih
  optParams := typeR_optParams S hnm ih
  params := typeR_params S hnm ih
  paramList := typeR_paramList S hnm ih
  paramTy := typeR_paramTy S hnm ih
  classOrRef := typeR_classOrRef S hnm ih
  cls := typeR_cls S hnm ih
  sects := typeR_sects S hnm ih
  sect := typeR_sect S hnm ih
  classFields := typeR_classFields S hnm ih
  methods := typeR_methods S hnm ih
  heading := typeR_heading S hnm ih
  funcHeading := typeR_funcHeading S hnm ih
  ctor := typeR_ctor S hnm ih
  props := typeR_props S hnm ih
  prop := typeR_prop S hnm ih
  intf := typeR_intf S hnm ih
  classField := typeR_classField S hnm ih
  method := typeR_method S hnm ih

theorem typeR (S : DSim u nm m₁ m₂ K D₁ D₂) : ∀ {n m : Nat}, n ≤ m → TypeR u nm m₁ m₂ w K D₁ D₂ n m
  | 0, m, _ => typeR_zero m
  | _ + 1, _ + 1, h => typeR_succ S (Nat.le_of_succ_le_succ h) (typeR S (Nat.le_of_succ_le_succ h))

end TP
