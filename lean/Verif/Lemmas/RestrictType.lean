import Verif.Lemmas.Restrict

/-!
# What types declare
-/

namespace TP
open Spec

variable {κ δ : Type} {u : Uni} {D : DEnv κ δ} {S : Dcl δ → Prop} {F : κ → Prop} {okS : κ → List Ident → DKind δ → Prop} {okC : κ → Ident → PType δ → Prop}

/-- what is in the lists -/
macro "dcl" : tactic => `(tactic| (
  intros
  rename_i x hx
  simp only [dclType, dclOptTypes, dclTypes, dclFieldList, dclFields, dclOptVariant, dclVariants, dclOptParams, dclParams,
    dclParamTy, dclSects, dclMethods, dclHeading, dclProps, dclProp, dclOptIntf, dcls, List.map_cons, List.map_nil, Option.toList, List.mem_append, List.mem_cons,
    List.not_mem_nil, List.nil_append, List.append_nil, or_false, false_or, List.flatMap_cons, List.flatMap_nil, id_eq] at hx ⊢
  try tauto))

/-- the steps of a parser; the terms are about the parsers it calls -/
syntax "re " "[" term,* "]" : tactic
macro_rules
  | `(tactic| re [$ts,*]) => do
    let alts ← ts.getElems.mapM fun t => `(tactic| exact $t)
    let alts := alts.push (← `(tactic| fail))
    `(tactic| repeat' (first
      | exact Re.fail
      | exact Re.wait
      | refine Re.last (by first $[| $alts:tactic]*) (by dcl; done)
      | refine Re.ite ?_ ?_
      | refine Re.step (by quiet') fun _ => ?_
      | refine Re.bind (by first $[| $alts:tactic]*) fun _ => ?_
      | exact Re.pure (by dcl; done)
      | split))

section
variable (B : ReBase u D S F okS okC)
include B
local notation "D'" => (DEnv.restrict D okS okC)

theorem typeForIdent_re (n : Nat) : Re S F [] (parseTypeForIdent u D n) (parseTypeForIdent u (D') n) dclType :=
  Re.calm (typeForIdent_tr B.calm n)

theorem pointer_re : Re S F [] (parsePointer u D) (parsePointer u (D')) dclType := Re.calm (pointer_tr B.calm)

theorem file_re (p : Bool) : Re S F [] (parseFile u D p) (parseFile u (D') p) dclType := Re.calm (file_tr B.calm p)

theorem constSubrange_re (n : Nat) : Re S F [] (parseConstSubrange u D n) (parseConstSubrange u (D') n) dclType :=
  Re.calm (constSubrange_tr B.calm n)

theorem expr_re (n : Nat) : Re S F [] (parseExpr u D.toEnv n) (parseExpr u (D').toEnv n) (fun _ => []) := Re.calm (Tr.expr B.calm n)

theorem enumElem_re (n : Nat) : Re S F [] (parseEnumElem u D n) (parseEnumElem u (D') n) (fun e => [.named .enumElem e.ident]) := by
  unfold parseEnumElem
  have : Re S F [] (do
    if ← P.is (sym r!"=") then do
      P.next
      let e ← parseExpr u D.toEnv n
      pure (some e)
    else pure none : P κ (Option (Expr δ))) (do
    if ← P.is (sym r!"=") then do
      P.next
      let e ← parseExpr u (D').toEnv n
      pure (some e)
    else pure none : P κ (Option (Expr δ))) (fun _ => []) := by
    re [expr_re B n]
  re [this, Re.setDecl B]

theorem enumElems_re : ∀ n : Nat, Re S F [] (parseEnumElems u D n) (parseEnumElems u (D') n) (fun es => es.map fun e => .named .enumElem e.ident) := by
  intro n
  induction n with
  | zero => exact Re.wait
  | succ n ih =>
    unfold parseEnumElems
    re [enumElem_re B n, ih]

theorem enum_re (n : Nat) : Re S F [] (parseEnum u D n) (parseEnum u (D') n) dclType := by
  unfold parseEnum
  re [enumElems_re B n]

theorem stringType_re (n : Nat) : Re S F [] (parseStringType u D n) (parseStringType u (D') n) dclType := Re.calm (stringType_tr B.calm n)

theorem classRef_re : Re S F [] (parseClassRef u D) (parseClassRef u (D')) dclType := Re.calm (classRef_tr B.calm)

theorem typeId_re : Re S F [] (parseTypeId u D) (parseTypeId u (D')) (fun _ => []) := Re.calm (typeId_tr B.calm)

theorem typeIds_re : ∀ n : Nat, Re S F [] (parseTypeIds u D n) (parseTypeIds u (D') n) (fun _ => []) := by
  intro n
  induction n with
  | zero => exact Re.wait
  | succ n ih =>
    unfold parseTypeIds
    re [typeId_re B, ih]

theorem heritage_re (n : Nat) : Re S F [] (parseHeritage u D n) (parseHeritage u (D') n) (fun _ => []) := by
  unfold parseHeritage
  refine Re.traced ?_
  re [typeIds_re B n]

theorem propIndex_re (n : Nat) : Re S F [] (parsePropIndex u D n) (parsePropIndex u (D') n) (fun _ => []) := Re.calm (propIndex_tr B.calm n)

theorem default_re (n : Nat) : Re S F [] (parseDefault u D n) (parseDefault u (D') n) (fun _ => []) := Re.calm (default_tr B.calm n)

theorem implements_re : Re S F [] (parseImplements u D) (parseImplements u (D')) (fun _ => []) := Re.calm (implements_tr B.calm)

theorem parmDefault_re (n : Nat) : Re S F [] (parseParmDefault u D n) (parseParmDefault u (D') n) (fun _ => []) := Re.calm (parmDefault_tr B.calm n)

theorem return_re (fn : Bool) : Re S F [] (parseReturn u D fn) (parseReturn u (D') fn) (fun _ => []) := Re.calm (return_tr B.calm fn)

theorem destructor_re : Re S F [] (parseDestructor u) (parseDestructor u) (dclHeading (δ := δ)) := Re.calm (destructor_tr B.calm)

theorem variantIdent_re : Re S F [] (parseVariantIdent D) (parseVariantIdent (D')) (fun _ => []) := Re.calm (variantIdent_tr B.calm)

theorem constExprs_re : ∀ n : Nat, Re S F [] (parseConstExprs u D n) (parseConstExprs u (D') n) (fun _ => []) := by
  intro n
  induction n with
  | zero => exact Re.wait
  | succ n ih =>
    unfold parseConstExprs
    re [expr_re B n, ih]

end

theorem dcl_add {vis : Visibility} {fs : Fields δ} {ms : Methods δ} {ps : Props δ} : ∀ {s : Sects δ} {t : Dcl δ},
    (t ∈ dclSects s ∨ t ∈ dclFields fs ∨ t ∈ dclMethods ms ∨ t ∈ dclProps ps) → t ∈ dclSects (s.add vis fs ms ps)
  | .nil, t, h => by
    simp only [Sects.add, dclSects, List.mem_append, List.append_nil, List.not_mem_nil, false_or] at h ⊢
    tauto
  | .cons v f m p rest, t, h => by
    simp only [Sects.add, dclSects, List.mem_append] at h ⊢
    have := dcl_add (s := rest) (t := t) (vis := vis) (fs := fs) (ms := ms) (ps := ps)
    tauto

local notation "D'" => (DEnv.restrict D okS okC)

variable (u D S F okS okC) in
/-- all parsers of types with fuel `n` -/
structure TypesRe (n : Nat) : Prop where
  type : Re S F [] (parseType u D n) (parseType u (D')  n) dclType
  struc : Re S F [] (parseStruc u D n) (parseStruc u (D')  n) dclType
  array : ∀ p, Re S F [] (parseArray u D p n) (parseArray u (D')  p n) dclType
  index : Re S F [] (parseIndex u D n) (parseIndex u (D')  n) dclOptTypes
  indexTypes : Re S F [] (parseIndexTypes u D n) (parseIndexTypes u (D')  n) dclTypes
  set : ∀ p, Re S F [] (parseSet u D p n) (parseSet u (D')  p n) dclType
  rec' : ∀ p, Re S F [] (parseRec u D p n) (parseRec u (D')  p n) dclType
  fieldList : ∀ t, Re S F [] (parseFieldList u D t n) (parseFieldList u (D')  t n) dclFieldList
  fields : ∀ t, Re S F [] (parseFields u D t n) (parseFields u (D')  t n) dclFields
  variant : Re S F [] (parseVariant u D n) (parseVariant u (D')  n) dclOptVariant
  variants : Re S F [] (parseVariants u D n) (parseVariants u (D')  n) dclVariants
  procType : Re S F [] (parseProcType u D n) (parseProcType u (D')  n) dclType
  optParams : ∀ a b, Re S F [] (parseOptParams u D a b n) (parseOptParams u (D')  a b n) dclOptParams
  params : ∀ a b, Re S F [] (parseParams u D a b n) (parseParams u (D')  a b n) dclParams
  paramList : ∀ b, Re S F [] (parseParamList u D b n) (parseParamList u (D')  b n) dclParams
  paramTy : Re S F [] (parseParamTy u D n) (parseParamTy u (D')  n) dclParamTy
  classOrRef : Re S F [] (parseClassOrRef u D n) (parseClassOrRef u (D')  n) dclType
  cls : Re S F [] (parseClass u D n) (parseClass u (D')  n) dclType
  sects : ∀ h p, Re S F (dclSects p) (parseSects u D h p n) (parseSects u (D') h p n) dclSects
  sect : ∀ h p, Re S F (dclSects p) (parseSect u D h p n) (parseSect u (D') h p n) dclSects
  classFields : Re S F [] (parseClassFields u D n) (parseClassFields u (D')  n) dclFields
  classField : Re S F [] (parseClassField u D n) (parseClassField u (D')  n) (fun f => dclType f.2)
  methods : Re S F [] (parseMethods u D n) (parseMethods u (D')  n) dclMethods
  method : Re S F [] (parseMethod u D n) (parseMethod u (D')  n) (fun m => dclHeading m.1)
  heading : ∀ w, Re S F [] (parseHeading u D w n) (parseHeading u (D')  w n) dclHeading
  funcHeading : Re S F [] (parseFuncHeading u D n) (parseFuncHeading u (D')  n) dclHeading
  ctor : Re S F [] (parseConstructor u D n) (parseConstructor u (D')  n) dclHeading
  props : ∀ h ms, Re S F [] (parseProps u D h ms n) (parseProps u (D')  h ms n) dclProps
  prop : ∀ h ms, Re S F [] (parseProp u D h ms n) (parseProp u (D')  h ms n) dclProp
  intf : Re S F [] (parseIntf u D n) (parseIntf u (D')  n) dclOptIntf

set_option maxHeartbeats 2000000 in
theorem typesRe (B : ReBase u D S F okS okC) : ∀ n, TypesRe u D S F okS okC n := by
  intro n
  induction n with
  | zero =>
    constructor
    all_goals intros
    all_goals first
      | (unfold parseType; exact Re.wait) | (unfold parseStruc; exact Re.wait) | (unfold parseArray; exact Re.wait)
      | (unfold parseIndex; exact Re.wait) | (unfold parseIndexTypes; exact Re.wait) | (unfold parseSet; exact Re.wait)
      | (unfold parseRec; exact Re.wait) | (unfold parseFieldList; exact Re.wait) | (unfold parseFields; exact Re.wait)
      | (unfold parseVariant; exact Re.wait) | (unfold parseVariants; exact Re.wait) | (unfold parseProcType; exact Re.wait)
      | (unfold parseOptParams; exact Re.wait) | (unfold parseParams; exact Re.wait) | (unfold parseParamList; exact Re.wait)
      | (unfold parseParamTy; exact Re.wait) | (unfold parseClassOrRef; exact Re.wait) | (unfold parseClass; exact Re.wait)
      | (unfold parseSects; exact Re.wait) | (unfold parseSect; exact Re.wait) | (unfold parseClassFields; exact Re.wait)
      | (unfold parseClassField; exact Re.wait) | (unfold parseMethods; exact Re.wait) | (unfold parseMethod; exact Re.wait)
      | (unfold parseHeading; exact Re.wait) | (unfold parseFuncHeading; exact Re.wait) | (unfold parseConstructor; exact Re.wait)
      | (unfold parseProps; exact Re.wait) | (unfold parseProp; exact Re.wait) | (unfold parseIntf; exact Re.wait)
  | succ n ih =>
    constructor
    case type => unfold parseType; re [enum_re B n, pointer_re B, typeForIdent_re B n, constSubrange_re B n, ih.struc, ih.procType, ih.classOrRef, stringType_re B n]
    case struc =>
      unfold parseStruc
      have : Quiet (do
        if ← P.is (kw u r!"PACKED") then do
          P.next
          pure true
        else pure false : P κ Bool) := by quiets
      re [ih.array _, ih.set _, ih.rec' _, file_re B _]
    case array => intro p; unfold parseArray; re [ih.index, ih.type]
    case index => unfold parseIndex; re [ih.indexTypes]
    case indexTypes => unfold parseIndexTypes; re [ih.type, ih.indexTypes]
    case set => intro p; unfold parseSet; re [ih.type]
    case rec' => intro p; unfold parseRec; re [ih.fieldList _]
    case fieldList => intro t; unfold parseFieldList; re [ih.fields _, ih.variant]
    case fields => intro t; unfold parseFields; re [ih.type, ih.fields _]
    case variant => unfold parseVariant; re [variantIdent_re B, ih.type, ih.variants]
    case variants => unfold parseVariants; re [constExprs_re B n, ih.fieldList _, ih.variants]
    case procType =>
      unfold parseProcType
      refine Re.step quiet_funcWord fun _ => Re.stacked B ?_
      re [ih.optParams _ _, return_re B _]
    case optParams => intro a b; unfold parseOptParams; re [ih.params _ _]
    case params => intro a b; unfold parseParams; re [ih.paramList _]
    case paramList => intro b; unfold parseParamList; re [ih.paramTy, parmDefault_re B n, Re.setDecl B, ih.paramList _]
    case paramTy => unfold parseParamTy; re [ih.type]
    case classOrRef => unfold parseClassOrRef; refine Re.traced ?_; re [classRef_re B, ih.cls]
    case cls =>
      unfold parseClass
      refine Re.traced ?_
      re [heritage_re B n, Re.traced (ih.sects _ .nil)]
    case sects =>
      intro h p
      unfold parseSects
      refine Re.bind2 (Re.traced (ih.sect h p)) fun ms => ?_
      refine Re.step quiet_cur? fun o => ?_
      split
      · exact Re.fail
      · exact Re.ite (Re.pure fun _ h => h) (ih.sects _ _)
    case sect =>
      intro h p
      unfold parseSect
      refine Re.step quiet_visibility fun vis => Re.step (quiet_is _) fun c => Re.ite ?_ ?_
      · exact Re.pure fun t ht => dcl_add (.inl ht)
      · refine Re.bind (Re.traced ih.classFields) fun fs => ?_
        refine Re.bind (Re.traced ih.methods) fun ms => ?_
        refine Re.bind (Re.traced (ih.props _ _)) fun ps => ?_
        refine Re.pure fun t ht => dcl_add ?_
        simp only [List.mem_append] at ht
        tauto
    case classFields => unfold parseClassFields; re [Re.traced ih.classField, ih.classFields]
    case classField => unfold parseClassField; re [ih.type]
    case methods => unfold parseMethods; re [Re.traced ih.method, ih.methods]
    case method =>
      unfold parseMethod
      refine Re.step (quiet_current _) fun _ => Re.stacked B ?_
      re [ih.heading _]
    case heading =>
      intro w; unfold parseHeading
      re [ih.funcHeading, Re.traced ih.ctor, destructor_re B]
    case funcHeading =>
      unfold parseFuncHeading
      refine Re.step quiet_funcWord fun _ => Re.step (quiet_nextIs _) fun _ => Re.traced ?_
      re [ih.optParams _ _, return_re B _]
    case ctor => unfold parseConstructor; re [ih.optParams _ _]
    case props => intro h ms; unfold parseProps; re [ih.prop _ _, ih.props _ _]
    case prop =>
      intro h ms
      unfold parseProp
      refine Re.step (quiet_current _) fun _ => Re.step quiet_next fun _ => Re.step quiet_cur fun t => Re.traced ?_
      re [ih.intf, propIndex_re B n, default_re B n, implements_re B]
      all_goals
        intro s b s' e hb hF
        cases e
        refine ⟨fun x hx => hb x ?_, hF, rfl⟩
        revert hx; revert x; dcl
    case intf =>
      unfold parseIntf
      refine Re.step (quiet_is _) fun _ => Re.ite (Re.stacked B ?_) ?_
      · re [ih.params _ _, typeId_re B]
      · re [typeId_re B]

end TP
