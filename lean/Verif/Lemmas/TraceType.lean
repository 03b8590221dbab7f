import Verif.Lemmas.Trace
import Mathlib.Tactic.Tauto

/-!
# The type identifiers of a parsed type
-/

namespace TP
open Spec

variable {κ δ : Type} {u : Uni} {D : DEnv κ δ} {I : κ → Prop} {E : κ → κ → Prop} {V : κ → TypeId δ → Prop}

/-- what is in the lists -/
macro "ids" : tactic => `(tactic| (
  intro x hx
  simp only [idsType, idsOptTypes, idsTypes, idsFieldList, idsFields, idsOptVariant, idsVariants, idsOptParams, idsParams,
    idsParamTy, idsSects, idsMethods, idsHeading, idsProps, idsProp, idsOptIntf, Option.toList, List.mem_append, List.mem_cons,
    List.not_mem_nil, List.nil_append, List.append_nil, or_false, false_or, List.flatMap_cons, List.flatMap_nil, id_eq] at hx ⊢
  try tauto))

/-- leaves the context -/
macro "quiet'" : tactic => `(tactic| first
  | quiet
  | exact quiet_idents _
  | exact quiet_optSemi
  | exact quiet_parmOpt
  | exact quiet_funcWord
  | exact quiet_ofObject
  | exact quiet_visibility
  | exact quiet_accessor
  | exact quiet_stored
  | exact quiet_directiveList _)

/-- the steps of a parser; the terms are about the parsers it calls -/
syntax "tr " "[" term,* "]" : tactic
macro_rules
  | `(tactic| tr [$ts,*]) => do
    let alts ← ts.getElems.mapM fun t => `(tactic| exact $t)
    let alts := alts.push (← `(tactic| fail))
    `(tactic| repeat' (first
      | exact Tr.fail
      | exact Tr.wait
      | refine Tr.any (by first $[| $alts:tactic]*) _
      | refine Tr.ite ?_ ?_
      | refine Tr.step (by assumption) (by quiet') fun _ => ?_
      | refine Tr.bind (by assumption) (Tr.any (by first $[| $alts:tactic]*) _) fun _ => ?_
      | exact Tr.pure (by assumption) (by ids)
      | split))

section
variable (B : TrBase u D I E V)
include B

theorem typeForIdent_tr (n : Nat) : Tr I E V [] (parseTypeForIdent u D n) idsType := by
  unfold parseTypeForIdent
  tr [typeIdWithUnit_tr B, emb_tr B _, subrangeIdent_tr B n, typeIdWithoutUnit_tr B]

theorem pointer_tr : Tr I E V [] (parsePointer u D) idsType := by
  unfold parsePointer
  tr [typeId_tr B]

theorem file_tr (p : Bool) : Tr I E V [] (parseFile u D p) idsType := by
  unfold parseFile
  tr [typeId_tr B]

theorem constSubrange_tr (n : Nat) : Tr I E V [] (parseConstSubrange u D n) idsType := by
  unfold parseConstSubrange
  tr [Tr.expr B n]

theorem enumElem_tr (n : Nat) : Tr I E V [] (parseEnumElem u D n) (fun _ => []) := by
  unfold parseEnumElem
  have : Tr I E V [] (do
    if ← P.is (sym r!"=") then do
      P.next
      let e ← parseExpr u D.toEnv n
      pure (some e)
    else pure none : P κ (Option (Expr δ))) (fun _ => []) := by
    tr [Tr.expr B n]
  tr [this, Tr.setDecl B (.inl rfl)]

theorem enumElems_tr : ∀ n : Nat, Tr I E V [] (parseEnumElems u D n) (fun _ => []) := by
  intro n
  induction n with
  | zero => exact Tr.wait
  | succ n ih =>
    unfold parseEnumElems
    tr [enumElem_tr B n, ih]

theorem enum_tr (n : Nat) : Tr I E V [] (parseEnum u D n) idsType := by
  unfold parseEnum
  tr [enumElems_tr B n]

theorem stringType_tr (n : Nat) : Tr I E V [] (parseStringType u D n) idsType := by
  unfold parseStringType
  refine Tr.step B quiet_cur fun t => ?_
  cases hk : D.emb .string (t.value u) with
  | none => tr []
  | some d =>
    refine Tr.step B quiet_next fun _ => ?_
    refine Tr.step B (quiet_is _) fun c => Tr.ite ?_ ?_
    · tr [Tr.expr B n]
    · intro s hi hv b s' e
      cases e
      refine ⟨hi, B.refl _, fun x hx => ?_⟩
      have : x = ⟨none, Ident.ofTok t, .now d⟩ := by simpa [idsType] using hx
      rw [this]; exact B.emb hi hk

theorem classRef_tr : Tr I E V [] (parseClassRef u D) idsType := by
  unfold parseClassRef
  tr []

theorem typeIds_tr : ∀ n : Nat, Tr I E V [] (parseTypeIds u D n) id := by
  intro n
  induction n with
  | zero => exact Tr.wait
  | succ n ih =>
    unfold parseTypeIds
    tr [typeId_tr B, ih]

theorem heritage_tr (n : Nat) : Tr I E V [] (parseHeritage u D n) id := by
  unfold parseHeritage
  refine Tr.traced B ?_
  tr [typeIds_tr B n]

theorem propIndex_tr (n : Nat) : Tr I E V [] (parsePropIndex u D n) (fun _ => []) := by
  unfold parsePropIndex
  tr [Tr.expr B n]

theorem default_tr (n : Nat) : Tr I E V [] (parseDefault u D n) (fun _ => []) := by
  unfold parseDefault
  tr [Tr.expr B n]

theorem implements_tr : Tr I E V [] (parseImplements u D) Option.toList := by
  unfold parseImplements
  tr [typeId_tr B]

theorem parmDefault_tr (n : Nat) : Tr I E V [] (parseParmDefault u D n) (fun _ => []) := by
  unfold parseParmDefault
  tr [Tr.expr B n]

theorem return_tr (fn : Bool) : Tr I E V [] (parseReturn u D fn) Option.toList := by
  unfold parseReturn
  tr [typeId_tr B]

theorem destructor_tr : Tr I E V [] (parseDestructor u) (idsHeading (δ := δ)) := by
  unfold parseDestructor
  refine Tr.traced B ?_
  tr []

theorem constExprs_tr : ∀ n : Nat, Tr I E V [] (parseConstExprs u D n) (fun _ => []) := by
  intro n
  induction n with
  | zero => exact Tr.wait
  | succ n ih =>
    unfold parseConstExprs
    tr [Tr.expr B n, ih]

omit B in
theorem ids_add {vis : Visibility} {fs : Fields δ} {ms : Methods δ} {ps : Props δ} : ∀ {s : Sects δ} {t : TypeId δ},
    t ∈ idsSects (s.add vis fs ms ps) → t ∈ idsSects s ∨ t ∈ idsFields fs ∨ t ∈ idsMethods ms ∨ t ∈ idsProps ps
  | .nil, t, h => by
    simp only [Sects.add, idsSects, List.mem_append, List.append_nil] at h ⊢
    tauto
  | .cons v f m p rest, t, h => by
    simp only [Sects.add, idsSects, List.mem_append] at h ⊢
    have := ids_add (s := rest) (t := t) (vis := vis) (fs := fs) (ms := ms) (ps := ps)
    tauto

end

variable (u D I E V) in
/-- all parsers of types with fuel `n` -/
structure TypesTr (n : Nat) : Prop where
  type : Tr I E V [] (parseType u D n) idsType
  struc : Tr I E V [] (parseStruc u D n) idsType
  array : ∀ p, Tr I E V [] (parseArray u D p n) idsType
  index : Tr I E V [] (parseIndex u D n) idsOptTypes
  indexTypes : Tr I E V [] (parseIndexTypes u D n) idsTypes
  set : ∀ p, Tr I E V [] (parseSet u D p n) idsType
  rec' : ∀ p, Tr I E V [] (parseRec u D p n) idsType
  fieldList : ∀ t, Tr I E V [] (parseFieldList u D t n) idsFieldList
  fields : ∀ t, Tr I E V [] (parseFields u D t n) idsFields
  variant : Tr I E V [] (parseVariant u D n) idsOptVariant
  variants : Tr I E V [] (parseVariants u D n) idsVariants
  procType : Tr I E V [] (parseProcType u D n) idsType
  optParams : ∀ a b, Tr I E V [] (parseOptParams u D a b n) idsOptParams
  params : ∀ a b, Tr I E V [] (parseParams u D a b n) idsParams
  paramList : ∀ b, Tr I E V [] (parseParamList u D b n) idsParams
  paramTy : Tr I E V [] (parseParamTy u D n) idsParamTy
  classOrRef : Tr I E V [] (parseClassOrRef u D n) idsType
  cls : Tr I E V [] (parseClass u D n) idsType
  sects : ∀ h p hs, (∀ t ∈ idsSects p, t ∈ hs) → Tr I E V hs (parseSects u D h p n) idsSects
  sect : ∀ h p hs, (∀ t ∈ idsSects p, t ∈ hs) → Tr I E V hs (parseSect u D h p n) idsSects
  classFields : Tr I E V [] (parseClassFields u D n) idsFields
  classField : Tr I E V [] (parseClassField u D n) (fun f => idsType f.2)
  methods : Tr I E V [] (parseMethods u D n) idsMethods
  method : Tr I E V [] (parseMethod u D n) (fun m => idsHeading m.1)
  heading : ∀ w, Tr I E V [] (parseHeading u D w n) idsHeading
  funcHeading : Tr I E V [] (parseFuncHeading u D n) idsHeading
  ctor : Tr I E V [] (parseConstructor u D n) idsHeading
  props : ∀ h ms, Tr I E V [] (parseProps u D h ms n) idsProps
  prop : ∀ h ms, Tr I E V [] (parseProp u D h ms n) idsProp
  intf : Tr I E V [] (parseIntf u D n) idsOptIntf

theorem typesTr (B : TrBase u D I E V) : ∀ n, TypesTr u D I E V n := by
  intro n
  induction n with
  | zero =>
    constructor
    all_goals intros
    all_goals first
      | (unfold parseType; exact Tr.wait) | (unfold parseStruc; exact Tr.wait) | (unfold parseArray; exact Tr.wait)
      | (unfold parseIndex; exact Tr.wait) | (unfold parseIndexTypes; exact Tr.wait) | (unfold parseSet; exact Tr.wait)
      | (unfold parseRec; exact Tr.wait) | (unfold parseFieldList; exact Tr.wait) | (unfold parseFields; exact Tr.wait)
      | (unfold parseVariant; exact Tr.wait) | (unfold parseVariants; exact Tr.wait) | (unfold parseProcType; exact Tr.wait)
      | (unfold parseOptParams; exact Tr.wait) | (unfold parseParams; exact Tr.wait) | (unfold parseParamList; exact Tr.wait)
      | (unfold parseParamTy; exact Tr.wait) | (unfold parseClassOrRef; exact Tr.wait) | (unfold parseClass; exact Tr.wait)
      | (unfold parseSects; exact Tr.wait) | (unfold parseSect; exact Tr.wait) | (unfold parseClassFields; exact Tr.wait)
      | (unfold parseClassField; exact Tr.wait) | (unfold parseMethods; exact Tr.wait) | (unfold parseMethod; exact Tr.wait)
      | (unfold parseHeading; exact Tr.wait) | (unfold parseFuncHeading; exact Tr.wait) | (unfold parseConstructor; exact Tr.wait)
      | (unfold parseProps; exact Tr.wait) | (unfold parseProp; exact Tr.wait) | (unfold parseIntf; exact Tr.wait)
  | succ n ih =>
    constructor
    case type => unfold parseType; tr [enum_tr B n, pointer_tr B, typeForIdent_tr B n, constSubrange_tr B n, ih.struc, ih.procType, ih.classOrRef, stringType_tr B n]
    case struc =>
      unfold parseStruc
      have : Quiet (do
        if ← P.is (kw u r!"PACKED") then do
          P.next
          pure true
        else pure false : P κ Bool) := by quiets
      tr [ih.array _, ih.set _, ih.rec' _, file_tr B _]
    case array => intro p; unfold parseArray; tr [ih.index, ih.type]
    case index => unfold parseIndex; tr [ih.indexTypes]
    case indexTypes => unfold parseIndexTypes; tr [ih.type, ih.indexTypes]
    case set => intro p; unfold parseSet; tr [ih.type]
    case rec' => intro p; unfold parseRec; tr [ih.fieldList _]
    case fieldList => intro t; unfold parseFieldList; tr [ih.fields _, ih.variant]
    case fields => intro t; unfold parseFields; tr [ih.type, ih.fields _]
    case variant => unfold parseVariant; tr [variantIdent_tr B, ih.type, ih.variants]
    case variants => unfold parseVariants; tr [constExprs_tr B n, ih.fieldList _, ih.variants]
    case procType =>
      unfold parseProcType
      refine Tr.step B quiet_funcWord fun _ => Tr.stacked B ?_
      tr [ih.optParams _ _, return_tr B _]
    case optParams => intro a b; unfold parseOptParams; tr [ih.params _ _]
    case params => intro a b; unfold parseParams; tr [ih.paramList _]
    case paramList => intro b; unfold parseParamList; tr [ih.paramTy, parmDefault_tr B n, Tr.setDecl B (.inr rfl), ih.paramList _]
    case paramTy => unfold parseParamTy; tr [ih.type]
    case classOrRef => unfold parseClassOrRef; refine Tr.traced B ?_; tr [classRef_tr B, ih.cls]
    case cls =>
      unfold parseClass
      refine Tr.traced B ?_
      tr [heritage_tr B n, Tr.traced B (ih.sects _ .nil [] (by ids))]
    case sects =>
      intro h p hs hp
      unfold parseSects
      refine Tr.bind B (Tr.traced B (ih.sect h p hs hp)) fun ms => ?_
      refine Tr.step B quiet_cur? fun o => ?_
      split
      · exact Tr.fail
      · exact Tr.ite (Tr.pure B (by ids)) (ih.sects _ _ _ (by ids))
    case sect =>
      intro h p hs hp
      unfold parseSect
      refine Tr.step B quiet_visibility fun vis => Tr.step B (quiet_is _) fun c => Tr.ite ?_ ?_
      · refine Tr.pure B fun t ht => ?_
        have := ids_add ht
        simp only [idsFields, idsMethods, idsProps, List.not_mem_nil, or_false] at this
        exact hp t this
      · refine Tr.bind B ((Tr.traced B ih.classFields).any _) fun fs => ?_
        refine Tr.bind B ((Tr.traced B ih.methods).any _) fun ms => ?_
        refine Tr.bind B ((Tr.traced B (ih.props _ _)).any _) fun ps => ?_
        refine Tr.pure B fun t ht => ?_
        simp only [List.mem_append]
        rcases ids_add ht with h | h | h | h
        · exact .inr (.inr (.inr (hp t h)))
        · exact .inr (.inr (.inl h))
        · exact .inr (.inl h)
        · exact .inl h
    case classFields => unfold parseClassFields; tr [Tr.traced B ih.classField, ih.classFields]
    case classField => unfold parseClassField; tr [ih.type]
    case methods => unfold parseMethods; tr [Tr.traced B ih.method, ih.methods]
    case method =>
      unfold parseMethod
      refine Tr.step B (quiet_current _) fun _ => Tr.stacked B ?_
      tr [ih.heading _]
    case heading =>
      intro w; unfold parseHeading
      tr [ih.funcHeading, Tr.traced B ih.ctor, destructor_tr B]
    case funcHeading =>
      unfold parseFuncHeading
      refine Tr.step B quiet_funcWord fun _ => Tr.step B (quiet_nextIs _) fun _ => Tr.traced B ?_
      tr [ih.optParams _ _, return_tr B _]
    case ctor => unfold parseConstructor; tr [ih.optParams _ _]
    case props => intro h ms; unfold parseProps; tr [ih.prop _ _, ih.props _ _]
    case prop =>
      intro h ms
      unfold parseProp
      refine Tr.step B (quiet_current _) fun _ => Tr.step B quiet_next fun _ => Tr.step B quiet_cur fun t => Tr.traced B ?_
      tr [ih.intf, propIndex_tr B n, default_tr B n, implements_tr B]
      intro s hi hv b s' e
      cases e
      refine ⟨hi, B.refl _, fun x hx => hv x ?_⟩
      revert hx; revert x; ids
    case intf =>
      unfold parseIntf
      refine Tr.step B (quiet_is _) fun _ => Tr.ite (Tr.stacked B ?_) ?_
      · tr [ih.params _ _, typeId_tr B]
      · tr [typeId_tr B]

end TP
