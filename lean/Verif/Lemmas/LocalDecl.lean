import Verif.Lemmas.LocalStmt

/-!
# What a run of the parsers of types and declarations does not look at
-/

namespace TP

variable {κ δ α β : Type} {u : Uni} {D : DEnv κ δ}

theorem Loc.setDecl (is : List Ident) (k : DKind δ) : Loc (TP.setDecl D is k) :=
  Loc.step (fun c => match D.set c is k with
    | .ok c => .ok () c
    | .err => .err
    | .panic => .panic) fun s => by
    unfold TP.setDecl
    cases D.set s.cx is k <;> rfl

theorem Loc.completeType (old : δ) (i : Ident) (ty : PType δ) : Loc (TP.completeType D old i ty) :=
  Loc.step (fun c => match D.complete c old i ty with
    | .ok c => .ok () c
    | .err => .err
    | .panic => .panic) fun s => by
    unfold TP.completeType
    cases D.complete s.cx old i ty <;> rfl

theorem Loc.newRef (name : Str) : Loc (TP.newRef D name) := Loc.step (fun c => .ok (D.newRef c name).2 (D.newRef c name).1) fun _ => rfl

theorem Loc.findMember (h : List (TypeId δ)) (ms : Sects δ) (name : Str) : Loc (TP.findMember D h ms name) :=
  Loc.step (fun c => match D.findMember c h ms name with
    | .found d => .ok d c
    | .none => .err
    | .hang => .wait) fun s => by
    unfold TP.findMember
    cases D.findMember s.cx h ms name <;> rfl

theorem Loc.findProp (h : List (TypeId δ)) (ms : Sects δ) (name : Str) : Loc (TP.findProp D h ms name) :=
  Loc.step (fun c => match D.findProp c h ms name with
    | .found d => .ok (some d) c
    | .none => .ok none c
    | .hang => .wait) fun s => by
    unfold TP.findProp
    cases D.findProp s.cx h ms name <;> rfl

theorem Loc.checkOrdinal (t : PType δ) : Loc (TP.checkOrdinal D t) :=
  Loc.step (fun c => match D.ordinal c t with
    | some true => .ok () c
    | some false => .err
    | none => .wait) fun s => by
    unfold TP.checkOrdinal
    rcases D.ordinal s.cx t with _ | _ | _ <;> rfl

theorem Loc.stacked {p : P κ α} (h : Loc p) : Loc (TP.stacked D p) := h.around D.stack D.restore fun _ => rfl

theorem Loc.withSection {p : P κ α} (h : Loc p) : Loc (TP.withSection D p) :=
  h.around D.openSection (fun a b => D.closeSection a (D.runSection b)) fun _ => rfl

theorem Loc.read {p : P κ α} (h : ∀ s, p s = match p ⟨[], .hang, s.cx⟩ with
    | .ok v s' => .ok v { s with cx := s'.cx }
    | .err => .err
    | .panic => .panic
    | .wait => .wait) : Loc p :=
  Loc.step (fun c => match p ⟨[], .hang, c⟩ with
    | .ok v s' => .ok v s'.cx
    | .err => .err
    | .panic => .panic
    | .wait => .wait) fun s => by
    rw [h]
    cases p ⟨[], .hang, s.cx⟩ <;> rfl

macro_rules | `(tactic| loc_leaf) => `(tactic| with_reducible first
  | exact Loc.setDecl _ _ | exact Loc.completeType _ _ _ | exact Loc.newRef _ | exact Loc.findMember _ _ _ | exact Loc.findProp _ _ _
  | exact Loc.checkOrdinal _ | fail)
macro_rules | `(tactic| loc_step) => `(tactic| with_reducible first
  | refine Loc.stacked ?_ | refine Loc.withSection ?_ | fail)

theorem Loc.parseIdents (p : Pred) : ∀ n, Loc (TP.parseIdents p n : P κ (List Ident))
  | 0 => Loc.wait
  | n + 1 => by
    have ih := Loc.parseIdents p n
    unfold TP.parseIdents
    loc

macro_rules | `(tactic| loc_leaf) => `(tactic| with_reducible exact Loc.parseIdents _ _)

theorem Loc.parseTypeIdWithUnit : Loc (TP.parseTypeIdWithUnit u D) := by
  unfold TP.parseTypeIdWithUnit
  loc

macro_rules | `(tactic| loc_leaf) => `(tactic| with_reducible exact Loc.parseTypeIdWithUnit)

theorem Loc.parseTypeIdWithoutUnit : Loc (TP.parseTypeIdWithoutUnit D) := by
  unfold TP.parseTypeIdWithoutUnit
  loc

macro_rules | `(tactic| loc_leaf) => `(tactic| with_reducible exact Loc.parseTypeIdWithoutUnit)

theorem Loc.parseTypeId : Loc (TP.parseTypeId u D) := by
  unfold TP.parseTypeId
  loc

macro_rules | `(tactic| loc_leaf) => `(tactic| with_reducible exact Loc.parseTypeId)

theorem Loc.parsePointer : Loc (TP.parsePointer u D) := by
  unfold TP.parsePointer
  loc

macro_rules | `(tactic| loc_leaf) => `(tactic| with_reducible exact Loc.parsePointer)

theorem Loc.parseEmb (k : EmbKind) : Loc (TP.parseEmb u D k) := by
  unfold TP.parseEmb
  loc

macro_rules | `(tactic| loc_leaf) => `(tactic| with_reducible exact Loc.parseEmb _)

theorem Loc.optSemi : Loc (TP.optSemi : P κ Unit) := by
  unfold TP.optSemi
  loc

macro_rules | `(tactic| loc_leaf) => `(tactic| with_reducible exact Loc.optSemi)

theorem Eats.parseTypeIdWithoutUnit : Eats (TP.parseTypeIdWithoutUnit D) := by
  unfold TP.parseTypeIdWithoutUnit
  refine Eats.after Loc.cur.shr fun _ => Eats.next.bind fun _ => Loc.shr ?_
  loc

theorem Loc.subrange {k : Option (PType δ) → P κ α} (n : Nat) (hk : ∀ o, Loc (k o)) (ha : Eats (k none)) :
    Loc (TP.parseSubrangeIdent u D n >>= k) ∧ Eats (TP.parseSubrangeIdent u D n >>= k) := by
  unfold TP.parseSubrangeIdent
  refine Loc.attempt (E := D.toEnv) Loc.look_cur (fun t => ?_) hk (fun t ts tl cx v s' _ h => ha _ _ _ h)
  loc

theorem Loc.parseTypeForIdent (n : Nat) : Loc (TP.parseTypeForIdent u D n) := by
  unfold TP.parseTypeForIdent
  repeat' first
    | (refine (Loc.subrange n (fun o => ?_) (Eats.parseTypeIdWithoutUnit.bind fun _ => (Loc.pure _).shr)).1)
    | loc_step

/-- a token is passed, or `none` is returned -/
def OptEats (p : P κ (Option β)) : Prop := ∀ s v s', p s = .ok v s' → s'.ts <:+ s.ts ∧ (v ≠ none → s'.ts <:+ s.ts.tail)

theorem OptEats.after {p : P κ α} {f : α → P κ (Option β)} (h : Shr p) (h' : ∀ a, OptEats (f a)) : OptEats (p >>= f) := by
  intro s v s' hp
  change P.bind p f s = _ at hp
  unfold P.bind at hp
  cases e : p s <;> rw [e] at hp <;> try (cases hp; done)
  have h1 := h _ _ _ e
  have h2 := h' _ _ _ _ hp
  exact ⟨h2.1.trans h1, fun hv => (h2.2 hv).trans (suffix_tail h1)⟩

theorem OptEats.of {p : P κ (Option β)} (h : Eats p) : OptEats p := fun s v s' e => ⟨List.IsSuffix.trans (h s v s' e) (List.tail_suffix _), fun _ => h s v s' e⟩
theorem OptEats.none : OptEats (Pure.pure none : P κ (Option β)) := by
  intro s v s' h
  cases h
  exact ⟨List.suffix_refl _, fun h => absurd rfl h⟩

theorem OptEats.ite {c : Prop} [Decidable c] {p q : P κ (Option β)} (h : OptEats p) (h' : OptEats q) : OptEats (if c then p else q) := by
  by_cases hc : c
  · rw [if_pos hc]; exact h
  · rw [if_neg hc]; exact h'

theorem OptEats.bind {p : P κ (Option β)} (h : OptEats p) {k : Option β → P κ α} (hk : ∀ o, Shr (k o)) (ha : Eats (k .none)) : Eats (p >>= k) := by
  intro s v s' hp
  change P.bind p k s = _ at hp
  unfold P.bind at hp
  cases e : p s <;> rw [e] at hp <;> try (cases hp; done)
  rename_i o s1
  have h1 := h _ _ _ e
  cases o with
  | none => exact (ha _ _ _ hp).trans (suffix_tail h1.1)
  | some x =>
    have h2 := h1.2 (by simp)
    have := hk _ _ _ _ hp
    exact List.IsSuffix.trans this h2

theorem OptEats.parseEmb (k : EmbKind) : OptEats (TP.parseEmb u D k) := by
  unfold TP.parseEmb
  refine OptEats.after Loc.cur.shr fun t => ?_
  split
  · exact OptEats.of (Eats.next.bind fun _ => (Loc.pure _).shr)
  · exact OptEats.none

theorem OptEats.unit : OptEats (TP.parseTypeIdWithUnit u D) := by
  unfold TP.parseTypeIdWithUnit
  refine OptEats.after Loc.cur.shr fun t => OptEats.after (Loc.getDecl _).shr fun d? => ?_
  exact OptEats.ite (OptEats.of ((Eats.nextIs _).bind fun _ => Loc.shr (by loc))) OptEats.none

theorem Eats.parseTypeForIdent (n : Nat) : Eats (TP.parseTypeForIdent u D n) := by
  unfold TP.parseTypeForIdent
  refine OptEats.unit.bind (fun o => Loc.shr ?_) ((OptEats.parseEmb _).bind (fun o => Loc.shr ?_) ((OptEats.parseEmb _).bind (fun o => Loc.shr ?_)
    ((OptEats.parseEmb _).bind (fun o => Loc.shr ?_) (Loc.subrange n (fun o => ?_) (Eats.parseTypeIdWithoutUnit.bind fun _ => (Loc.pure _).shr)).2)))
  all_goals
    repeat' first
      | (refine (Loc.subrange n (fun o => ?_) (Eats.parseTypeIdWithoutUnit.bind fun _ => (Loc.pure _).shr)).1)
      | loc_step

macro_rules | `(tactic| loc_leaf) => `(tactic| with_reducible exact Loc.parseTypeForIdent _)

theorem Loc.parseConstSubrange (n : Nat) : Loc (TP.parseConstSubrange u D n) := by
  unfold TP.parseConstSubrange
  loc

macro_rules | `(tactic| loc_leaf) => `(tactic| with_reducible exact Loc.parseConstSubrange _)

theorem Loc.parseEnumElem (n : Nat) : Loc (TP.parseEnumElem u D n) := by
  unfold TP.parseEnumElem
  loc

macro_rules | `(tactic| loc_leaf) => `(tactic| with_reducible exact Loc.parseEnumElem _)

theorem Loc.parseEnumElems : ∀ n, Loc (TP.parseEnumElems u D n)
  | 0 => Loc.wait
  | n + 1 => by
    have ih := Loc.parseEnumElems n
    unfold TP.parseEnumElems
    loc

macro_rules | `(tactic| loc_leaf) => `(tactic| with_reducible exact Loc.parseEnumElems _)

theorem Loc.parseEnum (n : Nat) : Loc (TP.parseEnum u D n) := by
  unfold TP.parseEnum
  loc

macro_rules | `(tactic| loc_leaf) => `(tactic| with_reducible exact Loc.parseEnum _)

theorem Loc.parseStringType (n : Nat) : Loc (TP.parseStringType u D n) := by
  unfold TP.parseStringType
  loc

macro_rules | `(tactic| loc_leaf) => `(tactic| with_reducible exact Loc.parseStringType _)

theorem Loc.parseFile (b : Bool) : Loc (TP.parseFile u D b) := by
  unfold TP.parseFile
  loc

macro_rules | `(tactic| loc_leaf) => `(tactic| with_reducible exact Loc.parseFile _)

theorem Loc.parseClassRef : Loc (TP.parseClassRef u D) := by
  unfold TP.parseClassRef
  loc

macro_rules | `(tactic| loc_leaf) => `(tactic| with_reducible exact Loc.parseClassRef)

theorem Loc.parseTypeIds : ∀ n, Loc (TP.parseTypeIds u D n)
  | 0 => Loc.wait
  | n + 1 => by
    have ih := Loc.parseTypeIds n
    unfold TP.parseTypeIds
    loc

macro_rules | `(tactic| loc_leaf) => `(tactic| with_reducible exact Loc.parseTypeIds _)

theorem Loc.parseHeritage (n : Nat) : Loc (TP.parseHeritage u D n) := by
  unfold TP.parseHeritage
  loc

macro_rules | `(tactic| loc_leaf) => `(tactic| with_reducible exact Loc.parseHeritage _)

theorem Loc.parseMethodDirectives : ∀ n, Loc (TP.parseMethodDirectives u n : P κ (List Str))
  | 0 => Loc.wait
  | n + 1 => by
    have ih := Loc.parseMethodDirectives n
    unfold TP.parseMethodDirectives
    loc

macro_rules | `(tactic| loc_leaf) => `(tactic| with_reducible exact Loc.parseMethodDirectives _)

theorem Loc.parseMethodDirectiveList (n : Nat) : Loc (TP.parseMethodDirectiveList u n : P κ (List Str)) := by
  unfold TP.parseMethodDirectiveList
  loc

macro_rules | `(tactic| loc_leaf) => `(tactic| with_reducible exact Loc.parseMethodDirectiveList _)

theorem Loc.parseVisibility : Loc (TP.parseVisibility u : P κ Visibility) := by
  unfold TP.parseVisibility
  loc

macro_rules | `(tactic| loc_leaf) => `(tactic| with_reducible exact Loc.parseVisibility)

theorem Loc.parseDestructor : Loc (TP.parseDestructor u : P κ (Heading δ)) := by
  unfold TP.parseDestructor
  loc

macro_rules | `(tactic| loc_leaf) => `(tactic| with_reducible exact Loc.parseDestructor)

theorem Loc.parseAccessor (h : List (TypeId δ)) (ms : Sects δ) (w : Str) : Loc (TP.parseAccessor u D h ms w) := by
  unfold TP.parseAccessor
  loc

macro_rules | `(tactic| loc_leaf) => `(tactic| with_reducible exact Loc.parseAccessor _ _ _)

theorem Loc.parsePropIndex (n : Nat) : Loc (TP.parsePropIndex u D n) := by
  unfold TP.parsePropIndex
  loc

macro_rules | `(tactic| loc_leaf) => `(tactic| with_reducible exact Loc.parsePropIndex _)

theorem Loc.parseStored (h : List (TypeId δ)) (ms : Sects δ) : Loc (TP.parseStored u D h ms) := by
  unfold TP.parseStored
  loc

macro_rules | `(tactic| loc_leaf) => `(tactic| with_reducible exact Loc.parseStored _ _)

theorem Loc.parseDefault (n : Nat) : Loc (TP.parseDefault u D n) := by
  unfold TP.parseDefault
  loc

macro_rules | `(tactic| loc_leaf) => `(tactic| with_reducible exact Loc.parseDefault _)

theorem Loc.parseImplements : Loc (TP.parseImplements u D) := by
  unfold TP.parseImplements
  loc

macro_rules | `(tactic| loc_leaf) => `(tactic| with_reducible exact Loc.parseImplements)

theorem Loc.parseParmOpt : Loc (TP.parseParmOpt u : P κ (Option ParmOpt)) := by
  unfold TP.parseParmOpt
  loc

macro_rules | `(tactic| loc_leaf) => `(tactic| with_reducible exact Loc.parseParmOpt)

theorem Loc.parseParmDefault (n : Nat) : Loc (TP.parseParmDefault u D n) := by
  unfold TP.parseParmDefault
  loc

macro_rules | `(tactic| loc_leaf) => `(tactic| with_reducible exact Loc.parseParmDefault _)

theorem Loc.parseReturn (fn : Bool) : Loc (TP.parseReturn u D fn) := by
  unfold TP.parseReturn
  loc

macro_rules | `(tactic| loc_leaf) => `(tactic| with_reducible exact Loc.parseReturn _)

theorem Loc.parseFuncWord : Loc (TP.parseFuncWord u : P κ Bool) := by
  unfold TP.parseFuncWord
  loc

macro_rules | `(tactic| loc_leaf) => `(tactic| with_reducible exact Loc.parseFuncWord)

theorem Loc.parseOfObject : Loc (TP.parseOfObject u : P κ Bool) := by
  unfold TP.parseOfObject
  loc

macro_rules | `(tactic| loc_leaf) => `(tactic| with_reducible exact Loc.parseOfObject)

theorem Loc.parseConstExprs : ∀ n, Loc (TP.parseConstExprs u D n)
  | 0 => Loc.wait
  | n + 1 => by
    have ih := Loc.parseConstExprs n
    unfold TP.parseConstExprs
    loc

macro_rules | `(tactic| loc_leaf) => `(tactic| with_reducible exact Loc.parseConstExprs _)

variable (u D) in
/-- the parsers of types -/
structure TypeL (n : Nat) : Prop where
  type : Loc (parseType u D n)
  struc : Loc (parseStruc u D n)
  array : ∀ p, Loc (parseArray u D p n)
  index : Loc (parseIndex u D n)
  indexTypes : Loc (parseIndexTypes u D n)
  set : ∀ p, Loc (parseSet u D p n)
  recd : ∀ p, Loc (parseRec u D p n)
  fieldList : ∀ p, Loc (parseFieldList u D p n)
  fields : ∀ p, Loc (parseFields u D p n)
  variant : Loc (parseVariant u D n)
  variants : Loc (parseVariants u D n)
  procType : Loc (parseProcType u D n)
  optParams : ∀ a b, Loc (parseOptParams u D a b n)
  params : ∀ a b, Loc (parseParams u D a b n)
  paramList : ∀ a, Loc (parseParamList u D a n)
  paramTy : Loc (parseParamTy u D n)
  classOrRef : Loc (parseClassOrRef u D n)
  cls : Loc (parseClass u D n)
  sects : ∀ h m, Loc (parseSects u D h m n)
  sect : ∀ h m, Loc (parseSect u D h m n)
  classFields : Loc (parseClassFields u D n)
  classField : Loc (parseClassField u D n)
  methods : Loc (parseMethods u D n)
  method : Loc (parseMethod u D n)
  heading : ∀ w, Loc (parseHeading u D w n)
  funcHeading : Loc (parseFuncHeading u D n)
  constructor : Loc (parseConstructor u D n)
  props : ∀ h m, Loc (parseProps u D h m n)
  prop : ∀ h m, Loc (parseProp u D h m n)
  intf : Loc (parseIntf u D n)
  typeAdv : ∀ t ts tl cx v s', Pred.typ .ident t = true → parseType u D n ⟨t :: ts, tl, cx⟩ = .ok v s' → s'.ts <:+ ts

set_option hygiene false in
macro_rules | `(tactic| loc_leaf) => `(tactic| with_reducible first
  | exact ih.type | exact ih.struc | exact ih.array _ | exact ih.index | exact ih.indexTypes | exact ih.set _ | exact ih.recd _ | exact ih.fieldList _ | exact ih.fields _ | exact ih.variant | exact ih.variants | exact ih.procType | exact ih.optParams _ _ | exact ih.params _ _ | exact ih.paramList _ | exact ih.paramTy | exact ih.classOrRef | exact ih.cls | exact ih.sects _ _ | exact ih.sect _ _ | exact ih.classFields | exact ih.classField | exact ih.methods | exact ih.method | exact ih.heading _ | exact ih.funcHeading | exact ih.constructor | exact ih.props _ _ | exact ih.prop _ _ | exact ih.intf | exact ih.typeAdv _ _ _ _ _ _ | fail)

set_option maxHeartbeats 1000000 in
theorem typeL : ∀ n, TypeL u D n
  | 0 => by constructor <;> intros <;> first | exact Loc.wait | (rename_i h; cases h)
  | n + 1 => by
    have ih := typeL n
    exact {
      type := by
        unfold parseType; loc,
      struc := by
        unfold parseStruc; loc,
      array := by
        intros; unfold parseArray; loc,
      index := by
        unfold parseIndex; loc,
      indexTypes := by
        unfold parseIndexTypes; loc,
      set := by
        intros; unfold parseSet; loc,
      recd := by
        intros; unfold parseRec; loc,
      fieldList := by
        intros; unfold parseFieldList; loc,
      fields := by
        intros; unfold parseFields; loc,
      variant := by
        unfold parseVariant
        refine Loc.bind (Loc.currentP _) fun _ => Loc.next.bind fun _ => ?_
        unfold TP.parseVariantIdent
        refine (Loc.attempt (E := D.toEnv) (Loc.look_current _) (fun t => ?_) (fun o => ?_) ?_).1
        · loc
        · loc
        · intro t ts tl cx v s' ht h
          change P.bind (parseType u D n) _ _ = _ at h
          unfold P.bind at h
          cases hp : parseType u D n ⟨t :: ts, tl, cx⟩ <;> rw [hp] at h <;> try (cases h; done)
          rename_i x s1
          have g := ih.typeAdv t ts tl cx x s1 ht hp
          have : Loc (do
            TP.checkOrdinal D x
            let _ ← TP.currentP (kw u r!"OF")
            P.next
            let vs ← parseVariants u D n
            Pure.pure (OptVariant.some none x vs)) := by loc
          exact List.IsSuffix.trans (this.shr _ _ _ h) g,
      variants := by
        unfold parseVariants; loc,
      procType := by
        unfold parseProcType; loc,
      optParams := by
        intros; unfold parseOptParams; loc,
      params := by
        intros; unfold parseParams; loc,
      paramList := by
        intros; unfold parseParamList; loc,
      paramTy := by
        unfold parseParamTy; loc,
      classOrRef := by
        unfold parseClassOrRef; loc,
      cls := by
        unfold parseClass; loc,
      sects := by
        intros; unfold parseSects; loc,
      sect := by
        intros; unfold parseSect; loc,
      classFields := by
        unfold parseClassFields; loc,
      classField := by
        unfold parseClassField; loc,
      methods := by
        unfold parseMethods; loc,
      method := by
        unfold parseMethod; loc,
      heading := by
        intros; unfold parseHeading; loc,
      funcHeading := by
        unfold parseFuncHeading; loc,
      constructor := by
        unfold parseConstructor; loc,
      props := by
        intros; unfold parseProps; loc,
      prop := by
        intro h m
        unfold parseProp
        loc
        all_goals exact Loc.read fun _ => rfl,
      intf := by
        unfold parseIntf; loc,
      typeAdv := by
        intro t ts tl cx v s' ht h
        have ht : t.typ = .ident := by
          simpa [Pred.typ] using ht
        unfold parseType at h
        change (if t.typ = .symbol then (if sym r!"(" t then parseEnum u D n else if sym r!"^" t then parsePointer u D else P.fail) else if t.typ = .ident then TP.parseTypeForIdent u D n else _ : P κ (PType δ)) _ = _ at h
        rw [if_neg (by rw [ht]; decide), if_pos ht] at h
        exact Eats.parseTypeForIdent n _ _ _ h }

macro_rules | `(tactic| loc_leaf) => `(tactic| with_reducible first
  | exact (typeL _).type | exact (typeL _).funcHeading | exact (typeL _).params _ _ | exact (typeL _).optParams _ _ | fail)

theorem stmtL' (n : Nat) : StmtL u (D.senv u) n := stmtL (fun n => (typeL (2 * n)).type) n

macro_rules | `(tactic| loc_leaf) => `(tactic| with_reducible exact (stmtL' _).compound)

theorem Loc.parseConstDecl (n : Nat) : Loc (TP.parseConstDecl u D n) := by
  unfold TP.parseConstDecl
  loc

macro_rules | `(tactic| loc_leaf) => `(tactic| with_reducible exact Loc.parseConstDecl _)

theorem Loc.parseConstDecls : ∀ n, Loc (TP.parseConstDecls u D n)
  | 0 => Loc.wait
  | n + 1 => by
    have ih := Loc.parseConstDecls n
    unfold TP.parseConstDecls
    loc

macro_rules | `(tactic| loc_leaf) => `(tactic| with_reducible exact Loc.parseConstDecls _)

theorem Loc.parseVarDecl (n : Nat) : Loc (TP.parseVarDecl u D n) := by
  unfold TP.parseVarDecl
  loc

macro_rules | `(tactic| loc_leaf) => `(tactic| with_reducible exact Loc.parseVarDecl _)

theorem Loc.parseVarDecls : ∀ n, Loc (TP.parseVarDecls u D n)
  | 0 => Loc.wait
  | n + 1 => by
    have ih := Loc.parseVarDecls n
    unfold TP.parseVarDecls
    loc

macro_rules | `(tactic| loc_leaf) => `(tactic| with_reducible exact Loc.parseVarDecls _)

theorem Loc.parseThreadVarDecl (n : Nat) : Loc (TP.parseThreadVarDecl u D n) := by
  unfold TP.parseThreadVarDecl
  loc

macro_rules | `(tactic| loc_leaf) => `(tactic| with_reducible exact Loc.parseThreadVarDecl _)

theorem Loc.parseThreadVarDecls : ∀ n, Loc (TP.parseThreadVarDecls u D n)
  | 0 => Loc.wait
  | n + 1 => by
    have ih := Loc.parseThreadVarDecls n
    unfold TP.parseThreadVarDecls
    loc

macro_rules | `(tactic| loc_leaf) => `(tactic| with_reducible exact Loc.parseThreadVarDecls _)

theorem Loc.declareType (i : Ident) (t : PType δ) : Loc (TP.declareType D i t) := by
  unfold TP.declareType
  loc

macro_rules | `(tactic| loc_leaf) => `(tactic| with_reducible exact Loc.declareType _ _)

theorem Loc.typeDeclEnd : Loc (TP.typeDeclEnd u : P κ (Option Str)) := by
  unfold TP.typeDeclEnd
  loc

macro_rules | `(tactic| loc_leaf) => `(tactic| with_reducible exact Loc.typeDeclEnd)

theorem Loc.parseTypeDecl (n : Nat) : Loc (TP.parseTypeDecl u D n) := by
  unfold TP.parseTypeDecl
  loc

macro_rules | `(tactic| loc_leaf) => `(tactic| with_reducible exact Loc.parseTypeDecl _)

theorem Loc.parseTypeDecls : ∀ n, Loc (TP.parseTypeDecls u D n)
  | 0 => Loc.wait
  | n + 1 => by
    have ih := Loc.parseTypeDecls n
    unfold TP.parseTypeDecls
    loc

macro_rules | `(tactic| loc_leaf) => `(tactic| with_reducible exact Loc.parseTypeDecls _)

theorem Loc.parseTypeSection (n : Nat) : Loc (TP.parseTypeSection u D n) := by
  unfold TP.parseTypeSection
  loc

macro_rules | `(tactic| loc_leaf) => `(tactic| with_reducible exact Loc.parseTypeSection _)

theorem Loc.parseLabelDecl : Loc (TP.parseLabelDecl D) := by
  unfold TP.parseLabelDecl
  loc

macro_rules | `(tactic| loc_leaf) => `(tactic| with_reducible exact Loc.parseLabelDecl)

theorem Loc.parseExportsItem (n : Nat) : Loc (TP.parseExportsItem u D n) := by
  unfold TP.parseExportsItem
  loc

macro_rules | `(tactic| loc_leaf) => `(tactic| with_reducible exact Loc.parseExportsItem _)

theorem Loc.parseExportsItems : ∀ n, Loc (TP.parseExportsItems u D n)
  | 0 => Loc.wait
  | n + 1 => by
    have ih := Loc.parseExportsItems n
    unfold TP.parseExportsItems
    loc

macro_rules | `(tactic| loc_leaf) => `(tactic| with_reducible exact Loc.parseExportsItems _)

theorem Loc.parseExports : ∀ n, Loc (TP.parseExports u D n)
  | 0 => Loc.wait
  | n + 1 => by
    have ih := Loc.parseExports n
    unfold TP.parseExports
    loc

macro_rules | `(tactic| loc_leaf) => `(tactic| with_reducible exact Loc.parseExports _)

theorem Loc.stringFactor : Loc (TP.stringFactor u : P κ Str) := by
  unfold TP.stringFactor
  loc

macro_rules | `(tactic| loc_leaf) => `(tactic| with_reducible exact Loc.stringFactor)

theorem Loc.numberFactor : Loc (TP.numberFactor u : P κ Str) := by
  unfold TP.numberFactor
  loc

macro_rules | `(tactic| loc_leaf) => `(tactic| with_reducible exact Loc.numberFactor)

theorem Loc.parseExternal : Loc (TP.parseExternal u : P κ (Option ExternalOptions)) := by
  unfold TP.parseExternal
  loc

macro_rules | `(tactic| loc_leaf) => `(tactic| with_reducible exact Loc.parseExternal)

theorem Loc.parseDirectives : ∀ n o, Loc (TP.parseDirectives u n o : P κ RoutineOpts)
  | 0, _ => Loc.wait
  | n + 1, o => by
    have ih := Loc.parseDirectives n
    unfold TP.parseDirectives
    repeat' first
      | exact ih _
      | loc_step

macro_rules | `(tactic| loc_leaf) => `(tactic| with_reducible exact Loc.parseDirectives _ _)

theorem Loc.parseRoutineOpts (n : Nat) : Loc (TP.parseRoutineOpts u n : P κ RoutineOpts) := by
  unfold TP.parseRoutineOpts
  loc

macro_rules | `(tactic| loc_leaf) => `(tactic| with_reducible exact Loc.parseRoutineOpts _)

theorem Loc.parseExportedHeading (n : Nat) : Loc (TP.parseExportedHeading u D n) := by
  unfold TP.parseExportedHeading
  loc

macro_rules | `(tactic| loc_leaf) => `(tactic| with_reducible exact Loc.parseExportedHeading _)

theorem Loc.parseBlockBody (n : Nat) : Loc (TP.parseBlockBody u D n) := by
  unfold TP.parseBlockBody
  loc

macro_rules | `(tactic| loc_leaf) => `(tactic| with_reducible exact Loc.parseBlockBody _)

variable (u D) in
/-- the parsers of blocks -/
structure BlockL (n : Nat) : Prop where
  block : Loc (parseBlock u D n)
  declSects : Loc (parseDeclSects u D n)
  declSect : Loc (parseDeclSect u D n)
  func : Loc (parseFunc u D n)

set_option hygiene false in
macro_rules | `(tactic| loc_leaf) => `(tactic| with_reducible first
  | exact ih.block | exact ih.declSects | exact ih.declSect | exact ih.func | fail)

set_option maxHeartbeats 1000000 in
theorem blockL : ∀ n, BlockL u D n
  | 0 => by constructor <;> intros <;> first | exact Loc.wait | (rename_i h; cases h)
  | n + 1 => by
    have ih := blockL n
    exact {
      block := by
        unfold parseBlock; loc,
      declSects := by
        unfold parseDeclSects; loc,
      declSect := by
        unfold parseDeclSect; loc,
      func := by
        unfold parseFunc; loc }

macro_rules | `(tactic| loc_leaf) => `(tactic| with_reducible first
  | exact (blockL _).block | exact (blockL _).declSect | exact (blockL _).func | fail)

end TP
