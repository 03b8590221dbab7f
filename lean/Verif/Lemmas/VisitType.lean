import Verif.Lemmas.VisitStmt

/-!
# Walks over the trees of the parser: types

`V s e n ids b`: what `b` reads shows the names and literals `ids`, losing at most `n` tokens.  With `s` (`e`) the last name
shown before (after) `b` may be the token in front, which has not been read yet.
-/

set_option linter.unusedSectionVars false

namespace TP
open TP.Spec

/-! ## No nil pointers -/

section
variable {δ : Type}

@[simp] theorem clean_typeId (t : TypeId δ) : (typeIdNode t).Clean := by simp [typeIdNode, cleanL_opt clean_ident]
@[simp] theorem clean_enumElem (t : EnumElem δ) : (enumElemNode t).Clean := by simp [enumElemNode, cleanL_opt clean_expr]
@[simp] theorem clean_stored (t : Stored δ) : (storedNode t).Clean := by cases t <;> simp [storedNode]
@[simp] theorem clean_propDefault (t : PropDefault δ) : (propDefaultNode t).Clean := by
  cases t <;> simp [propDefaultNode, clean_expr]

mutual
theorem clean_type : ∀ t : PType δ, CleanL [typeNode t]
  | .nil => by simp [typeNode]
  | .id t => by simp [typeNode]
  | .enum es => by simp [typeNode, cleanL_map clean_enumElem]
  | .subrange lo hi => by simp [typeNode, clean_expr]
  | .pointer t => by simp [typeNode]
  | .fixedString i e => by simp [typeNode, clean_expr]
  | .array _ ix base => by simp [typeNode, clean_index ix, clean_type base]
  | .set _ t => by simp [typeNode, clean_type t]
  | .file _ t => by simp [typeNode]
  | .record _ fl => by simp [typeNode, clean_fieldList fl]
  | .proc _ ps ret _ => by simp [typeNode, clean_optParams ps, cleanL_opt clean_typeId]
  | .forward => by simp [typeNode]
  | .classRef t => by simp [typeNode]
  | .cls h ms => by simp [typeNode, cleanL_map clean_typeId, clean_sects ms]
theorem clean_index : ∀ t : OptPTypes δ, CleanL (indexNodes t)
  | .none => by simp [indexNodes]
  | .some ts => by simp [indexNodes, clean_types ts]
theorem clean_types : ∀ t : PTypes δ, CleanL (typeNodes t)
  | .one t => by simp [typeNodes, clean_type t]
  | .cons t rest => by rw [typeNodes, cleanL_cons]; exact ⟨clean_type t, clean_types rest⟩
theorem clean_fieldList : ∀ t : FieldList δ, (fieldListNode t).Clean
  | .mk fs v => by simp [fieldListNode, clean_fields fs, clean_variant v]
theorem clean_fields : ∀ t : Fields δ, CleanL (fieldNodes t)
  | .nil => by simp [fieldNodes]
  | .cons is t rest => by simp [fieldNodes, clean_type t, clean_fields rest]
theorem clean_variant : ∀ t : OptVariant δ, CleanL (variantNode t)
  | .none => by simp [variantNode]
  | .some i t vs => by
    simp only [variantNode, cleanL_some, clean_mk, cleanL_nil, and_true]
    rw [cleanL_cons]
    exact ⟨clean_type t, by simp [cleanL_opt clean_ident, clean_variants vs]⟩
theorem clean_variants : ∀ t : Variants δ, CleanL (variantNodes t)
  | .nil => by simp [variantNodes]
  | .cons es fl rest => by simp [variantNodes, clean_exprs, clean_fieldList fl, clean_variants rest]
theorem clean_optParams : ∀ t : OptParams δ, CleanL (optParamsNode t)
  | .none => by simp [optParamsNode]
  | .some ps => by simp [optParamsNode, clean_params ps]
theorem clean_params : ∀ t : Params δ, CleanL (paramNodes t)
  | .one _ is t e => by simp [paramNodes, clean_paramTy t, cleanL_opt clean_expr]
  | .cons _ is t e rest => by simp [paramNodes, clean_paramTy t, cleanL_opt clean_expr, clean_params rest]
theorem clean_paramTy : ∀ t : ParamTy δ, CleanL (paramTyNode t)
  | .none => by simp [paramTyNode]
  | .some _ t => by simp [paramTyNode, clean_type t]
theorem clean_sects : ∀ t : Sects δ, CleanL (sectNodes t)
  | .nil => by simp [sectNodes]
  | .cons _ fs ms ps rest => by simp [sectNodes, clean_fields fs, clean_methods ms, clean_props ps, clean_sects rest]
theorem clean_methods : ∀ t : Methods δ, CleanL (methodNodes t)
  | .nil => by simp [methodNodes]
  | .cons h _ rest => by simp [methodNodes, clean_heading h, clean_methods rest]
theorem clean_heading : ∀ t : Heading δ, (headingNode t).Clean
  | .func _ i ps ret => by simp [headingNode, clean_optParams ps, cleanL_opt clean_typeId]
  | .ctor i ps => by simp [headingNode, clean_optParams ps]
  | .dtor i => by simp [headingNode]
theorem clean_props : ∀ t : Props δ, CleanL (propNodes t)
  | .nil => by simp [propNodes]
  | .cons p rest => by simp [propNodes, clean_prop p, clean_props rest]
theorem clean_prop : ∀ t : ClassProp δ, (propNode t).Clean
  | .mk i intf ix rd wr st df im _ => by
    simp [propNode, clean_intf intf, cleanL_opt clean_expr, cleanL_opt clean_identRef, cleanL_opt clean_stored,
      cleanL_opt clean_propDefault, cleanL_opt clean_typeId]
theorem clean_intf : ∀ t : OptIntf δ, CleanL (intfNode t)
  | .none => by simp [intfNode]
  | .some ps t => by simp [intfNode, clean_optParams ps]
end
end

/-! ## States of the walk along the tokens -/

variable {δ : Type} {u : Uni} {ok : Token → Prop}

/-- the names and literals `a` belong to the tokens of `x` in front of `y` -/
def Done (ok : Token → Prop) (n : Nat) (a : List Item) (x y : List Token) : Prop := ∃ used, x = used ++ y ∧ Reads ok n a used
/-- the last of them is the next token, a name -/
def Coming (ok : Token → Prop) (n : Nat) (a : List Item) (x y : List Token) : Prop :=
  ∃ used b i t z, x = used ++ y ∧ y = t :: z ∧ a = b ++ [i] ∧ i.Is t ∧ t.typ = .ident ∧ Reads ok n b used
def VSt (ok : Token → Prop) (s : Bool) (n : Nat) (a : List Item) (x y : List Token) : Prop :=
  Done ok n a x y ∨ (s = true ∧ Coming ok n a x y)

def V (ok : Token → Prop) (s e : Bool) (n : Nat) (ids : List Item) (b : Rd) : Prop :=
  ∀ m a x y z, VSt ok s m a x y → b y z → z ≠ [] → VSt ok e (m + n) (a ++ ids) x z

namespace V
variable {s m e : Bool} {n k : Nat} {a c : List Item} {b d : Rd}

theorem suffix (h : V ok s e n a b) {y z : List Token} (hb : b y z) (hz : z ≠ []) : ∃ w, y = w ++ z := by
  rcases h 0 [] y y z (.inl ⟨[], rfl, .nil 0⟩) hb hz with ⟨w, e, -⟩ | ⟨-, w, _, _, _, _, e, -⟩
  · exact ⟨w, e⟩
  · exact ⟨w, e⟩

theorem seq (h : V ok s m n a b) (h' : V ok m e k c d) : V ok s e (n + k) (a ++ c) (b ▹ d) := by
  rintro q r x y z st ⟨w, hb, hd⟩ hz
  have hw : w ≠ [] := by
    obtain ⟨v, e⟩ := h'.suffix hd hz
    rw [e]
    simp [hz]
  have := h' _ _ _ _ _ (h _ _ _ _ _ st hb hw) hd hz
  rwa [List.append_assoc, Nat.add_assoc] at this

/-- without lost tokens -/
theorem seq0 (h : V ok s m 0 a b) (h' : V ok m e 0 c d) : V ok s e 0 (a ++ c) (b ▹ d) := h.seq h'
theorem seqn (h : V ok s m 0 a b) (h' : V ok m e n c d) : V ok s e n (a ++ c) (b ▹ d) := by
  have := h.seq h'
  rwa [Nat.zero_add] at this
/-- nothing shown first -/
theorem then' (h : V ok s m 0 [] b) (h' : V ok m e n c d) : V ok s e n c (b ▹ d) := h.seqn h'

theorem alt (h : V ok s e n a b) (h' : V ok s e n a d) : V ok s e n a (b ∣∣ d) :=
  fun _ _ _ _ _ st hb hz => hb.elim (fun hb => h _ _ _ _ _ st hb hz) (fun hb => h' _ _ _ _ _ st hb hz)

theorem given {p : Prop} (h : p → V ok s e n a b) : V ok s e n a (given p b) :=
  fun _ _ _ _ _ st hb hz => h hb.1 _ _ _ _ _ st hb.2 hz

theorem cast (h : V ok s e n a b) (q : a = c) : V ok s e n c b := q ▸ h
theorem castN (h : V ok s e n a b) (q : n = k) : V ok s e k a b := q ▸ h

theorem mono (h : V ok s e n a b) (q : n ≤ k) : V ok s e k a b := by
  intro m r x y z st hb hz
  rcases h _ _ _ _ _ st hb hz with ⟨w, e1, e2⟩ | ⟨hs, w, b, i, t, v, e1, e2, e3, e4, e5, e6⟩
  · exact .inl ⟨w, e1, e2.mono (by omega)⟩
  · exact .inr ⟨hs, w, b, i, t, v, e1, e2, e3, e4, e5, e6.mono (by omega)⟩

theorem weakS (h : V ok true e n a b) : V ok s e n a b := by
  intro m r x y z st hb hz
  exact h _ _ _ _ _ (st.elim .inl fun h => .inr ⟨rfl, h.2⟩) hb hz
theorem weakE (h : V ok s false n a b) : V ok s e n a b := by
  intro m r x y z st hb hz
  exact (h _ _ _ _ _ st hb hz).elim .inl fun h => (by cases h.1)

theorem eps : V ok s s 0 [] eps := by
  intro m r x y z st hb hz
  cases hb
  simpa using st

theorem never : V ok s e n a (fun _ _ => False) := fun _ _ _ _ _ _ hb _ => hb.elim

theorem of_imp (h : V ok s e n a b) (q : ∀ x y, d x y → b x y) : V ok s e n a d :=
  fun _ _ _ _ _ st hb hz => h _ _ _ _ _ st (q _ _ hb) hz

/-- a token is read -/
theorem tkP {p : Token → Prop} (h : ∀ t, p t → ok t) : V ok s false 0 [] (tkP p) := by
  rintro m r x y z st ⟨t, rfl, ht⟩ hz
  rw [List.append_nil]
  rcases st with ⟨w, rfl, hw⟩ | ⟨-, w, b, i, t', z', rfl, e, rfl, hi, -, hw⟩
  · exact .inl ⟨w ++ [t], by simp, (hw.append (.skip (h t ht) (.nil 0))).cast (List.append_nil _)⟩
  · cases e
    exact .inl ⟨w ++ [t], by simp, hw.append (.hit hi (.nil 0))⟩

/-- a token is read and shown -/
theorem hit {p : Token → Prop} {i : Item} (h : ∀ t, p t → i.Is t) : V ok false false 0 [i] (Spec.tkP p) := by
  rintro m r x y z st ⟨t, rfl, ht⟩ hz
  rcases st with ⟨w, rfl, hw⟩ | ⟨st, -⟩
  · exact .inl ⟨w ++ [t], by simp, hw.append (.hit (h t ht) (.nil 0))⟩
  · cases st

theorem look {p : Token → Prop} : V ok s s 0 [] (look p) := eps.of_imp fun _ _ h => h.1

/-- the next token is not a name -/
theorem lookNo {p : Token → Prop} (h : ∀ t, p t → t.typ ≠ .ident) : V ok s false 0 [] (Spec.look p) := by
  rintro m r x y z st ⟨rfl, t, w, rfl, ht⟩ hz
  rw [List.append_nil]
  rcases st with st | ⟨-, w, b, i, t', z', rfl, e, rfl, hi, h', hw⟩
  · exact .inl st
  · cases e
    exact (h t ht h').elim

/-- the next token is shown -/
theorem lookHit {p : Token → Prop} {i : Item} (h : ∀ t, p t → i.Is t ∧ t.typ = .ident) : V ok false true 0 [i] (Spec.look p) := by
  rintro m r x y z st ⟨rfl, t, w, rfl, ht⟩ hz
  rcases st with ⟨w, rfl, hw⟩ | ⟨st, -⟩
  · exact .inr ⟨rfl, w, r, i, t, _, rfl, rfl, rfl, (h t ht).1, (h t ht).2, hw.mono (by omega)⟩
  · cases st

theorem anyAt {i : Ident} : V ok false false 0 [.name i] (anyAt i) := by
  rintro m r x y z st (⟨t, rfl, ht⟩ | ⟨-, hz, -⟩) hz'
  · exact hit (i := .name i) (p := fun t => i = ⟨t.raw, t.start, t.stop⟩) (fun _ h => h) _ _ _ _ _ st ⟨t, rfl, ht⟩ hz'
  · exact (hz' hz).elim

theorem leaves {ls : List Item} {p : List Token → Prop} (h : ∀ w, p w → Reads ok 0 ls w) :
    V ok false false 0 ls (fun x y => ∃ used, x = used ++ y ∧ p used) := by
  rintro m r x y z st ⟨w, rfl, hw⟩ hz
  rcases st with ⟨v, rfl, hv⟩ | ⟨st, -⟩
  · exact .inl ⟨v ++ w, by simp, hv.append (h w hw)⟩
  · cases st

end V

section
variable (K : Passes u ok)
include K

theorem V.sym {s : Bool} {w : Str} : V ok s false 0 [] (symR u w) := .tkP fun _ h => K.sym h
theorem V.kw {s : Bool} {w : Str} : V ok s false 0 [] (kwR u w) := .tkP fun _ h => K.kw h
theorem V.up {s : Bool} {w : Str} (hw : w ∈ roleWords) : V ok s false 0 [] (upR u w) := .tkP fun _ h => up_ok K h hw
theorem V.val {s : Bool} {w : Str} (hw : w ∈ roleWords) : V ok s false 0 [] (tk u (.val w)) := .tkP fun _ h => val_ok K h hw
theorem V.ident {i : Ident} : V ok false false 0 [.name i] (tk u (.ident i)) := .hit fun _ h => h.2
theorem V.at {i : Ident} : V ok false false 0 [.name i] (tk u (.at i)) := .hit fun _ h => h
theorem V.semi {s : Bool} : V ok s s 0 [] (optSemiR u) := .alt (.weakE (.sym K)) .eps
theorem V.expr {e : Expr δ} : V ok false false 0 (exprNode e).items (gExpr u e) := .leaves fun _ h => reads_expr K h
theorem V.exprs {e : Exprs δ} : V ok false false 0 (itemsL (exprsNodes e)) (Spec.leaves u (flatExprs e)) :=
  .leaves fun _ h => reads_exprs K h
theorem V.lookSym {s : Bool} {w : Str} : V ok s false 0 [] (Spec.look (IsSym w)) := .lookNo fun t h => by simp [h.1]
theorem V.lookKw {s : Bool} {w : Str} : V ok s false 0 [] (Spec.look (IsKw u w)) := .lookNo fun t h => by simp [h.1]
theorem V.word {s : Bool} {ws : List Str} (h : ∀ w ∈ ws, w ∈ roleWords) : V ok s false 0 [] (wordOf u ws) :=
  .tkP fun _ ht => K.word (h _ ht)

theorem v_idents : ∀ is : List Ident, V ok false false 0 (identsNode is).items (gIdents u is)
  | [] => .never
  | [i] => (V.ident K).cast (by simp)
  | i :: j :: rest => ((V.ident K).seq0 ((V.sym K).then' (v_idents (j :: rest)))).cast (by simp)

theorem v_typeId (t : TypeId δ) : V ok false true 0 (typeIdNode t).items (gTypeId u t) := by
  unfold gTypeId
  split
  · rename_i q hq
    exact ((V.at K).seq0 ((V.sym K).then' (.lookHit (i := .name t.ident) fun _ h => ⟨h.2, h.1⟩))).cast (by simp [typeIdNode, hq])
  · rename_i hq
    exact (V.weakE .anyAt).cast (by simp [typeIdNode, hq])
theorem v_typeId_plain (t : TypeId δ) (h : t.unit = none) : V ok false false 0 (typeIdNode t).items (gTypeId u t) := by
  unfold gTypeId
  split
  · rename_i q hq
    rw [h] at hq; cases hq
  · exact V.anyAt.cast (by simp [typeIdNode, h])

theorem v_elem (e : EnumElem δ) : V ok false false 0 (enumElemNode e).items (gElem u e) := by
  unfold gElem
  refine ((V.ident K).seq0 (c := itemsL (optNode exprNode e.expr)) ?_).cast (by simp [enumElemNode])
  split
  · rename_i h; rw [h]; exact V.eps
  · rename_i x h; rw [h]; exact ((V.sym K).then' (V.expr K)).cast (by simp)

theorem v_elems : ∀ es : List (EnumElem δ), V ok false false 0 (itemsL (es.map fun e => some (enumElemNode e))) (gElems u es)
  | [] => .never
  | [e] => ((v_elem K e).seq0 (V.lookSym K)).cast (by simp)
  | e :: f :: rest => ((v_elem K e).seq0 ((V.sym K).then' (v_elems (f :: rest)))).cast (by simp)

theorem v_typeIds : ∀ es : List (TypeId δ), V ok false false 0 (itemsL (es.map fun e => some (typeIdNode e))) (gTypeIds u es)
  | [] => .never
  | [e] => ((v_typeId K e).seq0 (V.lookSym K)).cast (by simp)
  | e :: f :: rest => ((v_typeId K e).seq0 ((V.sym K).then' (v_typeIds (f :: rest)))).cast (by simp)

theorem v_heritage (es : List (TypeId δ)) : V ok false false 0 (itemsL (es.map fun e => some (typeIdNode e))) (gHeritage u es) :=
  .alt (.given fun h => by rw [h]; exact V.eps) (((V.sym K).then' ((v_typeIds K es).seq0 (V.sym K))).cast (by simp))

theorem v_directives {s : Bool} : ∀ ds : List Str, V ok s s 0 [] (gDirectives u ds)
  | [] => .eps
  | w :: rest => .given fun h => V.then' (m := s) (V.weakE (V.tkP fun t (ht : u.toUpper (t.value u) = w) => K.upup (by
      rw [ht]
      exact List.mem_append_left _ (List.mem_append_right _ h)))) (.alt (.given fun _ => .look) ((V.weakE (V.sym K)).then' (v_directives rest)))

theorem v_parmOpt {s : Bool} (o : Option ParmOpt) : V ok s s 0 [] (gParmOpt u o) := by
  unfold gParmOpt
  split
  · exact .eps
  all_goals exact .weakE (V.kw K)

theorem v_default {s : Bool} (o : Option (Expr δ)) : V ok s s 0 (itemsL (optNode exprNode o)) (gDefault u o) := by
  unfold gDefault
  split
  · exact .eps
  · exact (V.weakE ((V.sym K).then' (V.expr K))).cast (by simp)

theorem v_return (fn : Bool) (o : Option (TypeId δ)) : V ok true true 0 (itemsL (optNode typeIdNode o)) (gReturn u fn o) := by
  unfold gReturn
  split
  · exact ((V.sym K).then' (v_typeId K _)).cast (by simp)
  · exact .eps
  · exact .never

theorem v_funcWord {s : Bool} (fn : Bool) : V ok s false 0 [] (gFuncWord u fn) := V.val K (by cases fn <;> decide)
theorem v_ofObject {s : Bool} (o : Bool) : V ok s s 0 [] (gOfObject u o) := by
  unfold gOfObject
  split
  · exact .weakE ((V.kw K).then' (V.kw (s := false) K))
  · exact .eps
theorem v_arrayOf {s : Bool} (o : Bool) : V ok s s 0 [] (gArrayOf u o) := by
  unfold gArrayOf
  split
  · exact .weakE ((V.kw K).then' (V.kw (s := false) K))
  · exact .eps
theorem v_packed {s : Bool} (o : Bool) : V ok s s 0 [] (gPacked u o) := by
  unfold gPacked
  split
  · exact .weakE (V.kw K)
  · exact .eps

theorem v_accessor {s : Bool} (w : Str) (hw : w ∈ roleWords) (o : Option (IdentRef δ)) :
    V ok s s 0 (itemsL (optNode identRefNode o)) (gAccessor u w o) := by
  unfold gAccessor
  split
  · exact .eps
  · exact (V.weakE ((V.up K hw).then' .anyAt)).cast (by simp)
theorem v_propIndex {s : Bool} (o : Option (Expr δ)) : V ok s s 0 (itemsL (optNode exprNode o)) (gPropIndex u o) := by
  unfold gPropIndex
  split
  · exact .eps
  · exact (V.weakE ((V.up K (by decide)).then' (V.expr K))).cast (by simp)
theorem v_stored {s : Bool} (o : Option (Stored δ)) : V ok s s 0 (itemsL (optNode storedNode o)) (gStored u o) := by
  unfold gStored
  split
  · exact .eps
  · rename_i b
    refine (V.weakE ((V.up K (by decide)).then' (V.tkP (s := false) fun t (h : u.toLower (t.value u) = _) => K.bool ?_))).cast
      (by simp [storedNode])
    rw [h]; cases b <;> decide
  · exact (V.weakE ((V.up K (by decide)).then' .anyAt)).cast (by simp [storedNode])
theorem v_propDefault {s : Bool} (o : Option (PropDefault δ)) :
    V ok s s 0 (itemsL (optNode propDefaultNode o)) (gPropDefault u o) := by
  unfold gPropDefault
  split
  · exact .eps
  · exact (V.weakE ((V.up K (by decide)).then' (V.expr K))).cast (by simp [propDefaultNode])
  · exact V.look.cast (by simp [propDefaultNode])
theorem v_implements (t : TypeId δ) : V ok false true 0 (itemsL (optNode typeIdNode (some t))) (gImplements u (some t)) :=
  ((v_typeId K t).of_imp fun _ _ h => h.1).cast (by simp)

/-- the members of a class begin: a visibility word, or a name that is none -/
theorem v_visibility (v : Visibility) : V ok false false 0 [] (gVisibility u v) := by
  cases v
  · exact .look
  all_goals exact .tkP fun t h => up_ok K h.2 (by decide)
theorem v_visibility' (v : Visibility) : V ok true false 0 [] (Spec.look (EndsProps u) ▹ gVisibility u v) := by
  cases v
  · rintro m r x y z st ⟨w, ⟨rfl, t, q, rfl, ht⟩, -, t', q', e, h', h⟩ hz
    cases e
    rcases ht with ht | ht
    · exact (h ht).elim
    · rw [ht.1] at h'; cases h'
  all_goals exact V.look.then' (.tkP fun t h => up_ok K h.2 (by decide))

omit K in
theorem gProps_look : ∀ (ps : Props δ) {x y : List Token}, gProps u ps x y → Spec.look (EndsProps u) y y
  | .nil, x, y, h => by
    rw [gProps] at h
    obtain ⟨rfl, h⟩ := h
    exact ⟨rfl, h⟩
  | .cons p rest, x, y, h => by
    rw [gProps] at h
    obtain ⟨w, -, w', -, h⟩ := h
    exact gProps_look rest h
omit K in
theorem gProps_ends (ps : Props δ) {x y : List Token} (h : gProps u ps x y) : (gProps u ps ▹ Spec.look (EndsProps u)) x y :=
  ⟨y, h, gProps_look ps h⟩

mutual
theorem v_type : ∀ t : PType δ, RegType t → V ok false true 0 (itemsL [typeNode t]) (gType u t)
  | .nil, _ => by rw [gType]; exact V.look.weakE.cast (by simp [typeNode])
  | .id t, _ => by rw [gType]; exact ((v_typeId K t).of_imp fun _ _ h => h.1).cast (by simp [typeNode])
  | .enum es, _ => by
    rw [gType]
    exact V.weakE ((V.sym K).then' ((v_elems K es).seq0 (V.sym K))) |>.cast (by simp [typeNode])
  | .subrange lo hi, _ => by
    rw [gType]
    exact V.weakE ((V.expr K).seq0 ((V.val K (by decide)).then' (V.expr K))) |>.cast (by simp [typeNode])
  | .pointer t, _ => by
    rw [gType]
    exact ((V.sym K).then' (v_typeId K t)).cast (by simp [typeNode])
  | .fixedString i e, _ => by
    rw [gType]
    exact V.weakE ((V.at K).seq0 ((V.sym K).then' ((V.expr K).seq0 (V.sym K)))) |>.cast (by simp [typeNode])
  | .array p ix base, r => by
    rw [RegType] at r
    rw [gType]
    have h1 := (v_packed (s := false) K p).then' ((V.kw K (w := r!"ARRAY")).then' ((v_index ix r.1).seq0 ((V.kw K (w := r!"OF")).then' (v_type base r.2))))
    have h2 := (V.alt (v_packed (s := false) K true) .eps).then' ((V.kw K (w := r!"ARRAY")).then' ((v_index ix r.1).seq0 ((V.kw K (w := r!"OF")).then'
      ((v_type base r.2).seq0 (V.kw K (w := r!"PACKED"))))))
    exact .alt (h1.cast (by simp [typeNode])) (.given fun _ => h2.weakE.cast (by simp [typeNode]))
  | .set p t, r => by
    rw [RegType] at r
    rw [gType]
    exact ((v_packed K p).then' ((V.kw K).then' ((V.kw K).then' (v_type t r)))).cast (by simp [typeNode])
  | .file p t, _ => by
    rw [gType]
    exact ((v_packed K p).then' ((V.kw K).then' ((V.kw K).then' (v_typeId K t)))).cast (by simp [typeNode])
  | .record p fl, r => by
    rw [RegType] at r
    rw [gType]
    exact V.weakE ((v_packed K p).then' ((V.kw K).then' ((v_fieldList (fun t h => by simp [h.1]) fl r).seq0 (V.lookKw K)))) |>.cast
      (by simp [typeNode])
  | .proc fn ps ret o, r => by
    rw [RegType] at r
    rw [gType]
    exact ((v_funcWord K fn).then' ((V.weakE (v_optParams (s := false) _ _ ps r)).seq0 ((v_return K fn ret).seq0 (v_ofObject K o)))).cast
      (by simp [typeNode])
  | .forward, _ => by
    rw [gType]
    exact V.weakE ((V.kw K).then' (V.lookSym (s := false) K)) |>.cast (by simp [typeNode])
  | .classRef t, _ => by
    rw [gType]
    exact .given fun h => ((V.kw K).then' ((V.kw (s := false) K).then' (.lookHit (i := .name t.ident) fun _ h => ⟨h.2, h.1⟩))).cast
      (by simp [typeNode, typeIdNode, h])
  | .cls h ms, r => by
    rw [RegType] at r
    rw [gType]
    refine ((V.kw K).then' ((v_heritage K h).seq0 (V.alt (.given fun e => ?_) (v_sects ms r).1.weakE))).cast (by simp [typeNode])
    rw [e]
    exact V.look.weakE.cast (by simp [sectNodes])
theorem v_index : ∀ t : OptPTypes δ, RegIndex t → V ok false false 0 (itemsL (indexNodes t)) (gIndex u t)
  | .none, _ => by rw [gIndex]; exact V.eps.cast (by simp [indexNodes])
  | .some ts, r => by
    rw [RegIndex] at r
    rw [gIndex]
    exact ((V.sym K).then' ((v_indexTypes ts r).seq0 (V.sym K))).cast (by simp [indexNodes])
theorem v_indexTypes : ∀ t : PTypes δ, RegTypes t → V ok false false 0 (itemsL (typeNodes t)) (gIndexTypes u t)
  | .one t, r => by
    rw [RegTypes] at r
    rw [gIndexTypes]
    exact ((v_type t r).seq0 (V.lookSym K)).cast (by simp [typeNodes])
  | .cons t rest, r => by
    rw [RegTypes] at r
    rw [gIndexTypes]
    exact ((v_type t r.1).seq0 ((V.sym K).then' (v_indexTypes rest r.2))).cast (by rw [typeNodes]; exact (itemsL_cons _ _).symm)
theorem v_fieldList {term : Token → Prop} (ht : ∀ t, term t → t.typ ≠ .ident) : ∀ t : FieldList δ, RegFieldList t →
    V ok false false 0 (fieldListNode t).items (gFieldList u term t)
  | .mk fs v, r => by
    rw [RegFieldList] at r
    rw [gFieldList]
    refine ((v_fields ht fs r.1).seq0 (V.alt (.given fun e => ?_) (v_variant v r.2))).cast (by simp [fieldListNode])
    rw [e]
    exact (V.lookNo ht).cast (by simp [variantNode])
theorem v_fields {term : Token → Prop} (ht : ∀ t, term t → t.typ ≠ .ident) : ∀ t : Fields δ, RegFields t →
    V ok false false 0 (itemsL (fieldNodes t)) (gFields u term t)
  | .nil, _ => by rw [gFields]; exact V.look.cast (by simp [fieldNodes])
  | .cons is t rest, r => by
    rw [RegFields] at r
    rw [gFields]
    refine ((v_idents K is).seq0 ((V.sym K).then' ((v_type t r.1).seq0 (V.alt (.given fun e => ?_)
      ((V.sym K).then' (v_fields ht rest r.2)))))).cast (by simp [fieldNodes])
    rw [e]
    exact (V.lookNo ht).cast (by simp [fieldNodes])
theorem v_variant : ∀ t : OptVariant δ, RegVariant t → V ok false false 0 (itemsL (variantNode t)) (gVariant u t)
  | .none, _ => by rw [gVariant]; exact .never
  | .some i t vs, r => by
    rw [RegVariant] at r
    rw [gVariant]
    obtain ⟨rfl, r1, r2⟩ := r
    exact ((V.kw K).then' (V.eps.then' ((v_type t r1).seq0 ((V.kw K).then' (v_variants vs r2))))).cast (by
      simp only [variantNode, itemsL_some, items_mk, itemsL_nil, List.append_nil]
      exact Eq.trans (by simp) (itemsL_cons _ _).symm)
theorem v_variants : ∀ t : Variants δ, RegVariants t → V ok false false 0 (itemsL (variantNodes t)) (gVariants u t)
  | .nil, _ => by rw [gVariants]; exact (V.lookKw K).cast (by simp [variantNodes])
  | .cons es fl rest, r => by
    rw [RegVariants] at r
    rw [gVariants]
    refine ((V.exprs K).seq0 ((V.sym K).then' ((V.sym K).then' ((v_fieldList (fun t h => by simp [h.1]) fl r.1).seq0
      (V.then' (m := false) (.tkP fun t h => h.elim K.sym K.kw) (V.alt (.given fun e => ?_)
        ((V.sym K).then' (v_variants rest r.2)))))))).cast (by simp [variantNodes])
    rw [e]
    exact (V.lookKw K).cast (by simp [variantNodes])
theorem v_optParams {s : Bool} (op cl : Str) : ∀ t : OptParams δ, RegOptParams t →
    V ok s s 0 (itemsL (optParamsNode t)) (gOptParams u op cl t)
  | .none, _ => by rw [gOptParams]; exact V.eps.cast (by simp [optParamsNode])
  | .some ps, r => by
    rw [RegOptParams] at r
    rw [gOptParams]
    exact V.weakE ((V.sym K).then' ((v_params cl ps r).seq0 (V.sym K))) |>.cast (by simp [optParamsNode])
theorem v_params (cl : Str) : ∀ t : Params δ, RegParams t → V ok false false 0 (itemsL (paramNodes t)) (gParams u cl t)
  | .one opt is t e, r => by
    rw [RegParams] at r
    rw [gParams]
    exact ((v_parmOpt K opt).then' ((v_idents K is).seq0 ((v_paramTy t r).seq0 ((v_default K e).seq0 (V.lookSym K))))).cast
      (by simp [paramNodes])
  | .cons opt is t e rest, r => by
    rw [RegParams] at r
    rw [gParams]
    exact ((v_parmOpt K opt).then' ((v_idents K is).seq0 ((v_paramTy t r.1).seq0 ((v_default K e).seq0 ((V.sym K).then'
      (v_params cl rest r.2)))))).cast (by simp [paramNodes])
theorem v_paramTy : ∀ t : ParamTy δ, RegParamTy t → V ok false true 0 (itemsL (paramTyNode t)) (gParamTy u t)
  | .none, _ => by rw [gParamTy]; exact V.eps.weakE.cast (by simp [paramTyNode])
  | .some arr t, r => by
    rw [RegParamTy] at r
    rw [gParamTy]
    refine ((V.sym K).then' ((v_arrayOf K arr).then' (V.alt (v_type t r) (.given fun e => ?_)))).cast (by simp [paramTyNode])
    rw [e.2]
    exact (V.kw K).weakE.cast (by simp [typeNode])
theorem v_sects : ∀ t : Sects δ, RegSects t → V ok false false 0 (itemsL (sectNodes t)) (gSects u t) ∧
    V ok true false 0 (itemsL (sectNodes t)) (Spec.look (EndsProps u) ▹ gSects u t)
  | .nil, _ => by
    rw [gSects]
    exact ⟨.never, V.look.then' .never⟩
  | .cons v fs ms ps rest, r => by
    rw [RegSects] at r
    obtain ⟨r1, r2, r3, r4⟩ := r
    obtain ⟨i1, i2⟩ := v_sects rest r4
    have body : V ok false false 0 (itemsL (fieldNodes fs) ++ (itemsL (methodNodes ms) ++ (itemsL (propNodes ps) ++ itemsL (sectNodes rest))))
        ((Spec.given (fs = .nil ∧ ms = .nil ∧ ps = .nil) (Spec.look (IsKw u r!"END")) ∣∣ gClassFields u fs ▹ gMethods u ms ▹ gProps u ps) ▹
          (Spec.given (rest = .nil) (Spec.look (IsKw u r!"END")) ∣∣ gSects u rest)) := by
      have e0 : rest = .nil → itemsL (sectNodes rest) = [] := fun e => by simp [e, sectNodes]
      have a1 : V ok false false 0 (itemsL (sectNodes rest)) (Spec.given (rest = .nil) (Spec.look (IsKw u r!"END")) ∣∣ gSects u rest) :=
        .alt (.given fun e => by rw [e0 e]; exact V.lookKw K) i1
      have a2 : V ok true false 0 (itemsL (sectNodes rest))
          (Spec.look (EndsProps u) ▹ (Spec.given (rest = .nil) (Spec.look (IsKw u r!"END")) ∣∣ gSects u rest)) :=
        (V.alt (.given (p := rest = .nil) (b := Spec.look (EndsProps u) ▹ Spec.look (IsKw u r!"END")) fun e => by
          rw [e0 e]; exact V.look.then' (V.lookKw K)) i2).of_imp (by
          rintro x y ⟨w, h1, h2 | h2⟩
          · exact .inl ⟨h2.1, w, h1, h2.2⟩
          · exact .inr ⟨w, h1, h2⟩)
      have b1 := (v_classFields fs r1).seq0 ((v_methods ms r2).seq0 ((v_props ps r3).seq0 a2))
      rintro m a x y z st ⟨w, ⟨⟨rfl, rfl, rfl⟩, h1⟩ | h1, h2⟩ hz
      · exact ((V.lookKw K).then' a1).cast (by simp [fieldNodes, methodNodes, propNodes]) _ _ _ _ _ st ⟨w, h1, h2⟩ hz
      · obtain ⟨w1, h3, w2, h4, h5⟩ := h1
        obtain ⟨w3, h6, h7⟩ := gProps_ends ps h5
        exact b1 _ _ _ _ _ st ⟨w1, h3, w2, h4, w3, h6, w, h7, h2⟩ hz
    rw [gSects]
    constructor
    · exact ((v_visibility K v).then' body).cast (by simp [sectNodes])
    · refine (((v_visibility' K v).then' body).of_imp ?_).cast (by simp [sectNodes])
      rintro x y ⟨w, h1, w', h2, h3⟩
      exact ⟨w', ⟨w, h1, h2⟩, h3⟩
theorem v_classFields : ∀ t : Fields δ, RegFields t → V ok false true 0 (itemsL (fieldNodes t)) (gClassFields u t)
  | .nil, _ => by rw [gClassFields]; exact V.look.weakE.cast (by simp [fieldNodes])
  | .cons is t rest, r => by
    rw [RegFields] at r
    rw [gClassFields]
    refine ((v_idents K is).seq0 ((V.sym K).then' ((v_type t r.1).seq0 (V.alt (.given fun e => ?_)
      ((V.sym K).then' (v_classFields rest r.2)))))).cast (by simp [fieldNodes])
    rw [e]
    exact V.look.cast (by simp [fieldNodes])
theorem v_methods : ∀ t : Methods δ, RegMethods t → V ok true true 0 (itemsL (methodNodes t)) (gMethods u t)
  | .nil, _ => by rw [gMethods]; exact V.look.cast (by simp [methodNodes])
  | .cons h ds rest, r => by
    rw [RegMethods] at r
    rw [gMethods]
    exact ((v_heading h r.1).seq0 ((V.semi K).then' ((v_directives K ds).then' ((V.semi K).then' (v_methods rest r.2))))).cast
      (by simp [methodNodes])
theorem v_heading : ∀ t : Heading δ, RegHeading t → V ok true true 0 (headingNode t).items (gHeading u t)
  | .func fn i ps ret, r => by
    rw [RegHeading] at r
    rw [gHeading]
    exact ((v_funcWord K fn).then' ((V.ident K).seq0 ((V.weakE (v_optParams (s := false) _ _ ps r)).seq0 (v_return K fn ret)))).cast
      (by simp [headingNode])
  | .ctor i ps, r => by
    rw [RegHeading] at r
    rw [gHeading]
    exact V.weakE ((V.kw K).then' (V.anyAt.seq0 (v_optParams (s := false) _ _ ps r))) |>.cast (by simp [headingNode])
  | .dtor i, _ => by
    rw [gHeading]
    exact V.weakE ((V.kw K).then' V.anyAt) |>.cast (by simp [headingNode])
theorem v_props : ∀ t : Props δ, RegProps t → V ok true true 0 (itemsL (propNodes t)) (gProps u t)
  | .nil, _ => by rw [gProps]; exact V.look.cast (by simp [propNodes])
  | .cons p rest, r => by
    rw [RegProps] at r
    rw [gProps]
    exact ((v_prop p r.1).seq0 ((V.semi K).then' (v_props rest r.2))).cast (by simp [propNodes])
theorem v_prop : ∀ t : ClassProp δ, RegProp t → V ok true true 0 (propNode t).items (gProp u t)
  | .mk i intf ix rd wr st df im _, r => by
    rw [RegProp] at r
    rw [gProp]
    obtain ⟨q1, q2⟩ := v_intf (im = none) intf r
    cases im with
    | none =>
      exact ((V.kw K).then' (V.anyAt.seq0 (q1.seq0 ((v_propIndex K ix).seq0 ((v_accessor K _ (by decide) rd).seq0
        ((v_accessor K _ (by decide) wr).seq0 ((v_stored K st).seq0 ((v_propDefault K df).seq0 V.eps)))))))).cast (by simp [propNode])
    | some t =>
      exact ((V.kw K).then' (V.anyAt.seq0 ((q2 (by simp)).seq0 ((v_propIndex K ix).seq0 ((v_accessor K _ (by decide) rd).seq0
        ((v_accessor K _ (by decide) wr).seq0 ((v_stored K st).seq0 ((v_propDefault K df).seq0 (v_implements K t))))))))).cast
        (by simp [propNode])
theorem v_intf (p : Prop) : ∀ t : OptIntf δ, RegIntf p t → V ok false true 0 (itemsL (intfNode t)) (gIntf u t) ∧
    (¬ p → V ok false false 0 (itemsL (intfNode t)) (gIntf u t))
  | .none, _ => by
    rw [gIntf]
    exact ⟨V.eps.weakE.cast (by simp [intfNode]), fun _ => V.eps.cast (by simp [intfNode])⟩
  | .some ps t, r => by
    rw [RegIntf] at r
    rw [gIntf]
    refine ⟨((v_optParams _ _ ps r.1).seq0 ((V.sym K).then' (v_typeId K t))).cast (by simp [intfNode]), fun hp => ?_⟩
    exact ((v_optParams _ _ ps r.1).seq0 ((V.sym K).then' (v_typeId_plain K t (r.2.resolve_left hp)))).cast (by simp [intfNode])
end

end

end TP
