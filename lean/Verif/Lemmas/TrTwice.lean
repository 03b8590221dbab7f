import Verif.Lemmas.TrId

/-!
# Replacing twice
-/

set_option linter.unusedSimpArgs false
set_option linter.unusedTactic false
set_option linter.unnecessarySeqFocus false
set_option linter.unreachableTactic false

namespace TP
open Spec
variable {δ ε ζ : Type}

/-- first the one replacement, then the other -/
def Spec.Tr.then (m : Tr δ ε) (m' : Tr ε ζ) : Tr δ ζ :=
  ⟨fun i d => m'.decl (m.id i) (m.decl i d), fun i => m'.ref (m.ref i), fun i => m'.id (m.id i), fun s => m'.str (m.str s)⟩

variable {m : Tr δ ε} {m' : Tr ε ζ}

theorem map_then {α β γ : Type} {f : α → β} {g : β → γ} {h : α → γ} (H : ∀ x, g (f x) = h x) (l : List α) : (l.map f).map g = l.map h := by
  rw [List.map_map]
  exact List.map_congr_left fun x _ => H x

theorem omap_then {α β γ : Type} {f : α → β} {g : β → γ} {h : α → γ} (H : ∀ x, g (f x) = h x) (l : Option α) : (l.map f).map g = l.map h := by
  cases l with
  | none => rfl
  | some x => exact congrArg some (H x)

theorem then_strs (l : List Str) : (l.map m.str).map m'.str = l.map (m.then m').str := map_then (fun _ => rfl) l
theorem then_str? (l : Option Str) : (l.map m.str).map m'.str = l.map (m.then m').str := omap_then (fun _ => rfl) l
theorem then_ids (l : List Ident) : (l.map m.id).map m'.id = l.map (m.then m').id := map_then (fun _ => rfl) l
theorem then_id? (l : Option Ident) : (l.map m.id).map m'.id = l.map (m.then m').id := omap_then (fun _ => rfl) l
theorem then_decl? (i : Ident) (l : Option δ) : (l.map (m.decl i)).map (m'.decl (m.id i)) = l.map ((m.then m').decl i) := omap_then (fun _ => rfl) l

theorem IdentRef.tr_tr (r : IdentRef δ) : (r.tr m).tr m' = r.tr (m.then m') := by
  obtain ⟨i, r⟩ := r
  cases r <;> rfl

theorem QualId.tr_tr (q : QualId δ) : (q.tr m).tr m' = q.tr (m.then m') := by
  obtain ⟨ns, i⟩ := q
  simp only [QualId.tr, IdentRef.tr_tr, omap_then IdentRef.tr_tr]

mutual
theorem Expr.tr_tr : ∀ e : Expr δ, (e.tr m).tr m' = e.tr (m.then m')
  | .mk se rest => by (simp only [Expr.tr, SExpr.tr_tr se, RelTail.tr_tr rest, then_strs, then_str?, then_ids, then_id?, then_decl?]) <;> rfl
theorem RelTail.tr_tr : ∀ e : RelTail δ, (e.tr m).tr m' = e.tr (m.then m')
  | .nil => by (simp only [RelTail.tr, then_strs, then_str?, then_ids, then_id?, then_decl?]) <;> rfl
  | .cons op se rest => by (simp only [RelTail.tr, SExpr.tr_tr se, RelTail.tr_tr rest, then_strs, then_str?, then_ids, then_id?, then_decl?]) <;> rfl
theorem SExpr.tr_tr : ∀ e : SExpr δ, (e.tr m).tr m' = e.tr (m.then m')
  | .mk un t rest => by (simp only [SExpr.tr, Term.tr_tr t, AddTail.tr_tr rest, then_strs, then_str?, then_ids, then_id?, then_decl?]) <;> rfl
theorem AddTail.tr_tr : ∀ e : AddTail δ, (e.tr m).tr m' = e.tr (m.then m')
  | .nil => by (simp only [AddTail.tr, then_strs, then_str?, then_ids, then_id?, then_decl?]) <;> rfl
  | .cons op t rest => by (simp only [AddTail.tr, Term.tr_tr t, AddTail.tr_tr rest, then_strs, then_str?, then_ids, then_id?, then_decl?]) <;> rfl
theorem Term.tr_tr : ∀ e : Term δ, (e.tr m).tr m' = e.tr (m.then m')
  | .mk f rest => by (simp only [Term.tr, Factor.tr_tr f, MulTail.tr_tr rest, then_strs, then_str?, then_ids, then_id?, then_decl?]) <;> rfl
theorem MulTail.tr_tr : ∀ e : MulTail δ, (e.tr m).tr m' = e.tr (m.then m')
  | .nil => by (simp only [MulTail.tr, then_strs, then_str?, then_ids, then_id?, then_decl?]) <;> rfl
  | .cons op f rest => by (simp only [MulTail.tr, Factor.tr_tr f, MulTail.tr_tr rest, then_strs, then_str?, then_ids, then_id?, then_decl?]) <;> rfl
theorem Factor.tr_tr : ∀ e : Factor δ, (e.tr m).tr m' = e.tr (m.then m')
  | .desig d => by (simp only [Factor.tr, Desig.tr_tr d, then_strs, then_str?, then_ids, then_id?, then_decl?]) <;> rfl
  | .call d args => by (simp only [Factor.tr, Desig.tr_tr d, Exprs.tr_tr args, then_strs, then_str?, then_ids, then_id?, then_decl?]) <;> rfl
  | .addr d => by (simp only [Factor.tr, Desig.tr_tr d, then_strs, then_str?, then_ids, then_id?, then_decl?]) <;> rfl
  | .value v => by (simp only [Factor.tr, then_strs, then_str?, then_ids, then_id?, then_decl?]) <;> rfl
  | .str v => by (simp only [Factor.tr, then_strs, then_str?, then_ids, then_id?, then_decl?]) <;> rfl
  | .num v => by (simp only [Factor.tr, then_strs, then_str?, then_ids, then_id?, then_decl?]) <;> rfl
  | .nil => by (simp only [Factor.tr, then_strs, then_str?, then_ids, then_id?, then_decl?]) <;> rfl
  | .paren e => by (simp only [Factor.tr, Expr.tr_tr e, then_strs, then_str?, then_ids, then_id?, then_decl?]) <;> rfl
  | .not f => by (simp only [Factor.tr, Factor.tr_tr f, then_strs, then_str?, then_ids, then_id?, then_decl?]) <;> rfl
  | .set es => by (simp only [Factor.tr, SetElems.tr_tr es, then_strs, then_str?, then_ids, then_id?, then_decl?]) <;> rfl
  | .cast t e => by (simp only [Factor.tr, Expr.tr_tr e, IdentRef.tr_tr, then_strs, then_str?, then_ids, then_id?, then_decl?]) <;> rfl
theorem Desig.tr_tr : ∀ e : Desig δ, (e.tr m).tr m' = e.tr (m.then m')
  | .mk q items => by (simp only [Desig.tr, QualId.tr_tr, Items.tr_tr items, then_strs, then_str?, then_ids, then_id?, then_decl?]) <;> rfl
theorem Items.tr_tr : ∀ e : Items δ, (e.tr m).tr m' = e.tr (m.then m')
  | .nil => by (simp only [Items.tr, then_strs, then_str?, then_ids, then_id?, then_decl?]) <;> rfl
  | .ident i rest => by (simp only [Items.tr, Items.tr_tr rest, then_strs, then_str?, then_ids, then_id?, then_decl?]) <;> rfl
  | .index es rest => by (simp only [Items.tr, Exprs.tr_tr es, Items.tr_tr rest, then_strs, then_str?, then_ids, then_id?, then_decl?]) <;> rfl
  | .deref rest => by (simp only [Items.tr, Items.tr_tr rest, then_strs, then_str?, then_ids, then_id?, then_decl?]) <;> rfl
theorem Exprs.tr_tr : ∀ e : Exprs δ, (e.tr m).tr m' = e.tr (m.then m')
  | .one e => by (simp only [Exprs.tr, Expr.tr_tr e, then_strs, then_str?, then_ids, then_id?, then_decl?]) <;> rfl
  | .cons e rest => by (simp only [Exprs.tr, Expr.tr_tr e, Exprs.tr_tr rest, then_strs, then_str?, then_ids, then_id?, then_decl?]) <;> rfl
theorem SetElems.tr_tr : ∀ e : SetElems δ, (e.tr m).tr m' = e.tr (m.then m')
  | .one e => by (simp only [SetElems.tr, SetElem.tr_tr e, then_strs, then_str?, then_ids, then_id?, then_decl?]) <;> rfl
  | .cons e rest => by (simp only [SetElems.tr, SetElem.tr_tr e, SetElems.tr_tr rest, then_strs, then_str?, then_ids, then_id?, then_decl?]) <;> rfl
theorem SetElem.tr_tr : ∀ e : SetElem δ, (e.tr m).tr m' = e.tr (m.then m')
  | .single e => by (simp only [SetElem.tr, Expr.tr_tr e, then_strs, then_str?, then_ids, then_id?, then_decl?]) <;> rfl
  | .range lo hi => by (simp only [SetElem.tr, Expr.tr_tr lo, Expr.tr_tr hi, then_strs, then_str?, then_ids, then_id?, then_decl?]) <;> rfl
end

theorem TRef.tr_tr (i : Ident) (r : TRef δ) : (r.tr m i).tr m' (m.id i) = r.tr (m.then m') i := by cases r <;> rfl

theorem TypeId.tr_tr (t : TypeId δ) : (t.tr m).tr m' = t.tr (m.then m') := by
  obtain ⟨a, b, c⟩ := t
  (simp only [TypeId.tr_mk, TRef.tr_tr, then_strs, then_str?, then_ids, then_id?, then_decl?]) <;> rfl

theorem EnumElem.tr_tr (t : EnumElem δ) : (t.tr m).tr m' = t.tr (m.then m') := by
  obtain ⟨a, b⟩ := t
  (simp only [EnumElem.tr_mk, omap_then Expr.tr_tr, then_strs, then_str?, then_ids, then_id?, then_decl?]) <;> rfl

theorem Stored.tr_tr (t : Stored δ) : (t.tr m).tr m' = t.tr (m.then m') := by
  cases t
  · rfl
  · simp only [Stored.tr, IdentRef.tr_tr]

theorem PropDefault.tr_tr (t : PropDefault δ) : (t.tr m).tr m' = t.tr (m.then m') := by
  cases t
  · simp only [PropDefault.tr, Expr.tr_tr]
  · rfl

mutual
theorem PType.tr_tr : ∀ e : PType δ, (e.tr m).tr m' = e.tr (m.then m')
  | .nil => by (simp only [PType.tr, then_strs, then_str?, then_ids, then_id?, then_decl?]) <;> rfl
  | .id t => by (simp only [PType.tr, TypeId.tr_tr, then_strs, then_str?, then_ids, then_id?, then_decl?]) <;> rfl
  | .enum es => by (simp only [PType.tr, map_then EnumElem.tr_tr, then_strs, then_str?, then_ids, then_id?, then_decl?]) <;> rfl
  | .subrange lo hi => by (simp only [PType.tr, Expr.tr_tr, Expr.tr_tr, then_strs, then_str?, then_ids, then_id?, then_decl?]) <;> rfl
  | .pointer t => by (simp only [PType.tr, TypeId.tr_tr, then_strs, then_str?, then_ids, then_id?, then_decl?]) <;> rfl
  | .fixedString i len => by (simp only [PType.tr, Expr.tr_tr, then_strs, then_str?, then_ids, then_id?, then_decl?]) <;> rfl
  | .array packed index base => by (simp only [PType.tr, OptPTypes.tr_tr index, PType.tr_tr base, then_strs, then_str?, then_ids, then_id?, then_decl?]) <;> rfl
  | .set packed elem => by (simp only [PType.tr, PType.tr_tr elem, then_strs, then_str?, then_ids, then_id?, then_decl?]) <;> rfl
  | .file packed t => by (simp only [PType.tr, TypeId.tr_tr, then_strs, then_str?, then_ids, then_id?, then_decl?]) <;> rfl
  | .record packed fl => by (simp only [PType.tr, FieldList.tr_tr fl, then_strs, then_str?, then_ids, then_id?, then_decl?]) <;> rfl
  | .proc fn ps ret o => by (simp only [PType.tr, OptParams.tr_tr ps, omap_then TypeId.tr_tr, then_strs, then_str?, then_ids, then_id?, then_decl?]) <;> rfl
  | .forward => by (simp only [PType.tr, then_strs, then_str?, then_ids, then_id?, then_decl?]) <;> rfl
  | .classRef t => by (simp only [PType.tr, TypeId.tr_tr, then_strs, then_str?, then_ids, then_id?, then_decl?]) <;> rfl
  | .cls h ms => by (simp only [PType.tr, Sects.tr_tr ms, map_then TypeId.tr_tr, then_strs, then_str?, then_ids, then_id?, then_decl?]) <;> rfl
theorem OptPTypes.tr_tr : ∀ e : OptPTypes δ, (e.tr m).tr m' = e.tr (m.then m')
  | .none => by (simp only [OptPTypes.tr, then_strs, then_str?, then_ids, then_id?, then_decl?]) <;> rfl
  | .some ts => by (simp only [OptPTypes.tr, PTypes.tr_tr ts, then_strs, then_str?, then_ids, then_id?, then_decl?]) <;> rfl
theorem PTypes.tr_tr : ∀ e : PTypes δ, (e.tr m).tr m' = e.tr (m.then m')
  | .one t => by (simp only [PTypes.tr, PType.tr_tr t, then_strs, then_str?, then_ids, then_id?, then_decl?]) <;> rfl
  | .cons t rest => by (simp only [PTypes.tr, PType.tr_tr t, PTypes.tr_tr rest, then_strs, then_str?, then_ids, then_id?, then_decl?]) <;> rfl
theorem FieldList.tr_tr : ∀ e : FieldList δ, (e.tr m).tr m' = e.tr (m.then m')
  | .mk fs v => by (simp only [FieldList.tr, Fields.tr_tr fs, OptVariant.tr_tr v, then_strs, then_str?, then_ids, then_id?, then_decl?]) <;> rfl
theorem Fields.tr_tr : ∀ e : Fields δ, (e.tr m).tr m' = e.tr (m.then m')
  | .nil => by (simp only [Fields.tr, then_strs, then_str?, then_ids, then_id?, then_decl?]) <;> rfl
  | .cons is t rest => by (simp only [Fields.tr, PType.tr_tr t, Fields.tr_tr rest, then_strs, then_str?, then_ids, then_id?, then_decl?]) <;> rfl
theorem OptVariant.tr_tr : ∀ e : OptVariant δ, (e.tr m).tr m' = e.tr (m.then m')
  | .none => by (simp only [OptVariant.tr, then_strs, then_str?, then_ids, then_id?, then_decl?]) <;> rfl
  | .some i t vs => by (simp only [OptVariant.tr, PType.tr_tr t, Variants.tr_tr vs, then_strs, then_str?, then_ids, then_id?, then_decl?]) <;> rfl
theorem Variants.tr_tr : ∀ e : Variants δ, (e.tr m).tr m' = e.tr (m.then m')
  | .nil => by (simp only [Variants.tr, then_strs, then_str?, then_ids, then_id?, then_decl?]) <;> rfl
  | .cons es fl rest => by (simp only [Variants.tr, FieldList.tr_tr fl, Variants.tr_tr rest, Exprs.tr_tr, then_strs, then_str?, then_ids, then_id?, then_decl?]) <;> rfl
theorem OptParams.tr_tr : ∀ e : OptParams δ, (e.tr m).tr m' = e.tr (m.then m')
  | .none => by (simp only [OptParams.tr, then_strs, then_str?, then_ids, then_id?, then_decl?]) <;> rfl
  | .some ps => by (simp only [OptParams.tr, Params.tr_tr ps, then_strs, then_str?, then_ids, then_id?, then_decl?]) <;> rfl
theorem Params.tr_tr : ∀ e : Params δ, (e.tr m).tr m' = e.tr (m.then m')
  | .one opt is t dflt => by (simp only [Params.tr, ParamTy.tr_tr t, omap_then Expr.tr_tr, then_strs, then_str?, then_ids, then_id?, then_decl?]) <;> rfl
  | .cons opt is t dflt rest => by (simp only [Params.tr, ParamTy.tr_tr t, omap_then Expr.tr_tr, Params.tr_tr rest, then_strs, then_str?, then_ids, then_id?, then_decl?]) <;> rfl
theorem ParamTy.tr_tr : ∀ e : ParamTy δ, (e.tr m).tr m' = e.tr (m.then m')
  | .none => by (simp only [ParamTy.tr, then_strs, then_str?, then_ids, then_id?, then_decl?]) <;> rfl
  | .some a t => by (simp only [ParamTy.tr, PType.tr_tr t, then_strs, then_str?, then_ids, then_id?, then_decl?]) <;> rfl
theorem Sects.tr_tr : ∀ e : Sects δ, (e.tr m).tr m' = e.tr (m.then m')
  | .nil => by (simp only [Sects.tr, then_strs, then_str?, then_ids, then_id?, then_decl?]) <;> rfl
  | .cons v fs ms ps rest => by (simp only [Sects.tr, Fields.tr_tr fs, Methods.tr_tr ms, Props.tr_tr ps, Sects.tr_tr rest, then_strs, then_str?, then_ids, then_id?, then_decl?]) <;> rfl
theorem Methods.tr_tr : ∀ e : Methods δ, (e.tr m).tr m' = e.tr (m.then m')
  | .nil => by (simp only [Methods.tr, then_strs, then_str?, then_ids, then_id?, then_decl?]) <;> rfl
  | .cons h ds rest => by (simp only [Methods.tr, Heading.tr_tr h, Methods.tr_tr rest, then_strs, then_str?, then_ids, then_id?, then_decl?]) <;> rfl
theorem Heading.tr_tr : ∀ e : Heading δ, (e.tr m).tr m' = e.tr (m.then m')
  | .func fn i ps ret => by (simp only [Heading.tr, OptParams.tr_tr ps, omap_then TypeId.tr_tr, then_strs, then_str?, then_ids, then_id?, then_decl?]) <;> rfl
  | .ctor i ps => by (simp only [Heading.tr, OptParams.tr_tr ps, then_strs, then_str?, then_ids, then_id?, then_decl?]) <;> rfl
  | .dtor i => by (simp only [Heading.tr, then_strs, then_str?, then_ids, then_id?, then_decl?]) <;> rfl
theorem Props.tr_tr : ∀ e : Props δ, (e.tr m).tr m' = e.tr (m.then m')
  | .nil => by (simp only [Props.tr, then_strs, then_str?, then_ids, then_id?, then_decl?]) <;> rfl
  | .cons p rest => by (simp only [Props.tr, ClassProp.tr_tr p, Props.tr_tr rest, then_strs, then_str?, then_ids, then_id?, then_decl?]) <;> rfl
theorem ClassProp.tr_tr : ∀ e : ClassProp δ, (e.tr m).tr m' = e.tr (m.then m')
  | .mk i intf ix rd wr st df impl parent => by
    (simp only [ClassProp.tr, OptIntf.tr_tr intf, omap_then Expr.tr_tr, omap_then IdentRef.tr_tr, omap_then Stored.tr_tr, omap_then PropDefault.tr_tr, omap_then TypeId.tr_tr, then_strs, then_str?, then_ids, then_id?, then_decl?]) <;> rfl
theorem OptIntf.tr_tr : ∀ e : OptIntf δ, (e.tr m).tr m' = e.tr (m.then m')
  | .none => by (simp only [OptIntf.tr, then_strs, then_str?, then_ids, then_id?, then_decl?]) <;> rfl
  | .some ps t => by (simp only [OptIntf.tr, OptParams.tr_tr ps, TypeId.tr_tr, then_strs, then_str?, then_ids, then_id?, then_decl?]) <;> rfl
end


theorem DKind.tr_tr (k : DKind δ) : (k.tr m).tr m' = k.tr (m.then m') := by
  cases k with
  | type t => exact congrArg DKind.type (PType.tr_tr t)
  | _ => rfl

theorem DKind.tr_one (k : DKind δ) : k.tr Tr.one = k := by
  cases k with
  | type t => exact congrArg DKind.type (PType.tr_one t)
  | _ => rfl

end TP
