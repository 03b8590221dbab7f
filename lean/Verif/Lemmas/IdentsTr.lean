import Verif.Spec.Idents
import Verif.Lemmas.TrTwice

/-!
# The identifiers of a tree whose leaves are replaced
-/

set_option linter.unusedSimpArgs false
set_option linter.unusedSectionVars false

namespace TP
open Spec
variable {δ ε : Type} {m : Tr δ ε}

theorem ids_toList (o : Option Ident) : (o.map m.id).toList = o.toList.map m.id := by cases o <;> rfl

theorem ids_list {α β : Type} {f : α → β} {g : β → List Ident} {h : α → List Ident} (H : ∀ x, g (f x) = (h x).map m.id) (l : List α) :
    (l.map f).flatMap g = (l.flatMap h).map m.id := by
  induction l with
  | nil => rfl
  | cons x l ih => rw [List.map_cons, List.flatMap_cons, List.flatMap_cons, List.map_append, H x, ih]

theorem ids_opt {α β : Type} {f : α → β} {g : β → List Ident} {h : α → List Ident} (H : ∀ x, g (f x) = (h x).map m.id) (o : Option α) :
    (o.map f).toList.flatMap g = (o.toList.flatMap h).map m.id := by
  cases o with
  | none => rfl
  | some x => simpa using H x

theorem IdentRef.ids_tr (r : IdentRef δ) : (r.tr m).ids = r.ids.map m.id := rfl

theorem QualId.ids_tr (q : QualId δ) : (q.tr m).ids = q.ids.map m.id := by
  simp only [QualId.ids, QualId.tr, IdentRef.ids_tr, ids_opt IdentRef.ids_tr, List.map_append]

mutual
theorem Expr.ids_tr : ∀ e : Expr δ, (e.tr m).ids = e.ids.map m.id
  | .mk se rest => by simp only [Expr.tr, Expr.ids, se.ids_tr, rest.ids_tr, ids_toList, List.map_append, List.map_cons, List.map_nil, List.cons_append, List.nil_append]
theorem RelTail.ids_tr : ∀ e : RelTail δ, (e.tr m).ids = e.ids.map m.id
  | .nil => by simp only [RelTail.tr, RelTail.ids, ids_toList, List.map_append, List.map_cons, List.map_nil, List.cons_append, List.nil_append]
  | .cons _ se rest => by simp only [RelTail.tr, RelTail.ids, se.ids_tr, rest.ids_tr, ids_toList, List.map_append, List.map_cons, List.map_nil, List.cons_append, List.nil_append]
theorem SExpr.ids_tr : ∀ e : SExpr δ, (e.tr m).ids = e.ids.map m.id
  | .mk _ t rest => by simp only [SExpr.tr, SExpr.ids, t.ids_tr, rest.ids_tr, ids_toList, List.map_append, List.map_cons, List.map_nil, List.cons_append, List.nil_append]
theorem AddTail.ids_tr : ∀ e : AddTail δ, (e.tr m).ids = e.ids.map m.id
  | .nil => by simp only [AddTail.tr, AddTail.ids, ids_toList, List.map_append, List.map_cons, List.map_nil, List.cons_append, List.nil_append]
  | .cons _ t rest => by simp only [AddTail.tr, AddTail.ids, t.ids_tr, rest.ids_tr, ids_toList, List.map_append, List.map_cons, List.map_nil, List.cons_append, List.nil_append]
theorem Term.ids_tr : ∀ e : Term δ, (e.tr m).ids = e.ids.map m.id
  | .mk f rest => by simp only [Term.tr, Term.ids, f.ids_tr, rest.ids_tr, ids_toList, List.map_append, List.map_cons, List.map_nil, List.cons_append, List.nil_append]
theorem MulTail.ids_tr : ∀ e : MulTail δ, (e.tr m).ids = e.ids.map m.id
  | .nil => by simp only [MulTail.tr, MulTail.ids, ids_toList, List.map_append, List.map_cons, List.map_nil, List.cons_append, List.nil_append]
  | .cons _ f rest => by simp only [MulTail.tr, MulTail.ids, f.ids_tr, rest.ids_tr, ids_toList, List.map_append, List.map_cons, List.map_nil, List.cons_append, List.nil_append]
theorem Factor.ids_tr : ∀ e : Factor δ, (e.tr m).ids = e.ids.map m.id
  | .desig d => by simp only [Factor.tr, Factor.ids, d.ids_tr, ids_toList, List.map_append, List.map_cons, List.map_nil, List.cons_append, List.nil_append]
  | .call d args => by simp only [Factor.tr, Factor.ids, d.ids_tr, args.ids_tr, ids_toList, List.map_append, List.map_cons, List.map_nil, List.cons_append, List.nil_append]
  | .addr d => by simp only [Factor.tr, Factor.ids, d.ids_tr, ids_toList, List.map_append, List.map_cons, List.map_nil, List.cons_append, List.nil_append]
  | .value _ => by simp only [Factor.tr, Factor.ids, ids_toList, List.map_append, List.map_cons, List.map_nil, List.cons_append, List.nil_append]
  | .str _ => by simp only [Factor.tr, Factor.ids, ids_toList, List.map_append, List.map_cons, List.map_nil, List.cons_append, List.nil_append]
  | .num _ => by simp only [Factor.tr, Factor.ids, ids_toList, List.map_append, List.map_cons, List.map_nil, List.cons_append, List.nil_append]
  | .nil => by simp only [Factor.tr, Factor.ids, ids_toList, List.map_append, List.map_cons, List.map_nil, List.cons_append, List.nil_append]
  | .paren e => by simp only [Factor.tr, Factor.ids, e.ids_tr, ids_toList, List.map_append, List.map_cons, List.map_nil, List.cons_append, List.nil_append]
  | .not f => by simp only [Factor.tr, Factor.ids, f.ids_tr, ids_toList, List.map_append, List.map_cons, List.map_nil, List.cons_append, List.nil_append]
  | .set es => by simp only [Factor.tr, Factor.ids, es.ids_tr, ids_toList, List.map_append, List.map_cons, List.map_nil, List.cons_append, List.nil_append]
  | .cast t e => by simp only [Factor.tr, Factor.ids, e.ids_tr, IdentRef.ids_tr, ids_toList, List.map_append, List.map_cons, List.map_nil, List.cons_append, List.nil_append]
theorem Desig.ids_tr : ∀ e : Desig δ, (e.tr m).ids = e.ids.map m.id
  | .mk q items => by simp only [Desig.tr, Desig.ids, items.ids_tr, QualId.ids_tr, ids_toList, List.map_append, List.map_cons, List.map_nil, List.cons_append, List.nil_append]
theorem Items.ids_tr : ∀ e : Items δ, (e.tr m).ids = e.ids.map m.id
  | .nil => by simp only [Items.tr, Items.ids, ids_toList, List.map_append, List.map_cons, List.map_nil, List.cons_append, List.nil_append]
  | .ident _ rest => by simp only [Items.tr, Items.ids, rest.ids_tr, ids_toList, List.map_append, List.map_cons, List.map_nil, List.cons_append, List.nil_append]
  | .index es rest => by simp only [Items.tr, Items.ids, es.ids_tr, rest.ids_tr, ids_toList, List.map_append, List.map_cons, List.map_nil, List.cons_append, List.nil_append]
  | .deref rest => by simp only [Items.tr, Items.ids, rest.ids_tr, ids_toList, List.map_append, List.map_cons, List.map_nil, List.cons_append, List.nil_append]
theorem Exprs.ids_tr : ∀ e : Exprs δ, (e.tr m).ids = e.ids.map m.id
  | .one e => by simp only [Exprs.tr, Exprs.ids, e.ids_tr, ids_toList, List.map_append, List.map_cons, List.map_nil, List.cons_append, List.nil_append]
  | .cons e rest => by simp only [Exprs.tr, Exprs.ids, e.ids_tr, rest.ids_tr, ids_toList, List.map_append, List.map_cons, List.map_nil, List.cons_append, List.nil_append]
theorem SetElems.ids_tr : ∀ e : SetElems δ, (e.tr m).ids = e.ids.map m.id
  | .one e => by simp only [SetElems.tr, SetElems.ids, e.ids_tr, ids_toList, List.map_append, List.map_cons, List.map_nil, List.cons_append, List.nil_append]
  | .cons e rest => by simp only [SetElems.tr, SetElems.ids, e.ids_tr, rest.ids_tr, ids_toList, List.map_append, List.map_cons, List.map_nil, List.cons_append, List.nil_append]
theorem SetElem.ids_tr : ∀ e : SetElem δ, (e.tr m).ids = e.ids.map m.id
  | .single e => by simp only [SetElem.tr, SetElem.ids, e.ids_tr, ids_toList, List.map_append, List.map_cons, List.map_nil, List.cons_append, List.nil_append]
  | .range lo hi => by simp only [SetElem.tr, SetElem.ids, lo.ids_tr, hi.ids_tr, ids_toList, List.map_append, List.map_cons, List.map_nil, List.cons_append, List.nil_append]
end

theorem CaseLabel.ids_tr : ∀ e : CaseLabel δ, (e.tr m).ids = e.ids.map m.id
  | .single e => by simp only [CaseLabel.tr, CaseLabel.ids, e.ids_tr, ids_toList, List.map_append, List.map_cons, List.map_nil, List.cons_append, List.nil_append]
  | .range lo hi => by simp only [CaseLabel.tr, CaseLabel.ids, lo.ids_tr, hi.ids_tr, ids_toList, List.map_append, List.map_cons, List.map_nil, List.cons_append, List.nil_append]

theorem CaseLabels.ids_tr : ∀ e : CaseLabels δ, (e.tr m).ids = e.ids.map m.id
  | .one l => by simp only [CaseLabels.tr, CaseLabels.ids, l.ids_tr, ids_toList, List.map_append, List.map_cons, List.map_nil, List.cons_append, List.nil_append]
  | .cons l rest => by simp only [CaseLabels.tr, CaseLabels.ids, l.ids_tr, rest.ids_tr, ids_toList, List.map_append, List.map_cons, List.map_nil, List.cons_append, List.nil_append]

theorem QualIds.ids_tr : ∀ e : QualIds δ, (e.tr m).ids = e.ids.map m.id
  | .one q => by simp only [QualIds.tr, QualIds.ids, q.ids_tr, ids_toList, List.map_append, List.map_cons, List.map_nil, List.cons_append, List.nil_append]
  | .cons q rest => by simp only [QualIds.tr, QualIds.ids, q.ids_tr, rest.ids_tr, ids_toList, List.map_append, List.map_cons, List.map_nil, List.cons_append, List.nil_append]

section
variable {τ υ : Type} {f : τ → υ} {g : υ → List Ident} {h : τ → List Ident} (hf : ∀ t, g (f t) = (h t).map m.id)
include hf


mutual
theorem Stmt.ids_tr : ∀ e : Stmt δ τ, (e.tr m f).ids g = (e.ids h).map m.id
  | .mk _ b => by simp only [Stmt.tr, Stmt.ids, b.ids_tr, ids_toList, List.map_append, List.map_cons, List.map_nil, List.cons_append, List.nil_append]
theorem Body.ids_tr : ∀ e : Body δ τ, (e.tr m f).ids g = (e.ids h).map m.id
  | .assign d e => by simp only [Body.tr, Body.ids, d.ids_tr, e.ids_tr, ids_toList, List.map_append, List.map_cons, List.map_nil, List.cons_append, List.nil_append]
  | .call d => by simp only [Body.tr, Body.ids, d.ids_tr, ids_toList, List.map_append, List.map_cons, List.map_nil, List.cons_append, List.nil_append]
  | .callArgs d args => by simp only [Body.tr, Body.ids, d.ids_tr, args.ids_tr, ids_toList, List.map_append, List.map_cons, List.map_nil, List.cons_append, List.nil_append]
  | .inherited => by simp only [Body.tr, Body.ids, ids_toList, List.map_append, List.map_cons, List.map_nil, List.cons_append, List.nil_append]
  | .goto l r => by simp only [Body.tr, Body.ids, ids_toList, List.map_append, List.map_cons, List.map_nil, List.cons_append, List.nil_append]
  | .compound l => by simp only [Body.tr, Body.ids, l.ids_tr, ids_toList, List.map_append, List.map_cons, List.map_nil, List.cons_append, List.nil_append]
  | .ifThen c s => by simp only [Body.tr, Body.ids, c.ids_tr, s.ids_tr, ids_toList, List.map_append, List.map_cons, List.map_nil, List.cons_append, List.nil_append]
  | .ifElse c s1 s2 => by simp only [Body.tr, Body.ids, c.ids_tr, s1.ids_tr, s2.ids_tr, ids_toList, List.map_append, List.map_cons, List.map_nil, List.cons_append, List.nil_append]
  | .case e sels els => by simp only [Body.tr, Body.ids, e.ids_tr, sels.ids_tr, els.ids_tr, ids_toList, List.map_append, List.map_cons, List.map_nil, List.cons_append, List.nil_append]
  | .repeat l c => by simp only [Body.tr, Body.ids, l.ids_tr, c.ids_tr, ids_toList, List.map_append, List.map_cons, List.map_nil, List.cons_append, List.nil_append]
  | .while c s => by simp only [Body.tr, Body.ids, c.ids_tr, s.ids_tr, ids_toList, List.map_append, List.map_cons, List.map_nil, List.cons_append, List.nil_append]
  | .for q _ lo hi s => by simp only [Body.tr, Body.ids, q.ids_tr, lo.ids_tr, hi.ids_tr, s.ids_tr, ids_toList, List.map_append, List.map_cons, List.map_nil, List.cons_append, List.nil_append]
  | .with qs s => by simp only [Body.tr, Body.ids, qs.ids_tr, s.ids_tr, ids_toList, List.map_append, List.map_cons, List.map_nil, List.cons_append, List.nil_append]
  | .tryExcept l b => by simp only [Body.tr, Body.ids, l.ids_tr, b.ids_tr, ids_toList, List.map_append, List.map_cons, List.map_nil, List.cons_append, List.nil_append]
  | .tryFinally l1 l2 => by simp only [Body.tr, Body.ids, l1.ids_tr, l2.ids_tr, ids_toList, List.map_append, List.map_cons, List.map_nil, List.cons_append, List.nil_append]
  | .raise obj addr => by simp only [Body.tr, Body.ids, ids_opt Expr.ids_tr, ids_list Expr.ids_tr, ids_toList, List.map_append, List.map_cons, List.map_nil, List.cons_append, List.nil_append]
  | .asm => by simp only [Body.tr, Body.ids, ids_toList, List.map_append, List.map_cons, List.map_nil, List.cons_append, List.nil_append]
theorem Stmts.ids_tr : ∀ e : Stmts δ τ, (e.tr m f).ids g = (e.ids h).map m.id
  | .one s => by simp only [Stmts.tr, Stmts.ids, s.ids_tr, ids_toList, List.map_append, List.map_cons, List.map_nil, List.cons_append, List.nil_append]
  | .cons s rest => by simp only [Stmts.tr, Stmts.ids, s.ids_tr, rest.ids_tr, ids_toList, List.map_append, List.map_cons, List.map_nil, List.cons_append, List.nil_append]
theorem OptStmts.ids_tr : ∀ e : OptStmts δ τ, (e.tr m f).ids g = (e.ids h).map m.id
  | .none => by simp only [OptStmts.tr, OptStmts.ids, ids_toList, List.map_append, List.map_cons, List.map_nil, List.cons_append, List.nil_append]
  | .some l => by simp only [OptStmts.tr, OptStmts.ids, l.ids_tr, ids_toList, List.map_append, List.map_cons, List.map_nil, List.cons_append, List.nil_append]
theorem Sels.ids_tr : ∀ e : Sels δ τ, (e.tr m f).ids g = (e.ids h).map m.id
  | .one ls s => by simp only [Sels.tr, Sels.ids, ls.ids_tr, s.ids_tr, ids_toList, List.map_append, List.map_cons, List.map_nil, List.cons_append, List.nil_append]
  | .cons ls s rest => by simp only [Sels.tr, Sels.ids, ls.ids_tr, s.ids_tr, rest.ids_tr, ids_toList, List.map_append, List.map_cons, List.map_nil, List.cons_append, List.nil_append]
theorem ExcBlock.ids_tr : ∀ e : ExcBlock δ τ, (e.tr m f).ids g = (e.ids h).map m.id
  | .plain l => by simp only [ExcBlock.tr, ExcBlock.ids, l.ids_tr, ids_toList, List.map_append, List.map_cons, List.map_nil, List.cons_append, List.nil_append]
  | .handlers hs els => by simp only [ExcBlock.tr, ExcBlock.ids, hs.ids_tr, els.ids_tr, ids_toList, List.map_append, List.map_cons, List.map_nil, List.cons_append, List.nil_append]
theorem Handlers.ids_tr : ∀ e : Handlers δ τ, (e.tr m f).ids g = (e.ids h).map m.id
  | .one h => by simp only [Handlers.tr, Handlers.ids, h.ids_tr, ids_toList, List.map_append, List.map_cons, List.map_nil, List.cons_append, List.nil_append]
  | .cons h rest => by simp only [Handlers.tr, Handlers.ids, h.ids_tr, rest.ids_tr, ids_toList, List.map_append, List.map_cons, List.map_nil, List.cons_append, List.nil_append]
theorem Handler.ids_tr : ∀ e : Handler δ τ, (e.tr m f).ids g = (e.ids h).map m.id
  | .mk _ t s => by simp only [Handler.tr, Handler.ids, s.ids_tr, hf, ids_toList, List.map_append, List.map_cons, List.map_nil, List.cons_append, List.nil_append]
end
end

theorem TypeId.ids_tr (e : TypeId δ) : (e.tr m).ids = e.ids.map m.id := by
  simp only [TypeId.tr, TypeId.ids, ids_toList, List.map_append, List.map_cons, List.map_nil, List.cons_append, List.nil_append]

theorem EnumElem.ids_tr (e : EnumElem δ) : (e.tr m).ids = e.ids.map m.id := by
  simp only [EnumElem.tr, EnumElem.ids, ids_opt Expr.ids_tr, ids_list Expr.ids_tr, ids_toList, List.map_append, List.map_cons, List.map_nil, List.cons_append, List.nil_append]

theorem Stored.ids_tr : ∀ e : Stored δ, (e.tr m).ids = e.ids.map m.id
  | .const _ => by simp only [Stored.tr, Stored.ids, ids_toList, List.map_append, List.map_cons, List.map_nil, List.cons_append, List.nil_append]
  | .ref r => by simp only [Stored.tr, Stored.ids, r.ids_tr, ids_toList, List.map_append, List.map_cons, List.map_nil, List.cons_append, List.nil_append]

theorem PropDefault.ids_tr : ∀ e : PropDefault δ, (e.tr m).ids = e.ids.map m.id
  | .value e => by simp only [PropDefault.tr, PropDefault.ids, e.ids_tr, ids_toList, List.map_append, List.map_cons, List.map_nil, List.cons_append, List.nil_append]
  | .noDefault => by simp only [PropDefault.tr, PropDefault.ids, ids_toList, List.map_append, List.map_cons, List.map_nil, List.cons_append, List.nil_append]

mutual
theorem PType.ids_tr : ∀ e : PType δ, (e.tr m).ids = e.ids.map m.id
  | .nil => by simp only [PType.tr, PType.ids, ids_toList, List.map_append, List.map_cons, List.map_nil, List.cons_append, List.nil_append]
  | .id t => by simp only [PType.tr, PType.ids, TypeId.ids_tr, ids_toList, List.map_append, List.map_cons, List.map_nil, List.cons_append, List.nil_append]
  | .enum es => by simp only [PType.tr, PType.ids, ids_opt EnumElem.ids_tr, ids_list EnumElem.ids_tr, ids_toList, List.map_append, List.map_cons, List.map_nil, List.cons_append, List.nil_append]
  | .subrange lo hi => by simp only [PType.tr, PType.ids, Expr.ids_tr, ids_toList, List.map_append, List.map_cons, List.map_nil, List.cons_append, List.nil_append]
  | .pointer t => by simp only [PType.tr, PType.ids, TypeId.ids_tr, ids_toList, List.map_append, List.map_cons, List.map_nil, List.cons_append, List.nil_append]
  | .fixedString _ len => by simp only [PType.tr, PType.ids, Expr.ids_tr, ids_toList, List.map_append, List.map_cons, List.map_nil, List.cons_append, List.nil_append]
  | .array _ index base => by simp only [PType.tr, PType.ids, index.ids_tr, base.ids_tr, ids_toList, List.map_append, List.map_cons, List.map_nil, List.cons_append, List.nil_append]
  | .set _ elem => by simp only [PType.tr, PType.ids, elem.ids_tr, ids_toList, List.map_append, List.map_cons, List.map_nil, List.cons_append, List.nil_append]
  | .file _ t => by simp only [PType.tr, PType.ids, TypeId.ids_tr, ids_toList, List.map_append, List.map_cons, List.map_nil, List.cons_append, List.nil_append]
  | .record _ fl => by simp only [PType.tr, PType.ids, fl.ids_tr, ids_toList, List.map_append, List.map_cons, List.map_nil, List.cons_append, List.nil_append]
  | .proc _ ps ret _ => by simp only [PType.tr, PType.ids, ps.ids_tr, ids_opt TypeId.ids_tr, ids_list TypeId.ids_tr, ids_toList, List.map_append, List.map_cons, List.map_nil, List.cons_append, List.nil_append]
  | .forward => by simp only [PType.tr, PType.ids, ids_toList, List.map_append, List.map_cons, List.map_nil, List.cons_append, List.nil_append]
  | .classRef t => by simp only [PType.tr, PType.ids, TypeId.ids_tr, ids_toList, List.map_append, List.map_cons, List.map_nil, List.cons_append, List.nil_append]
  | .cls h ms => by simp only [PType.tr, PType.ids, ms.ids_tr, ids_opt TypeId.ids_tr, ids_list TypeId.ids_tr, ids_toList, List.map_append, List.map_cons, List.map_nil, List.cons_append, List.nil_append]
theorem OptPTypes.ids_tr : ∀ e : OptPTypes δ, (e.tr m).ids = e.ids.map m.id
  | .none => by simp only [OptPTypes.tr, OptPTypes.ids, ids_toList, List.map_append, List.map_cons, List.map_nil, List.cons_append, List.nil_append]
  | .some ts => by simp only [OptPTypes.tr, OptPTypes.ids, ts.ids_tr, ids_toList, List.map_append, List.map_cons, List.map_nil, List.cons_append, List.nil_append]
theorem PTypes.ids_tr : ∀ e : PTypes δ, (e.tr m).ids = e.ids.map m.id
  | .one t => by simp only [PTypes.tr, PTypes.ids, t.ids_tr, ids_toList, List.map_append, List.map_cons, List.map_nil, List.cons_append, List.nil_append]
  | .cons t rest => by simp only [PTypes.tr, PTypes.ids, t.ids_tr, rest.ids_tr, ids_toList, List.map_append, List.map_cons, List.map_nil, List.cons_append, List.nil_append]
theorem FieldList.ids_tr : ∀ e : FieldList δ, (e.tr m).ids = e.ids.map m.id
  | .mk fs v => by simp only [FieldList.tr, FieldList.ids, fs.ids_tr, v.ids_tr, ids_toList, List.map_append, List.map_cons, List.map_nil, List.cons_append, List.nil_append]
theorem Fields.ids_tr : ∀ e : Fields δ, (e.tr m).ids = e.ids.map m.id
  | .nil => by simp only [Fields.tr, Fields.ids, ids_toList, List.map_append, List.map_cons, List.map_nil, List.cons_append, List.nil_append]
  | .cons _ t rest => by simp only [Fields.tr, Fields.ids, t.ids_tr, rest.ids_tr, ids_toList, List.map_append, List.map_cons, List.map_nil, List.cons_append, List.nil_append]
theorem OptVariant.ids_tr : ∀ e : OptVariant δ, (e.tr m).ids = e.ids.map m.id
  | .none => by simp only [OptVariant.tr, OptVariant.ids, ids_toList, List.map_append, List.map_cons, List.map_nil, List.cons_append, List.nil_append]
  | .some _ t vs => by simp only [OptVariant.tr, OptVariant.ids, t.ids_tr, vs.ids_tr, ids_toList, List.map_append, List.map_cons, List.map_nil, List.cons_append, List.nil_append]
theorem Variants.ids_tr : ∀ e : Variants δ, (e.tr m).ids = e.ids.map m.id
  | .nil => by simp only [Variants.tr, Variants.ids, ids_toList, List.map_append, List.map_cons, List.map_nil, List.cons_append, List.nil_append]
  | .cons es fl rest => by simp only [Variants.tr, Variants.ids, fl.ids_tr, rest.ids_tr, Exprs.ids_tr, ids_toList, List.map_append, List.map_cons, List.map_nil, List.cons_append, List.nil_append]
theorem OptParams.ids_tr : ∀ e : OptParams δ, (e.tr m).ids = e.ids.map m.id
  | .none => by simp only [OptParams.tr, OptParams.ids, ids_toList, List.map_append, List.map_cons, List.map_nil, List.cons_append, List.nil_append]
  | .some ps => by simp only [OptParams.tr, OptParams.ids, ps.ids_tr, ids_toList, List.map_append, List.map_cons, List.map_nil, List.cons_append, List.nil_append]
theorem Params.ids_tr : ∀ e : Params δ, (e.tr m).ids = e.ids.map m.id
  | .one _ _ t dflt => by simp only [Params.tr, Params.ids, t.ids_tr, ids_opt Expr.ids_tr, ids_list Expr.ids_tr, ids_toList, List.map_append, List.map_cons, List.map_nil, List.cons_append, List.nil_append]
  | .cons _ _ t dflt rest => by simp only [Params.tr, Params.ids, t.ids_tr, rest.ids_tr, ids_opt Expr.ids_tr, ids_list Expr.ids_tr, ids_toList, List.map_append, List.map_cons, List.map_nil, List.cons_append, List.nil_append]
theorem ParamTy.ids_tr : ∀ e : ParamTy δ, (e.tr m).ids = e.ids.map m.id
  | .none => by simp only [ParamTy.tr, ParamTy.ids, ids_toList, List.map_append, List.map_cons, List.map_nil, List.cons_append, List.nil_append]
  | .some _ t => by simp only [ParamTy.tr, ParamTy.ids, t.ids_tr, ids_toList, List.map_append, List.map_cons, List.map_nil, List.cons_append, List.nil_append]
theorem Sects.ids_tr : ∀ e : Sects δ, (e.tr m).ids = e.ids.map m.id
  | .nil => by simp only [Sects.tr, Sects.ids, ids_toList, List.map_append, List.map_cons, List.map_nil, List.cons_append, List.nil_append]
  | .cons _ fs ms ps rest => by simp only [Sects.tr, Sects.ids, fs.ids_tr, ms.ids_tr, ps.ids_tr, rest.ids_tr, ids_toList, List.map_append, List.map_cons, List.map_nil, List.cons_append, List.nil_append]
theorem Methods.ids_tr : ∀ e : Methods δ, (e.tr m).ids = e.ids.map m.id
  | .nil => by simp only [Methods.tr, Methods.ids, ids_toList, List.map_append, List.map_cons, List.map_nil, List.cons_append, List.nil_append]
  | .cons h _ rest => by simp only [Methods.tr, Methods.ids, h.ids_tr, rest.ids_tr, ids_toList, List.map_append, List.map_cons, List.map_nil, List.cons_append, List.nil_append]
theorem Heading.ids_tr : ∀ e : Heading δ, (e.tr m).ids = e.ids.map m.id
  | .func _ _ ps ret => by simp only [Heading.tr, Heading.ids, ps.ids_tr, ids_opt TypeId.ids_tr, ids_list TypeId.ids_tr, ids_toList, List.map_append, List.map_cons, List.map_nil, List.cons_append, List.nil_append]
  | .ctor _ ps => by simp only [Heading.tr, Heading.ids, ps.ids_tr, ids_toList, List.map_append, List.map_cons, List.map_nil, List.cons_append, List.nil_append]
  | .dtor _ => by simp only [Heading.tr, Heading.ids, ids_toList, List.map_append, List.map_cons, List.map_nil, List.cons_append, List.nil_append]
theorem Props.ids_tr : ∀ e : Props δ, (e.tr m).ids = e.ids.map m.id
  | .nil => by simp only [Props.tr, Props.ids, ids_toList, List.map_append, List.map_cons, List.map_nil, List.cons_append, List.nil_append]
  | .cons p rest => by simp only [Props.tr, Props.ids, p.ids_tr, rest.ids_tr, ids_toList, List.map_append, List.map_cons, List.map_nil, List.cons_append, List.nil_append]
theorem ClassProp.ids_tr : ∀ e : ClassProp δ, (e.tr m).ids = e.ids.map m.id
  | .mk i intf ix rd wr st df impl parent => by simp only [ClassProp.tr, ClassProp.ids, intf.ids_tr, ids_opt Expr.ids_tr, ids_list Expr.ids_tr, ids_opt IdentRef.ids_tr, ids_list IdentRef.ids_tr, ids_opt Stored.ids_tr, ids_list Stored.ids_tr, ids_opt PropDefault.ids_tr, ids_list PropDefault.ids_tr, ids_opt TypeId.ids_tr, ids_list TypeId.ids_tr, ids_toList, List.map_append, List.map_cons, List.map_nil, List.cons_append, List.nil_append]
theorem OptIntf.ids_tr : ∀ e : OptIntf δ, (e.tr m).ids = e.ids.map m.id
  | .none => by simp only [OptIntf.tr, OptIntf.ids, ids_toList, List.map_append, List.map_cons, List.map_nil, List.cons_append, List.nil_append]
  | .some ps t => by simp only [OptIntf.tr, OptIntf.ids, ps.ids_tr, TypeId.ids_tr, ids_toList, List.map_append, List.map_cons, List.map_nil, List.cons_append, List.nil_append]
end

theorem ConstDecl.ids_tr (e : ConstDecl δ) : (e.tr m).ids = e.ids.map m.id := by
  simp only [ConstDecl.tr, ConstDecl.ids, Expr.ids_tr, ids_opt PType.ids_tr, ids_list PType.ids_tr, ids_toList, List.map_append, List.map_cons, List.map_nil, List.cons_append, List.nil_append]
theorem TypeDecl.ids_tr (e : TypeDecl δ) : (e.tr m).ids = e.ids.map m.id := by
  simp only [TypeDecl.tr, TypeDecl.ids, PType.ids_tr, ids_toList, List.map_append, List.map_cons, List.map_nil, List.cons_append, List.nil_append]
theorem VarDecl.ids_tr (e : VarDecl δ) : (e.tr m).ids = e.ids.map m.id := by
  simp only [VarDecl.tr, VarDecl.ids, PType.ids_tr, ids_opt Expr.ids_tr, ids_list Expr.ids_tr, ids_toList, List.map_append, List.map_cons, List.map_nil, List.cons_append, List.nil_append]
theorem ThreadVarDecl.ids_tr (e : ThreadVarDecl δ) : (e.tr m).ids = e.ids.map m.id := by
  simp only [ThreadVarDecl.tr, ThreadVarDecl.ids, PType.ids_tr, ids_toList, List.map_append, List.map_cons, List.map_nil, List.cons_append, List.nil_append]
theorem ExportsItem.ids_tr (e : ExportsItem δ) : (e.tr m).ids = e.ids.map m.id := by
  simp only [ExportsItem.tr, ExportsItem.ids, ids_opt Expr.ids_tr, ids_list Expr.ids_tr, ids_toList, List.map_append, List.map_cons, List.map_nil, List.cons_append, List.nil_append]

mutual
theorem Block.ids_tr : ∀ e : Block δ, (e.tr m).ids = e.ids.map m.id
  | .mk ds ex b => by simp only [Block.tr, Block.ids, ds.ids_tr, ids_opt ExportsItem.ids_tr, ids_list ExportsItem.ids_tr, Body.ids_tr, ids_list (ids_list ExportsItem.ids_tr), ids_opt (Body.ids_tr PType.ids_tr), ids_toList, List.map_append, List.map_cons, List.map_nil, List.cons_append, List.nil_append]
theorem DeclSects.ids_tr : ∀ e : DeclSects δ, (e.tr m).ids = e.ids.map m.id
  | .nil => by simp only [DeclSects.tr, DeclSects.ids, ids_toList, List.map_append, List.map_cons, List.map_nil, List.cons_append, List.nil_append]
  | .cons s rest => by simp only [DeclSects.tr, DeclSects.ids, s.ids_tr, rest.ids_tr, ids_toList, List.map_append, List.map_cons, List.map_nil, List.cons_append, List.nil_append]
theorem DeclSect.ids_tr : ∀ e : DeclSect δ, (e.tr m).ids = e.ids.map m.id
  | .label _ => by simp only [DeclSect.tr, DeclSect.ids, ids_toList, List.map_append, List.map_cons, List.map_nil, List.cons_append, List.nil_append]
  | .const ds => by simp only [DeclSect.tr, DeclSect.ids, ids_opt ConstDecl.ids_tr, ids_list ConstDecl.ids_tr, ids_toList, List.map_append, List.map_cons, List.map_nil, List.cons_append, List.nil_append]
  | .type ds => by simp only [DeclSect.tr, DeclSect.ids, ids_opt TypeDecl.ids_tr, ids_list TypeDecl.ids_tr, ids_toList, List.map_append, List.map_cons, List.map_nil, List.cons_append, List.nil_append]
  | .var ds => by simp only [DeclSect.tr, DeclSect.ids, ids_opt VarDecl.ids_tr, ids_list VarDecl.ids_tr, ids_toList, List.map_append, List.map_cons, List.map_nil, List.cons_append, List.nil_append]
  | .threadVar ds => by simp only [DeclSect.tr, DeclSect.ids, ids_opt ThreadVarDecl.ids_tr, ids_list ThreadVarDecl.ids_tr, ids_toList, List.map_append, List.map_cons, List.map_nil, List.cons_append, List.nil_append]
  | .func h _ b => by simp only [DeclSect.tr, DeclSect.ids, h.ids_tr, b.ids_tr, ids_toList, List.map_append, List.map_cons, List.map_nil, List.cons_append, List.nil_append]
end


end TP
