import Verif.Spec.Refs
import Verif.Lemmas.TrTwice

/-!
# The references of a tree whose leaves are replaced
-/

set_option linter.unusedSimpArgs false
set_option linter.unusedSectionVars false

namespace TP
open Spec
variable {δ ε : Type} {m : Tr δ ε}

/-- the replacement at a reference -/
def Spec.Tr.pair (m : Tr δ ε) (p : Ident × δ) : Ident × ε := (m.id p.1, m.decl p.1 p.2)

theorem refs_now (i : Ident) (r : Option δ) :
    ((r.map (m.decl i)).toList.map fun d => (m.id i, d)) = (r.toList.map fun d => (i, d)).map m.pair := by
  cases r <;> rfl

theorem refs_list {α β : Type} {f : α → β} {g : β → Refs ε} {h : α → Refs δ} (H : ∀ x, g (f x) = (h x).map m.pair) (l : List α) :
    (l.map f).flatMap g = (l.flatMap h).map m.pair := by
  induction l with
  | nil => rfl
  | cons x l ih => rw [List.map_cons, List.flatMap_cons, List.flatMap_cons, List.map_append, H x, ih]

theorem refs_opt {α β : Type} {f : α → β} {g : β → Refs ε} {h : α → Refs δ} (H : ∀ x, g (f x) = (h x).map m.pair) (o : Option α) :
    (o.map f).toList.flatMap g = (o.toList.flatMap h).map m.pair := by
  cases o with
  | none => rfl
  | some x => simpa using H x

theorem IdentRef.refs_tr (r : IdentRef δ) : (r.tr m).refs = r.refs.map m.pair := refs_now r.ident r.ref

theorem QualId.refs_tr (q : QualId δ) : (q.tr m).refs = q.refs.map m.pair := by
  simp only [QualId.refs, QualId.tr, IdentRef.refs_tr, refs_opt IdentRef.refs_tr, List.map_append]

mutual
theorem Expr.refs_tr : ∀ e : Expr δ, (e.tr m).refs = e.refs.map m.pair
  | .mk se rest => by simp only [Expr.tr, Expr.refs, se.refs_tr, rest.refs_tr, List.map_append, List.map_nil]
theorem RelTail.refs_tr : ∀ e : RelTail δ, (e.tr m).refs = e.refs.map m.pair
  | .nil => by simp only [RelTail.tr, RelTail.refs, List.map_append, List.map_nil]
  | .cons _ se rest => by simp only [RelTail.tr, RelTail.refs, se.refs_tr, rest.refs_tr, List.map_append, List.map_nil]
theorem SExpr.refs_tr : ∀ e : SExpr δ, (e.tr m).refs = e.refs.map m.pair
  | .mk _ t rest => by simp only [SExpr.tr, SExpr.refs, t.refs_tr, rest.refs_tr, List.map_append, List.map_nil]
theorem AddTail.refs_tr : ∀ e : AddTail δ, (e.tr m).refs = e.refs.map m.pair
  | .nil => by simp only [AddTail.tr, AddTail.refs, List.map_append, List.map_nil]
  | .cons _ t rest => by simp only [AddTail.tr, AddTail.refs, t.refs_tr, rest.refs_tr, List.map_append, List.map_nil]
theorem Term.refs_tr : ∀ e : Term δ, (e.tr m).refs = e.refs.map m.pair
  | .mk f rest => by simp only [Term.tr, Term.refs, f.refs_tr, rest.refs_tr, List.map_append, List.map_nil]
theorem MulTail.refs_tr : ∀ e : MulTail δ, (e.tr m).refs = e.refs.map m.pair
  | .nil => by simp only [MulTail.tr, MulTail.refs, List.map_append, List.map_nil]
  | .cons _ f rest => by simp only [MulTail.tr, MulTail.refs, f.refs_tr, rest.refs_tr, List.map_append, List.map_nil]
theorem Factor.refs_tr : ∀ e : Factor δ, (e.tr m).refs = e.refs.map m.pair
  | .desig d => by simp only [Factor.tr, Factor.refs, d.refs_tr, List.map_append, List.map_nil]
  | .call d args => by simp only [Factor.tr, Factor.refs, d.refs_tr, args.refs_tr, List.map_append, List.map_nil]
  | .addr d => by simp only [Factor.tr, Factor.refs, d.refs_tr, List.map_append, List.map_nil]
  | .value _ => by simp only [Factor.tr, Factor.refs, List.map_append, List.map_nil]
  | .str _ => by simp only [Factor.tr, Factor.refs, List.map_append, List.map_nil]
  | .num _ => by simp only [Factor.tr, Factor.refs, List.map_append, List.map_nil]
  | .nil => by simp only [Factor.tr, Factor.refs, List.map_append, List.map_nil]
  | .paren e => by simp only [Factor.tr, Factor.refs, e.refs_tr, List.map_append, List.map_nil]
  | .not f => by simp only [Factor.tr, Factor.refs, f.refs_tr, List.map_append, List.map_nil]
  | .set es => by simp only [Factor.tr, Factor.refs, es.refs_tr, List.map_append, List.map_nil]
  | .cast t e => by simp only [Factor.tr, Factor.refs, e.refs_tr, IdentRef.refs_tr, List.map_append, List.map_nil]
theorem Desig.refs_tr : ∀ e : Desig δ, (e.tr m).refs = e.refs.map m.pair
  | .mk q items => by simp only [Desig.tr, Desig.refs, items.refs_tr, QualId.refs_tr, List.map_append, List.map_nil]
theorem Items.refs_tr : ∀ e : Items δ, (e.tr m).refs = e.refs.map m.pair
  | .nil => by simp only [Items.tr, Items.refs, List.map_append, List.map_nil]
  | .ident _ rest => by simp only [Items.tr, Items.refs, rest.refs_tr, List.map_append, List.map_nil]
  | .index es rest => by simp only [Items.tr, Items.refs, es.refs_tr, rest.refs_tr, List.map_append, List.map_nil]
  | .deref rest => by simp only [Items.tr, Items.refs, rest.refs_tr, List.map_append, List.map_nil]
theorem Exprs.refs_tr : ∀ e : Exprs δ, (e.tr m).refs = e.refs.map m.pair
  | .one e => by simp only [Exprs.tr, Exprs.refs, e.refs_tr, List.map_append, List.map_nil]
  | .cons e rest => by simp only [Exprs.tr, Exprs.refs, e.refs_tr, rest.refs_tr, List.map_append, List.map_nil]
theorem SetElems.refs_tr : ∀ e : SetElems δ, (e.tr m).refs = e.refs.map m.pair
  | .one e => by simp only [SetElems.tr, SetElems.refs, e.refs_tr, List.map_append, List.map_nil]
  | .cons e rest => by simp only [SetElems.tr, SetElems.refs, e.refs_tr, rest.refs_tr, List.map_append, List.map_nil]
theorem SetElem.refs_tr : ∀ e : SetElem δ, (e.tr m).refs = e.refs.map m.pair
  | .single e => by simp only [SetElem.tr, SetElem.refs, e.refs_tr, List.map_append, List.map_nil]
  | .range lo hi => by simp only [SetElem.tr, SetElem.refs, lo.refs_tr, hi.refs_tr, List.map_append, List.map_nil]
end

theorem CaseLabel.refs_tr : ∀ e : CaseLabel δ, (e.tr m).refs = e.refs.map m.pair
  | .single e => by simp only [CaseLabel.tr, CaseLabel.refs, e.refs_tr, List.map_append, List.map_nil]
  | .range lo hi => by simp only [CaseLabel.tr, CaseLabel.refs, lo.refs_tr, hi.refs_tr, List.map_append, List.map_nil]

theorem CaseLabels.refs_tr : ∀ e : CaseLabels δ, (e.tr m).refs = e.refs.map m.pair
  | .one l => by simp only [CaseLabels.tr, CaseLabels.refs, l.refs_tr, List.map_append, List.map_nil]
  | .cons l rest => by simp only [CaseLabels.tr, CaseLabels.refs, l.refs_tr, rest.refs_tr, List.map_append, List.map_nil]

theorem QualIds.refs_tr : ∀ e : QualIds δ, (e.tr m).refs = e.refs.map m.pair
  | .one q => by simp only [QualIds.tr, QualIds.refs, q.refs_tr, List.map_append, List.map_nil]
  | .cons q rest => by simp only [QualIds.tr, QualIds.refs, q.refs_tr, rest.refs_tr, List.map_append, List.map_nil]

section
variable {τ υ : Type} {f : τ → υ} {g : υ → Refs ε} {h : τ → Refs δ} (hf : ∀ t, g (f t) = (h t).map m.pair)
include hf


mutual
theorem Stmt.refs_tr : ∀ e : Stmt δ τ, (e.tr m f).refs g = (e.refs h).map m.pair
  | .mk _ b => by simp only [Stmt.tr, Stmt.refs, b.refs_tr, List.map_append, List.map_nil]
theorem Body.refs_tr : ∀ e : Body δ τ, (e.tr m f).refs g = (e.refs h).map m.pair
  | .assign d e => by simp only [Body.tr, Body.refs, d.refs_tr, e.refs_tr, List.map_append, List.map_nil]
  | .call d => by simp only [Body.tr, Body.refs, d.refs_tr, List.map_append, List.map_nil]
  | .callArgs d args => by simp only [Body.tr, Body.refs, d.refs_tr, args.refs_tr, List.map_append, List.map_nil]
  | .inherited => by simp only [Body.tr, Body.refs, List.map_append, List.map_nil]
  | .goto l r => by simp only [Body.tr, Body.refs, refs_now, List.map_append, List.map_nil]
  | .compound l => by simp only [Body.tr, Body.refs, l.refs_tr, List.map_append, List.map_nil]
  | .ifThen c s => by simp only [Body.tr, Body.refs, c.refs_tr, s.refs_tr, List.map_append, List.map_nil]
  | .ifElse c s1 s2 => by simp only [Body.tr, Body.refs, c.refs_tr, s1.refs_tr, s2.refs_tr, List.map_append, List.map_nil]
  | .case e sels els => by simp only [Body.tr, Body.refs, e.refs_tr, sels.refs_tr, els.refs_tr, List.map_append, List.map_nil]
  | .repeat l c => by simp only [Body.tr, Body.refs, l.refs_tr, c.refs_tr, List.map_append, List.map_nil]
  | .while c s => by simp only [Body.tr, Body.refs, c.refs_tr, s.refs_tr, List.map_append, List.map_nil]
  | .for q _ lo hi s => by simp only [Body.tr, Body.refs, q.refs_tr, lo.refs_tr, hi.refs_tr, s.refs_tr, List.map_append, List.map_nil]
  | .with qs s => by simp only [Body.tr, Body.refs, qs.refs_tr, s.refs_tr, List.map_append, List.map_nil]
  | .tryExcept l b => by simp only [Body.tr, Body.refs, l.refs_tr, b.refs_tr, List.map_append, List.map_nil]
  | .tryFinally l1 l2 => by simp only [Body.tr, Body.refs, l1.refs_tr, l2.refs_tr, List.map_append, List.map_nil]
  | .raise obj addr => by simp only [Body.tr, Body.refs, refs_opt Expr.refs_tr, refs_list Expr.refs_tr, List.map_append, List.map_nil]
  | .asm => by simp only [Body.tr, Body.refs, List.map_append, List.map_nil]
theorem Stmts.refs_tr : ∀ e : Stmts δ τ, (e.tr m f).refs g = (e.refs h).map m.pair
  | .one s => by simp only [Stmts.tr, Stmts.refs, s.refs_tr, List.map_append, List.map_nil]
  | .cons s rest => by simp only [Stmts.tr, Stmts.refs, s.refs_tr, rest.refs_tr, List.map_append, List.map_nil]
theorem OptStmts.refs_tr : ∀ e : OptStmts δ τ, (e.tr m f).refs g = (e.refs h).map m.pair
  | .none => by simp only [OptStmts.tr, OptStmts.refs, List.map_append, List.map_nil]
  | .some l => by simp only [OptStmts.tr, OptStmts.refs, l.refs_tr, List.map_append, List.map_nil]
theorem Sels.refs_tr : ∀ e : Sels δ τ, (e.tr m f).refs g = (e.refs h).map m.pair
  | .one ls s => by simp only [Sels.tr, Sels.refs, ls.refs_tr, s.refs_tr, List.map_append, List.map_nil]
  | .cons ls s rest => by simp only [Sels.tr, Sels.refs, ls.refs_tr, s.refs_tr, rest.refs_tr, List.map_append, List.map_nil]
theorem ExcBlock.refs_tr : ∀ e : ExcBlock δ τ, (e.tr m f).refs g = (e.refs h).map m.pair
  | .plain l => by simp only [ExcBlock.tr, ExcBlock.refs, l.refs_tr, List.map_append, List.map_nil]
  | .handlers hs els => by simp only [ExcBlock.tr, ExcBlock.refs, hs.refs_tr, els.refs_tr, List.map_append, List.map_nil]
theorem Handlers.refs_tr : ∀ e : Handlers δ τ, (e.tr m f).refs g = (e.refs h).map m.pair
  | .one h => by simp only [Handlers.tr, Handlers.refs, h.refs_tr, List.map_append, List.map_nil]
  | .cons h rest => by simp only [Handlers.tr, Handlers.refs, h.refs_tr, rest.refs_tr, List.map_append, List.map_nil]
theorem Handler.refs_tr : ∀ e : Handler δ τ, (e.tr m f).refs g = (e.refs h).map m.pair
  | .mk _ t s => by simp only [Handler.tr, Handler.refs, s.refs_tr, hf, List.map_append, List.map_nil]
end
end

theorem TRef.refs_tr (i : Ident) (r : TRef δ) : (r.tr m i).refs (m.id i) = (r.refs i).map m.pair := by cases r <;> rfl

theorem TypeId.refs_tr (e : TypeId δ) : (e.tr m).refs = e.refs.map m.pair := by
  simp only [TypeId.tr, TypeId.refs, TRef.refs_tr]

theorem EnumElem.refs_tr (e : EnumElem δ) : (e.tr m).refs = e.refs.map m.pair := by
  simp only [EnumElem.tr, EnumElem.refs, refs_opt Expr.refs_tr, refs_list Expr.refs_tr, List.map_append, List.map_nil]

theorem Stored.refs_tr : ∀ e : Stored δ, (e.tr m).refs = e.refs.map m.pair
  | .const _ => by simp only [Stored.tr, Stored.refs, List.map_append, List.map_nil]
  | .ref r => by simp only [Stored.tr, Stored.refs, r.refs_tr, List.map_append, List.map_nil]

theorem PropDefault.refs_tr : ∀ e : PropDefault δ, (e.tr m).refs = e.refs.map m.pair
  | .value e => by simp only [PropDefault.tr, PropDefault.refs, e.refs_tr, List.map_append, List.map_nil]
  | .noDefault => by simp only [PropDefault.tr, PropDefault.refs, List.map_append, List.map_nil]

mutual
theorem PType.refs_tr : ∀ e : PType δ, (e.tr m).refs = e.refs.map m.pair
  | .nil => by simp only [PType.tr, PType.refs, List.map_append, List.map_nil]
  | .id t => by simp only [PType.tr, PType.refs, TypeId.refs_tr, List.map_append, List.map_nil]
  | .enum es => by simp only [PType.tr, PType.refs, refs_opt EnumElem.refs_tr, refs_list EnumElem.refs_tr, List.map_append, List.map_nil]
  | .subrange lo hi => by simp only [PType.tr, PType.refs, Expr.refs_tr, List.map_append, List.map_nil]
  | .pointer t => by simp only [PType.tr, PType.refs, TypeId.refs_tr, List.map_append, List.map_nil]
  | .fixedString _ len => by simp only [PType.tr, PType.refs, Expr.refs_tr, List.map_append, List.map_nil]
  | .array _ index base => by simp only [PType.tr, PType.refs, index.refs_tr, base.refs_tr, List.map_append, List.map_nil]
  | .set _ elem => by simp only [PType.tr, PType.refs, elem.refs_tr, List.map_append, List.map_nil]
  | .file _ t => by simp only [PType.tr, PType.refs, TypeId.refs_tr, List.map_append, List.map_nil]
  | .record _ fl => by simp only [PType.tr, PType.refs, fl.refs_tr, List.map_append, List.map_nil]
  | .proc _ ps ret _ => by simp only [PType.tr, PType.refs, ps.refs_tr, refs_opt TypeId.refs_tr, refs_list TypeId.refs_tr, List.map_append, List.map_nil]
  | .forward => by simp only [PType.tr, PType.refs, List.map_append, List.map_nil]
  | .classRef t => by simp only [PType.tr, PType.refs, TypeId.refs_tr, List.map_append, List.map_nil]
  | .cls h ms => by simp only [PType.tr, PType.refs, ms.refs_tr, refs_opt TypeId.refs_tr, refs_list TypeId.refs_tr, List.map_append, List.map_nil]
theorem OptPTypes.refs_tr : ∀ e : OptPTypes δ, (e.tr m).refs = e.refs.map m.pair
  | .none => by simp only [OptPTypes.tr, OptPTypes.refs, List.map_append, List.map_nil]
  | .some ts => by simp only [OptPTypes.tr, OptPTypes.refs, ts.refs_tr, List.map_append, List.map_nil]
theorem PTypes.refs_tr : ∀ e : PTypes δ, (e.tr m).refs = e.refs.map m.pair
  | .one t => by simp only [PTypes.tr, PTypes.refs, t.refs_tr, List.map_append, List.map_nil]
  | .cons t rest => by simp only [PTypes.tr, PTypes.refs, t.refs_tr, rest.refs_tr, List.map_append, List.map_nil]
theorem FieldList.refs_tr : ∀ e : FieldList δ, (e.tr m).refs = e.refs.map m.pair
  | .mk fs v => by simp only [FieldList.tr, FieldList.refs, fs.refs_tr, v.refs_tr, List.map_append, List.map_nil]
theorem Fields.refs_tr : ∀ e : Fields δ, (e.tr m).refs = e.refs.map m.pair
  | .nil => by simp only [Fields.tr, Fields.refs, List.map_append, List.map_nil]
  | .cons _ t rest => by simp only [Fields.tr, Fields.refs, t.refs_tr, rest.refs_tr, List.map_append, List.map_nil]
theorem OptVariant.refs_tr : ∀ e : OptVariant δ, (e.tr m).refs = e.refs.map m.pair
  | .none => by simp only [OptVariant.tr, OptVariant.refs, List.map_append, List.map_nil]
  | .some _ t vs => by simp only [OptVariant.tr, OptVariant.refs, t.refs_tr, vs.refs_tr, List.map_append, List.map_nil]
theorem Variants.refs_tr : ∀ e : Variants δ, (e.tr m).refs = e.refs.map m.pair
  | .nil => by simp only [Variants.tr, Variants.refs, List.map_append, List.map_nil]
  | .cons es fl rest => by simp only [Variants.tr, Variants.refs, fl.refs_tr, rest.refs_tr, Exprs.refs_tr, List.map_append, List.map_nil]
theorem OptParams.refs_tr : ∀ e : OptParams δ, (e.tr m).refs = e.refs.map m.pair
  | .none => by simp only [OptParams.tr, OptParams.refs, List.map_append, List.map_nil]
  | .some ps => by simp only [OptParams.tr, OptParams.refs, ps.refs_tr, List.map_append, List.map_nil]
theorem Params.refs_tr : ∀ e : Params δ, (e.tr m).refs = e.refs.map m.pair
  | .one _ _ t dflt => by simp only [Params.tr, Params.refs, t.refs_tr, refs_opt Expr.refs_tr, refs_list Expr.refs_tr, List.map_append, List.map_nil]
  | .cons _ _ t dflt rest => by simp only [Params.tr, Params.refs, t.refs_tr, rest.refs_tr, refs_opt Expr.refs_tr, refs_list Expr.refs_tr, List.map_append, List.map_nil]
theorem ParamTy.refs_tr : ∀ e : ParamTy δ, (e.tr m).refs = e.refs.map m.pair
  | .none => by simp only [ParamTy.tr, ParamTy.refs, List.map_append, List.map_nil]
  | .some _ t => by simp only [ParamTy.tr, ParamTy.refs, t.refs_tr, List.map_append, List.map_nil]
theorem Sects.refs_tr : ∀ e : Sects δ, (e.tr m).refs = e.refs.map m.pair
  | .nil => by simp only [Sects.tr, Sects.refs, List.map_append, List.map_nil]
  | .cons _ fs ms ps rest => by simp only [Sects.tr, Sects.refs, fs.refs_tr, ms.refs_tr, ps.refs_tr, rest.refs_tr, List.map_append, List.map_nil]
theorem Methods.refs_tr : ∀ e : Methods δ, (e.tr m).refs = e.refs.map m.pair
  | .nil => by simp only [Methods.tr, Methods.refs, List.map_append, List.map_nil]
  | .cons h _ rest => by simp only [Methods.tr, Methods.refs, h.refs_tr, rest.refs_tr, List.map_append, List.map_nil]
theorem Heading.refs_tr : ∀ e : Heading δ, (e.tr m).refs = e.refs.map m.pair
  | .func _ _ ps ret => by simp only [Heading.tr, Heading.refs, ps.refs_tr, refs_opt TypeId.refs_tr, refs_list TypeId.refs_tr, List.map_append, List.map_nil]
  | .ctor _ ps => by simp only [Heading.tr, Heading.refs, ps.refs_tr, List.map_append, List.map_nil]
  | .dtor _ => by simp only [Heading.tr, Heading.refs, List.map_append, List.map_nil]
theorem Props.refs_tr : ∀ e : Props δ, (e.tr m).refs = e.refs.map m.pair
  | .nil => by simp only [Props.tr, Props.refs, List.map_append, List.map_nil]
  | .cons p rest => by simp only [Props.tr, Props.refs, p.refs_tr, rest.refs_tr, List.map_append, List.map_nil]
theorem ClassProp.refs_tr : ∀ e : ClassProp δ, (e.tr m).refs = e.refs.map m.pair
  | .mk i intf ix rd wr st df impl parent => by simp only [ClassProp.tr, ClassProp.refs, intf.refs_tr, refs_opt Expr.refs_tr, refs_list Expr.refs_tr, refs_opt IdentRef.refs_tr, refs_list IdentRef.refs_tr, refs_opt Stored.refs_tr, refs_list Stored.refs_tr, refs_opt PropDefault.refs_tr, refs_list PropDefault.refs_tr, refs_opt TypeId.refs_tr, refs_list TypeId.refs_tr, refs_now, List.map_append, List.map_nil]
theorem OptIntf.refs_tr : ∀ e : OptIntf δ, (e.tr m).refs = e.refs.map m.pair
  | .none => by simp only [OptIntf.tr, OptIntf.refs, List.map_append, List.map_nil]
  | .some ps t => by simp only [OptIntf.tr, OptIntf.refs, ps.refs_tr, TypeId.refs_tr, List.map_append, List.map_nil]
end

theorem ConstDecl.refs_tr (e : ConstDecl δ) : (e.tr m).refs = e.refs.map m.pair := by
  simp only [ConstDecl.tr, ConstDecl.refs, Expr.refs_tr, refs_opt PType.refs_tr, refs_list PType.refs_tr, List.map_append, List.map_nil]
theorem TypeDecl.refs_tr (e : TypeDecl δ) : (e.tr m).refs = e.refs.map m.pair := by
  simp only [TypeDecl.tr, TypeDecl.refs, PType.refs_tr, List.map_append, List.map_nil]
theorem VarDecl.refs_tr (e : VarDecl δ) : (e.tr m).refs = e.refs.map m.pair := by
  simp only [VarDecl.tr, VarDecl.refs, PType.refs_tr, refs_opt Expr.refs_tr, refs_list Expr.refs_tr, List.map_append, List.map_nil]
theorem ThreadVarDecl.refs_tr (e : ThreadVarDecl δ) : (e.tr m).refs = e.refs.map m.pair := by
  simp only [ThreadVarDecl.tr, ThreadVarDecl.refs, PType.refs_tr, List.map_append, List.map_nil]
theorem ExportsItem.refs_tr (e : ExportsItem δ) : (e.tr m).refs = e.refs.map m.pair := by
  simp only [ExportsItem.tr, ExportsItem.refs, refs_opt Expr.refs_tr, refs_list Expr.refs_tr, List.map_append, List.map_nil]

mutual
theorem Block.refs_tr : ∀ e : Block δ, (e.tr m).refs = e.refs.map m.pair
  | .mk ds ex b => by simp only [Block.tr, Block.refs, ds.refs_tr, refs_opt ExportsItem.refs_tr, refs_list ExportsItem.refs_tr, Body.refs_tr, refs_list (refs_list ExportsItem.refs_tr), refs_opt (Body.refs_tr PType.refs_tr), List.map_append, List.map_nil]
theorem DeclSects.refs_tr : ∀ e : DeclSects δ, (e.tr m).refs = e.refs.map m.pair
  | .nil => by simp only [DeclSects.tr, DeclSects.refs, List.map_append, List.map_nil]
  | .cons s rest => by simp only [DeclSects.tr, DeclSects.refs, s.refs_tr, rest.refs_tr, List.map_append, List.map_nil]
theorem DeclSect.refs_tr : ∀ e : DeclSect δ, (e.tr m).refs = e.refs.map m.pair
  | .label _ => by simp only [DeclSect.tr, DeclSect.refs, List.map_append, List.map_nil]
  | .const ds => by simp only [DeclSect.tr, DeclSect.refs, refs_opt ConstDecl.refs_tr, refs_list ConstDecl.refs_tr, List.map_append, List.map_nil]
  | .type ds => by simp only [DeclSect.tr, DeclSect.refs, refs_opt TypeDecl.refs_tr, refs_list TypeDecl.refs_tr, List.map_append, List.map_nil]
  | .var ds => by simp only [DeclSect.tr, DeclSect.refs, refs_opt VarDecl.refs_tr, refs_list VarDecl.refs_tr, List.map_append, List.map_nil]
  | .threadVar ds => by simp only [DeclSect.tr, DeclSect.refs, refs_opt ThreadVarDecl.refs_tr, refs_list ThreadVarDecl.refs_tr, List.map_append, List.map_nil]
  | .func h _ b => by simp only [DeclSect.tr, DeclSect.refs, h.refs_tr, b.refs_tr, List.map_append, List.map_nil]
end


end TP
