import Verif.Lemmas.RelGoal

/-!
# Replacing nothing
-/

namespace TP
open Spec
variable {δ : Type}

/-- the replacement that keeps everything -/
def Spec.Tr.one : Tr δ δ := ⟨fun _ d => d, fun i => i, fun i => i, fun s => s⟩

local notation "𝟙" => (Spec.Tr.one : Tr δ δ)

theorem map_fun_id {α : Type} {f : α → α} (h : ∀ x, f x = x) (l : List α) : l.map f = l := by
  rw [show f = fun x => x from funext h]; exact List.map_id' l

theorem omap_fun_id {α : Type} {f : α → α} (h : ∀ x, f x = x) (l : Option α) : l.map f = l := by
  rw [show f = fun x => x from funext h]; exact Option.map_id' ..

theorem one_strs (l : List Str) : l.map (𝟙).str = l := List.map_id' l
theorem one_str? (l : Option Str) : l.map (𝟙).str = l := Option.map_id' ..
theorem one_ids (l : List Ident) : l.map (𝟙).id = l := List.map_id' l
theorem one_id? (l : Option Ident) : l.map (𝟙).id = l := Option.map_id' ..
theorem one_decl? (i : Ident) (l : Option δ) : l.map ((𝟙).decl i) = l := Option.map_id' ..

local macro "one_leaf" : tactic => `(tactic| (simp only [one_strs, one_str?, one_ids, one_id?, one_decl?]; try rfl))

theorem IdentRef.tr_one (r : IdentRef δ) : r.tr 𝟙 = r := by
  obtain ⟨i, r⟩ := r
  simp only [IdentRef.tr, Tr.one, Option.map_id']

theorem QualId.tr_one (q : QualId δ) : q.tr 𝟙 = q := by
  obtain ⟨ns, i⟩ := q
  simp only [QualId.tr, IdentRef.tr_one, Option.map_id']

mutual
theorem Expr.tr_one : ∀ e : Expr δ, e.tr 𝟙 = e
  | .mk se rest => by rw [Expr.tr, SExpr.tr_one se, RelTail.tr_one rest]
theorem RelTail.tr_one : ∀ e : RelTail δ, e.tr 𝟙 = e
  | .nil => by rw [RelTail.tr]
  | .cons op se rest => by rw [RelTail.tr, SExpr.tr_one se, RelTail.tr_one rest]; rfl
theorem SExpr.tr_one : ∀ e : SExpr δ, e.tr 𝟙 = e
  | .mk un t rest => by rw [SExpr.tr, Term.tr_one t, AddTail.tr_one rest]; one_leaf
theorem AddTail.tr_one : ∀ e : AddTail δ, e.tr 𝟙 = e
  | .nil => by rw [AddTail.tr]
  | .cons op t rest => by rw [AddTail.tr, Term.tr_one t, AddTail.tr_one rest]; rfl
theorem Term.tr_one : ∀ e : Term δ, e.tr 𝟙 = e
  | .mk f rest => by rw [Term.tr, Factor.tr_one f, MulTail.tr_one rest]
theorem MulTail.tr_one : ∀ e : MulTail δ, e.tr 𝟙 = e
  | .nil => by rw [MulTail.tr]
  | .cons op f rest => by rw [MulTail.tr, Factor.tr_one f, MulTail.tr_one rest]; rfl
theorem Factor.tr_one : ∀ e : Factor δ, e.tr 𝟙 = e
  | .desig d => by rw [Factor.tr, Desig.tr_one d]
  | .call d args => by rw [Factor.tr, Desig.tr_one d, Exprs.tr_one args]
  | .addr d => by rw [Factor.tr, Desig.tr_one d]
  | .value v => by rw [Factor.tr]; rfl
  | .str v => by rw [Factor.tr]; rfl
  | .num v => by rw [Factor.tr]; rfl
  | .nil => by rw [Factor.tr]
  | .paren e => by rw [Factor.tr, Expr.tr_one e]
  | .not f => by rw [Factor.tr, Factor.tr_one f]
  | .set es => by rw [Factor.tr, SetElems.tr_one es]
  | .cast t e => by rw [Factor.tr, Expr.tr_one e, IdentRef.tr_one]
theorem Desig.tr_one : ∀ e : Desig δ, e.tr 𝟙 = e
  | .mk q items => by rw [Desig.tr, QualId.tr_one, Items.tr_one items]
theorem Items.tr_one : ∀ e : Items δ, e.tr 𝟙 = e
  | .nil => by rw [Items.tr]
  | .ident i rest => by rw [Items.tr, Items.tr_one rest]; rfl
  | .index es rest => by rw [Items.tr, Exprs.tr_one es, Items.tr_one rest]
  | .deref rest => by rw [Items.tr, Items.tr_one rest]
theorem Exprs.tr_one : ∀ e : Exprs δ, e.tr 𝟙 = e
  | .one e => by rw [Exprs.tr, Expr.tr_one e]
  | .cons e rest => by rw [Exprs.tr, Expr.tr_one e, Exprs.tr_one rest]
theorem SetElems.tr_one : ∀ e : SetElems δ, e.tr 𝟙 = e
  | .one e => by rw [SetElems.tr, SetElem.tr_one e]
  | .cons e rest => by rw [SetElems.tr, SetElem.tr_one e, SetElems.tr_one rest]
theorem SetElem.tr_one : ∀ e : SetElem δ, e.tr 𝟙 = e
  | .single e => by rw [SetElem.tr, Expr.tr_one e]
  | .range lo hi => by rw [SetElem.tr, Expr.tr_one lo, Expr.tr_one hi]
end

theorem CaseLabel.tr_one (e : CaseLabel δ) : e.tr 𝟙 = e := by
  cases e <;> simp only [CaseLabel.tr, Expr.tr_one]

theorem CaseLabels.tr_one : ∀ e : CaseLabels δ, e.tr 𝟙 = e
  | .one l => by rw [CaseLabels.tr, CaseLabel.tr_one]
  | .cons l rest => by rw [CaseLabels.tr, CaseLabel.tr_one, CaseLabels.tr_one rest]

theorem QualIds.tr_one : ∀ e : QualIds δ, e.tr 𝟙 = e
  | .one l => by rw [QualIds.tr, QualId.tr_one]
  | .cons l rest => by rw [QualIds.tr, QualId.tr_one, QualIds.tr_one rest]

section
variable {τ : Type} {f : τ → τ} (hf : ∀ t, f t = t)
include hf

mutual
theorem Stmt.tr_one : ∀ e : Stmt δ τ, e.tr 𝟙 f = e
  | .mk l b => by rw [Stmt.tr, Body.tr_one b]; one_leaf
theorem Body.tr_one : ∀ e : Body δ τ, e.tr 𝟙 f = e
  | .assign d e => by rw [Body.tr, Desig.tr_one, Expr.tr_one]
  | .call d => by rw [Body.tr, Desig.tr_one]
  | .callArgs d args => by rw [Body.tr, Desig.tr_one, Exprs.tr_one]
  | .inherited => by rw [Body.tr]
  | .goto l r => by rw [Body.tr]; one_leaf
  | .compound l => by rw [Body.tr, Stmts.tr_one l]
  | .ifThen c s => by rw [Body.tr, Expr.tr_one, Stmt.tr_one s]
  | .ifElse c s1 s2 => by rw [Body.tr, Expr.tr_one, Stmt.tr_one s1, Stmt.tr_one s2]
  | .case e sels els => by rw [Body.tr, Expr.tr_one, Sels.tr_one sels, OptStmts.tr_one els]
  | .repeat l c => by rw [Body.tr, Expr.tr_one, Stmts.tr_one l]
  | .while c s => by rw [Body.tr, Expr.tr_one, Stmt.tr_one s]
  | .for q down lo hi s => by rw [Body.tr, QualId.tr_one, Expr.tr_one, Expr.tr_one, Stmt.tr_one s]
  | .with qs s => by rw [Body.tr, QualIds.tr_one, Stmt.tr_one s]
  | .tryExcept l b => by rw [Body.tr, Stmts.tr_one l, ExcBlock.tr_one b]
  | .tryFinally l1 l2 => by rw [Body.tr, Stmts.tr_one l1, Stmts.tr_one l2]
  | .raise obj addr => by rw [Body.tr, omap_fun_id Expr.tr_one, omap_fun_id Expr.tr_one]
  | .asm => by rw [Body.tr]
theorem Stmts.tr_one : ∀ e : Stmts δ τ, e.tr 𝟙 f = e
  | .one s => by rw [Stmts.tr, Stmt.tr_one s]
  | .cons s rest => by rw [Stmts.tr, Stmt.tr_one s, Stmts.tr_one rest]
theorem OptStmts.tr_one : ∀ e : OptStmts δ τ, e.tr 𝟙 f = e
  | .none => by rw [OptStmts.tr]
  | .some l => by rw [OptStmts.tr, Stmts.tr_one l]
theorem Sels.tr_one : ∀ e : Sels δ τ, e.tr 𝟙 f = e
  | .one ls s => by rw [Sels.tr, CaseLabels.tr_one, Stmt.tr_one s]
  | .cons ls s rest => by rw [Sels.tr, CaseLabels.tr_one, Stmt.tr_one s, Sels.tr_one rest]
theorem ExcBlock.tr_one : ∀ e : ExcBlock δ τ, e.tr 𝟙 f = e
  | .plain l => by rw [ExcBlock.tr, Stmts.tr_one l]
  | .handlers hs els => by rw [ExcBlock.tr, Handlers.tr_one hs, OptStmts.tr_one els]
theorem Handlers.tr_one : ∀ e : Handlers δ τ, e.tr 𝟙 f = e
  | .one h => by rw [Handlers.tr, Handler.tr_one h]
  | .cons h rest => by rw [Handlers.tr, Handler.tr_one h, Handlers.tr_one rest]
theorem Handler.tr_one : ∀ e : Handler δ τ, e.tr 𝟙 f = e
  | .mk i t s => by rw [Handler.tr, Stmt.tr_one s, hf]; one_leaf
end
end

theorem TRef.tr_one (i : Ident) (r : TRef δ) : r.tr 𝟙 i = r := by cases r <;> rfl

theorem TypeId.tr_one (t : TypeId δ) : t.tr 𝟙 = t := by
  obtain ⟨a, b, c⟩ := t
  rw [TypeId.tr_mk, TRef.tr_one]; one_leaf

theorem EnumElem.tr_one (t : EnumElem δ) : t.tr 𝟙 = t := by
  obtain ⟨a, b⟩ := t
  rw [EnumElem.tr_mk, omap_fun_id Expr.tr_one]; rfl

theorem Stored.tr_one (t : Stored δ) : t.tr 𝟙 = t := by
  cases t
  · rfl
  · rw [Stored.tr_ref, IdentRef.tr_one]

theorem PropDefault.tr_one (t : PropDefault δ) : t.tr 𝟙 = t := by
  cases t
  · rw [PropDefault.tr_value, Expr.tr_one]
  · rfl

mutual
theorem PType.tr_one : ∀ e : PType δ, e.tr 𝟙 = e
  | .nil => by rw [PType.tr]
  | .id t => by rw [PType.tr, TypeId.tr_one]
  | .enum es => by rw [PType.tr, map_fun_id EnumElem.tr_one]
  | .subrange lo hi => by rw [PType.tr, Expr.tr_one, Expr.tr_one]
  | .pointer t => by rw [PType.tr, TypeId.tr_one]
  | .fixedString i len => by rw [PType.tr, Expr.tr_one]; rfl
  | .array packed index base => by rw [PType.tr, OptPTypes.tr_one index, PType.tr_one base]
  | .set packed elem => by rw [PType.tr, PType.tr_one elem]
  | .file packed t => by rw [PType.tr, TypeId.tr_one]
  | .record packed fl => by rw [PType.tr, FieldList.tr_one fl]
  | .proc fn ps ret o => by rw [PType.tr, OptParams.tr_one ps, omap_fun_id TypeId.tr_one]
  | .forward => by rw [PType.tr]
  | .classRef t => by rw [PType.tr, TypeId.tr_one]
  | .cls h ms => by rw [PType.tr, Sects.tr_one ms, map_fun_id TypeId.tr_one]
theorem OptPTypes.tr_one : ∀ e : OptPTypes δ, e.tr 𝟙 = e
  | .none => by rw [OptPTypes.tr]
  | .some ts => by rw [OptPTypes.tr, PTypes.tr_one ts]
theorem PTypes.tr_one : ∀ e : PTypes δ, e.tr 𝟙 = e
  | .one t => by rw [PTypes.tr, PType.tr_one t]
  | .cons t rest => by rw [PTypes.tr, PType.tr_one t, PTypes.tr_one rest]
theorem FieldList.tr_one : ∀ e : FieldList δ, e.tr 𝟙 = e
  | .mk fs v => by rw [FieldList.tr, Fields.tr_one fs, OptVariant.tr_one v]
theorem Fields.tr_one : ∀ e : Fields δ, e.tr 𝟙 = e
  | .nil => by rw [Fields.tr]
  | .cons is t rest => by rw [Fields.tr, PType.tr_one t, Fields.tr_one rest]; one_leaf
theorem OptVariant.tr_one : ∀ e : OptVariant δ, e.tr 𝟙 = e
  | .none => by rw [OptVariant.tr]
  | .some i t vs => by rw [OptVariant.tr, PType.tr_one t, Variants.tr_one vs]; one_leaf
theorem Variants.tr_one : ∀ e : Variants δ, e.tr 𝟙 = e
  | .nil => by rw [Variants.tr]
  | .cons es fl rest => by rw [Variants.tr, FieldList.tr_one fl, Variants.tr_one rest, Exprs.tr_one]
theorem OptParams.tr_one : ∀ e : OptParams δ, e.tr 𝟙 = e
  | .none => by rw [OptParams.tr]
  | .some ps => by rw [OptParams.tr, Params.tr_one ps]
theorem Params.tr_one : ∀ e : Params δ, e.tr 𝟙 = e
  | .one opt is t dflt => by rw [Params.tr, ParamTy.tr_one t, omap_fun_id Expr.tr_one]; one_leaf
  | .cons opt is t dflt rest => by
    rw [Params.tr, ParamTy.tr_one t, omap_fun_id Expr.tr_one, Params.tr_one rest]; one_leaf
theorem ParamTy.tr_one : ∀ e : ParamTy δ, e.tr 𝟙 = e
  | .none => by rw [ParamTy.tr]
  | .some a t => by rw [ParamTy.tr, PType.tr_one t]
theorem Sects.tr_one : ∀ e : Sects δ, e.tr 𝟙 = e
  | .nil => by rw [Sects.tr]
  | .cons v fs ms ps rest => by rw [Sects.tr, Fields.tr_one fs, Methods.tr_one ms, Props.tr_one ps, Sects.tr_one rest]
theorem Methods.tr_one : ∀ e : Methods δ, e.tr 𝟙 = e
  | .nil => by rw [Methods.tr]
  | .cons h ds rest => by rw [Methods.tr, Heading.tr_one h, Methods.tr_one rest]; one_leaf
theorem Heading.tr_one : ∀ e : Heading δ, e.tr 𝟙 = e
  | .func fn i ps ret => by rw [Heading.tr, OptParams.tr_one ps, omap_fun_id TypeId.tr_one]; rfl
  | .ctor i ps => by rw [Heading.tr, OptParams.tr_one ps]; rfl
  | .dtor i => by rw [Heading.tr]; rfl
theorem Props.tr_one : ∀ e : Props δ, e.tr 𝟙 = e
  | .nil => by rw [Props.tr]
  | .cons p rest => by rw [Props.tr, ClassProp.tr_one p, Props.tr_one rest]
theorem ClassProp.tr_one : ∀ e : ClassProp δ, e.tr 𝟙 = e
  | .mk i intf ix rd wr st df impl parent => by
    rw [ClassProp.tr, OptIntf.tr_one intf]
    simp only [omap_fun_id Expr.tr_one, omap_fun_id IdentRef.tr_one, omap_fun_id Stored.tr_one, omap_fun_id PropDefault.tr_one, omap_fun_id TypeId.tr_one]
    one_leaf
theorem OptIntf.tr_one : ∀ e : OptIntf δ, e.tr 𝟙 = e
  | .none => by rw [OptIntf.tr]
  | .some ps t => by rw [OptIntf.tr, OptParams.tr_one ps, TypeId.tr_one]
end

theorem ConstDecl.tr_one (d : ConstDecl δ) : d.tr 𝟙 = d := by
  obtain ⟨a, b, e⟩ := d
  rw [ConstDecl.tr_mk, omap_fun_id PType.tr_one, Expr.tr_one]; rfl
theorem TypeDecl.tr_one (d : TypeDecl δ) : d.tr 𝟙 = d := by
  obtain ⟨a, b, e⟩ := d
  rw [TypeDecl.tr_mk, PType.tr_one]; one_leaf
theorem VarDecl.tr_one (d : VarDecl δ) : d.tr 𝟙 = d := by
  obtain ⟨a, b, e, g⟩ := d
  rw [VarDecl.tr_mk, PType.tr_one, omap_fun_id Expr.tr_one]; one_leaf
theorem ThreadVarDecl.tr_one (d : ThreadVarDecl δ) : d.tr 𝟙 = d := by
  obtain ⟨a, b⟩ := d
  rw [ThreadVarDecl.tr_mk, PType.tr_one]; one_leaf
theorem ExportsItem.tr_one (d : ExportsItem δ) : d.tr 𝟙 = d := by
  obtain ⟨a, b, e⟩ := d
  rw [ExportsItem.tr_mk, omap_fun_id Expr.tr_one, omap_fun_id Expr.tr_one]; rfl
theorem ExternalOptions.tr_one (d : ExternalOptions) : d.tr (𝟙).str = d := by
  obtain ⟨a, b, e⟩ := d
  rw [ExternalOptions.tr_mk]; one_leaf
theorem RoutineOpts.tr_one (d : RoutineOpts) : d.tr (𝟙).str = d := by
  obtain ⟨a, b⟩ := d
  rw [RoutineOpts.tr_mk, omap_fun_id (ExternalOptions.tr_one (δ := δ))]; one_leaf

mutual
theorem Block.tr_one : ∀ e : Block δ, e.tr 𝟙 = e
  | .mk ds ex b => by
    rw [Block.tr, DeclSects.tr_one ds, map_fun_id (map_fun_id ExportsItem.tr_one), omap_fun_id (Body.tr_one PType.tr_one)]
theorem DeclSects.tr_one : ∀ e : DeclSects δ, e.tr 𝟙 = e
  | .nil => by rw [DeclSects.tr]
  | .cons s rest => by rw [DeclSects.tr, DeclSect.tr_one s, DeclSects.tr_one rest]
theorem DeclSect.tr_one : ∀ e : DeclSect δ, e.tr 𝟙 = e
  | .label i => by rw [DeclSect.tr]; rfl
  | .const ds => by rw [DeclSect.tr, map_fun_id ConstDecl.tr_one]
  | .type ds => by rw [DeclSect.tr, map_fun_id TypeDecl.tr_one]
  | .var ds => by rw [DeclSect.tr, map_fun_id VarDecl.tr_one]
  | .threadVar ds => by rw [DeclSect.tr, map_fun_id ThreadVarDecl.tr_one]
  | .func h o b => by rw [DeclSect.tr, Heading.tr_one h, RoutineOpts.tr_one, Block.tr_one b]
end

theorem UsesEntry.tr_one (e : UsesEntry) : e.tr 𝟙 = e := rfl
theorem UnitHead.tr_one (h : UnitHead) : h.tr 𝟙 = h := by
  obtain ⟨a, b, e⟩ := h
  simp only [UnitHead.tr]
  one_leaf
theorem IntfDecl.tr_one (d : IntfDecl δ) : d.tr 𝟙 = d := by
  cases d with
  | const ds => simp only [IntfDecl.tr]; rw [map_fun_id ConstDecl.tr_one]
  | type first ds => simp only [IntfDecl.tr]; rw [map_fun_id TypeDecl.tr_one]
  | var ds => simp only [IntfDecl.tr]; rw [map_fun_id VarDecl.tr_one]
  | threadVar ds => simp only [IntfDecl.tr]; rw [map_fun_id ThreadVarDecl.tr_one]
  | heading h o => simp only [IntfDecl.tr]; rw [Heading.tr_one, RoutineOpts.tr_one]
theorem InitSection.tr_one (s : InitSection δ) : s.tr 𝟙 = s := by
  obtain ⟨a, b⟩ := s
  simp only [InitSection.tr]
  rw [Stmts.tr_one PType.tr_one, omap_fun_id (Stmts.tr_one PType.tr_one)]
theorem UnitBody.tr_one (s : UnitBody δ) : s.tr 𝟙 = s := by
  obtain ⟨a, b, e⟩ := s
  simp only [UnitBody.tr]
  rw [DeclSects.tr_one, map_fun_id (map_fun_id ExportsItem.tr_one), omap_fun_id InitSection.tr_one]
theorem UnitTree.tr_one (t : UnitTree δ) : t.tr 𝟙 = t := by
  obtain ⟨a, b, e, g, h⟩ := t
  simp only [UnitTree.tr]
  rw [UnitHead.tr_one, map_fun_id UsesEntry.tr_one, map_fun_id IntfDecl.tr_one, map_fun_id UsesEntry.tr_one, UnitBody.tr_one]
theorem ProgramTree.tr_one (t : ProgramTree δ) : t.tr 𝟙 = t := by
  obtain ⟨a, b, e, g⟩ := t
  simp only [ProgramTree.tr]
  rw [map_fun_id UsesEntry.tr_one, map_fun_id UnitTree.tr_one, Block.tr_one]; rfl

/-! ## Contexts -/

theorem Spell.same_decl (d : Decl Node) : Spell.same.decl d = d := by
  obtain ⟨n, d⟩ := d
  cases d <;> rfl

theorem Spell.same_tr : Spell.same.tr = Tr.one := by
  unfold Spell.tr Tr.one
  congr 1
  exact funext fun _ => funext Spell.same_decl

theorem Tbl.sp_same (t : Tbl Node) : Tbl.sp Spell.same t = t := map_fun_id (fun e => by rw [Spell.same_decl]) t

theorem MapObj.sp_same (o : MapObj Node) : MapObj.sp Spell.same o = o := by
  cases o <;> simp only [MapObj.sp, Tbl.sp_same]

theorem DS.sp_same (k : DS) : k.sp Spell.same = k := by
  obtain ⟨⟨maps, units, ctxs⟩, cur, types, actual, refs, pending, items, program⟩ := k
  simp only [DS.sp, World.sp]
  rw [map_fun_id MapObj.sp_same, map_fun_id (f := UnitObj.sp Spell.same) (fun _ => rfl), Spell.same_tr, map_fun_id PType.tr_one,
    map_fun_id (omap_fun_id Spell.same_decl), map_fun_id (f := fun r : Nat × Str => (r.1, Spell.same.nm r.2)) (fun _ => rfl)]

theorem Spell.same_good (u : Uni) : Spell.same.Good u := ⟨fun _ => rfl, fun _ => rfl, rfl, rfl⟩

theorem TokR.refl {u : Uni} {c : Spell} (a : Token) : TokR u (NmR c) c.tr c.tr a a :=
  ⟨rfl, fun _ _ => Iff.rfl, rfl, rfl, fun _ => rfl, fun _ => rfl, rfl, rfl, rfl, rfl⟩

theorem TokR.refls {u : Uni} {c : Spell} : ∀ l : List Token, List.Forall₂ (TokR u (NmR c) c.tr c.tr) l l
  | [] => .nil
  | a :: l => .cons (TokR.refl a) (TokR.refls l)

theorem TailR.refl {u : Uni} {c : Spell} (t : Tail) : TailR u (NmR c) c.tr c.tr t t := by
  cases t <;> first | exact TokR.refl _ | exact trivial

theorem FileRR.refl {u : Uni} {c : Spell} {w : Prop} (f : FileR) : FileRR u c w f f := by
  cases f <;> first | exact trivial | exact .of (TokR.refls _) (TailR.refl _)

end TP
