import Verif.Model.Goal

/-!
# The references of a tree

`refs` lists the references of a tree that are made while it is read: each with the identifier that refers and the
declaration it refers to.  These are the fields `Ref` of identifiers, of `GOTO` labels and of type identifiers, and the
parents of properties.  A type identifier whose name is not declared yet has its `Ref` set later (`TRef.later`); such
references are not listed.
-/

namespace TP.Spec
open TP

/-- a name with the case of its letters changed -/
inductive Recased (u : Uni) (n : Str) : Str → Prop
  | same : Recased u n n
  | low {x : Str} : Recased u n x → Recased u n (u.toLower x)
  | up {x : Str} : Recased u n x → Recased u n (u.toUpper x)

/-- the declaration is one of the identifier: their names are equal up to the case of letters -/
def Refers (u : Uni) (i : Ident) (d : Decl Node) : Prop := Recased u i.name (u.toLower d.name)

end TP.Spec

namespace TP
variable {δ : Type}

/-- an identifier that refers, with the declaration -/
abbrev Refs (δ : Type) := List (Ident × δ)

def IdentRef.refs (r : IdentRef δ) : Refs δ := r.ref.toList.map fun d => (r.ident, d)

def QualId.refs (q : QualId δ) : Refs δ := q.ns.toList.flatMap IdentRef.refs ++ q.ident.refs

mutual
def Expr.refs : Expr δ → Refs δ
  | .mk se rest => se.refs ++ rest.refs
def RelTail.refs : RelTail δ → Refs δ
  | .nil => []
  | .cons _ se rest => se.refs ++ rest.refs
def SExpr.refs : SExpr δ → Refs δ
  | .mk _ t rest => t.refs ++ rest.refs
def AddTail.refs : AddTail δ → Refs δ
  | .nil => []
  | .cons _ t rest => t.refs ++ rest.refs
def Term.refs : Term δ → Refs δ
  | .mk f rest => f.refs ++ rest.refs
def MulTail.refs : MulTail δ → Refs δ
  | .nil => []
  | .cons _ f rest => f.refs ++ rest.refs
def Factor.refs : Factor δ → Refs δ
  | .desig d => d.refs
  | .call d args => d.refs ++ args.refs
  | .addr d => d.refs
  | .value _ => []
  | .str _ => []
  | .num _ => []
  | .nil => []
  | .paren e => e.refs
  | .not f => f.refs
  | .set es => es.refs
  | .cast t e => IdentRef.refs t ++ e.refs
def Desig.refs : Desig δ → Refs δ
  | .mk q items => QualId.refs q ++ items.refs
def Items.refs : Items δ → Refs δ
  | .nil => []
  | .ident _ rest => rest.refs
  | .index es rest => es.refs ++ rest.refs
  | .deref rest => rest.refs
def Exprs.refs : Exprs δ → Refs δ
  | .one e => e.refs
  | .cons e rest => e.refs ++ rest.refs
def SetElems.refs : SetElems δ → Refs δ
  | .one e => e.refs
  | .cons e rest => e.refs ++ rest.refs
def SetElem.refs : SetElem δ → Refs δ
  | .single e => e.refs
  | .range lo hi => lo.refs ++ hi.refs
end

def CaseLabel.refs : CaseLabel δ → Refs δ
  | .single e => e.refs
  | .range lo hi => lo.refs ++ hi.refs

def CaseLabels.refs : CaseLabels δ → Refs δ
  | .one l => l.refs
  | .cons l rest => l.refs ++ rest.refs

def QualIds.refs : QualIds δ → Refs δ
  | .one q => q.refs
  | .cons q rest => q.refs ++ rest.refs

section
variable {τ : Type} (f : τ → Refs δ)

mutual
def Stmt.refs : Stmt δ τ → Refs δ
  | .mk _ b => b.refs
def Body.refs : Body δ τ → Refs δ
  | .assign d e => d.refs ++ e.refs
  | .call d => d.refs
  | .callArgs d args => d.refs ++ args.refs
  | .inherited => []
  | .goto l r => r.toList.map fun d => (l, d)
  | .compound l => l.refs
  | .ifThen c s => c.refs ++ s.refs
  | .ifElse c s1 s2 => c.refs ++ s1.refs ++ s2.refs
  | .case e sels els => e.refs ++ sels.refs ++ els.refs
  | .repeat l c => l.refs ++ c.refs
  | .while c s => c.refs ++ s.refs
  | .for q _ lo hi s => q.refs ++ lo.refs ++ hi.refs ++ s.refs
  | .with qs s => qs.refs ++ s.refs
  | .tryExcept l b => l.refs ++ b.refs
  | .tryFinally l1 l2 => l1.refs ++ l2.refs
  | .raise obj addr => obj.toList.flatMap Expr.refs ++ addr.toList.flatMap Expr.refs
  | .asm => []
def Stmts.refs : Stmts δ τ → Refs δ
  | .one s => s.refs
  | .cons s rest => s.refs ++ rest.refs
def OptStmts.refs : OptStmts δ τ → Refs δ
  | .none => []
  | .some l => l.refs
def Sels.refs : Sels δ τ → Refs δ
  | .one ls s => ls.refs ++ s.refs
  | .cons ls s rest => ls.refs ++ s.refs ++ rest.refs
def ExcBlock.refs : ExcBlock δ τ → Refs δ
  | .plain l => l.refs
  | .handlers hs els => hs.refs ++ els.refs
def Handlers.refs : Handlers δ τ → Refs δ
  | .one h => h.refs
  | .cons h rest => h.refs ++ rest.refs
def Handler.refs : Handler δ τ → Refs δ
  | .mk _ t s => f t ++ s.refs
end
end

def TRef.refs (i : Ident) : TRef δ → Refs δ
  | .none => []
  | .now d => [(i, d)]
  | .later _ => []

def TypeId.refs (t : TypeId δ) : Refs δ := t.ref.refs t.ident

def EnumElem.refs (e : EnumElem δ) : Refs δ := e.expr.toList.flatMap Expr.refs

def Stored.refs : Stored δ → Refs δ
  | .const _ => []
  | .ref r => r.refs

def PropDefault.refs : PropDefault δ → Refs δ
  | .value e => e.refs
  | .noDefault => []

mutual
def PType.refs : PType δ → Refs δ
  | .nil => []
  | .id t => TypeId.refs t
  | .enum es => es.flatMap EnumElem.refs
  | .subrange lo hi => Expr.refs lo ++ Expr.refs hi
  | .pointer t => TypeId.refs t
  | .fixedString _ len => Expr.refs len
  | .array _ index base => index.refs ++ base.refs
  | .set _ elem => elem.refs
  | .file _ t => TypeId.refs t
  | .record _ fl => fl.refs
  | .proc _ ps ret _ => ps.refs ++ ret.toList.flatMap TypeId.refs
  | .forward => []
  | .classRef t => TypeId.refs t
  | .cls h ms => h.flatMap TypeId.refs ++ ms.refs
def OptPTypes.refs : OptPTypes δ → Refs δ
  | .none => []
  | .some ts => ts.refs
def PTypes.refs : PTypes δ → Refs δ
  | .one t => t.refs
  | .cons t rest => t.refs ++ rest.refs
def FieldList.refs : FieldList δ → Refs δ
  | .mk fs v => fs.refs ++ v.refs
def Fields.refs : Fields δ → Refs δ
  | .nil => []
  | .cons _ t rest => t.refs ++ rest.refs
def OptVariant.refs : OptVariant δ → Refs δ
  | .none => []
  | .some _ t vs => t.refs ++ vs.refs
def Variants.refs : Variants δ → Refs δ
  | .nil => []
  | .cons es fl rest => Exprs.refs es ++ fl.refs ++ rest.refs
def OptParams.refs : OptParams δ → Refs δ
  | .none => []
  | .some ps => ps.refs
def Params.refs : Params δ → Refs δ
  | .one _ _ t dflt => t.refs ++ dflt.toList.flatMap Expr.refs
  | .cons _ _ t dflt rest => t.refs ++ dflt.toList.flatMap Expr.refs ++ rest.refs
def ParamTy.refs : ParamTy δ → Refs δ
  | .none => []
  | .some _ t => t.refs
def Sects.refs : Sects δ → Refs δ
  | .nil => []
  | .cons _ fs ms ps rest => fs.refs ++ ms.refs ++ ps.refs ++ rest.refs
def Methods.refs : Methods δ → Refs δ
  | .nil => []
  | .cons h _ rest => h.refs ++ rest.refs
def Heading.refs : Heading δ → Refs δ
  | .func _ _ ps ret => ps.refs ++ ret.toList.flatMap TypeId.refs
  | .ctor _ ps => ps.refs
  | .dtor _ => []
def Props.refs : Props δ → Refs δ
  | .nil => []
  | .cons p rest => p.refs ++ rest.refs
def ClassProp.refs : ClassProp δ → Refs δ
  | .mk i intf ix rd wr st df impl parent =>
    intf.refs ++ ix.toList.flatMap Expr.refs ++ rd.toList.flatMap IdentRef.refs ++ wr.toList.flatMap IdentRef.refs ++
      st.toList.flatMap Stored.refs ++ df.toList.flatMap PropDefault.refs ++ impl.toList.flatMap TypeId.refs ++
      parent.toList.map fun d => (i, d)
def OptIntf.refs : OptIntf δ → Refs δ
  | .none => []
  | .some ps t => ps.refs ++ TypeId.refs t
end

def ConstDecl.refs (d : ConstDecl δ) : Refs δ := d.type.toList.flatMap PType.refs ++ d.expr.refs
def TypeDecl.refs (d : TypeDecl δ) : Refs δ := d.type.refs
def VarDecl.refs (d : VarDecl δ) : Refs δ := d.type.refs ++ d.expr.toList.flatMap Expr.refs
def ThreadVarDecl.refs (d : ThreadVarDecl δ) : Refs δ := d.type.refs
def ExportsItem.refs (d : ExportsItem δ) : Refs δ := d.name.toList.flatMap Expr.refs ++ d.index.toList.flatMap Expr.refs

mutual
def Block.refs : Block δ → Refs δ
  | .mk ds ex b => ds.refs ++ ex.flatMap (fun is => is.flatMap ExportsItem.refs) ++ b.toList.flatMap (Body.refs PType.refs)
def DeclSects.refs : DeclSects δ → Refs δ
  | .nil => []
  | .cons s rest => s.refs ++ rest.refs
def DeclSect.refs : DeclSect δ → Refs δ
  | .label _ => []
  | .const ds => ds.flatMap ConstDecl.refs
  | .type ds => ds.flatMap TypeDecl.refs
  | .var ds => ds.flatMap VarDecl.refs
  | .threadVar ds => ds.flatMap ThreadVarDecl.refs
  | .func h _ b => h.refs ++ b.refs
end

def IntfDecl.refs : IntfDecl δ → Refs δ
  | .const ds => ds.flatMap ConstDecl.refs
  | .type _ ds => ds.flatMap TypeDecl.refs
  | .var ds => ds.flatMap VarDecl.refs
  | .threadVar ds => ds.flatMap ThreadVarDecl.refs
  | .heading h _ => h.refs

def InitSection.refs (s : InitSection δ) : Refs δ :=
  s.initialization.refs PType.refs ++ s.finalization.toList.flatMap (Stmts.refs PType.refs)

def UnitBody.refs (b : UnitBody δ) : Refs δ :=
  b.decls.refs ++ b.exports.flatMap (fun is => is.flatMap ExportsItem.refs) ++ b.init.toList.flatMap InitSection.refs

def UnitTree.refs (t : UnitTree δ) : Refs δ := t.intf.flatMap IntfDecl.refs ++ t.body.refs

def ProgramTree.refs (t : ProgramTree δ) : Refs δ := t.units.flatMap UnitTree.refs ++ t.block.refs

end TP
