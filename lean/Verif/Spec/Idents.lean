import Verif.Model.Goal

/-!
# The identifiers of a tree

`ids` lists the identifiers in a tree: the names of what is declared, and the names that refer to something, in the order of
the text.  The identifiers behind the references, those of declarations that stand elsewhere, are not listed.
-/

namespace TP
variable {δ : Type}

def IdentRef.ids (r : IdentRef δ) : List Ident := [r.ident]

def QualId.ids (q : QualId δ) : List Ident := q.ns.toList.flatMap IdentRef.ids ++ q.ident.ids

mutual
def Expr.ids : Expr δ → List Ident
  | .mk se rest => se.ids ++ rest.ids
def RelTail.ids : RelTail δ → List Ident
  | .nil => []
  | .cons _ se rest => se.ids ++ rest.ids
def SExpr.ids : SExpr δ → List Ident
  | .mk _ t rest => t.ids ++ rest.ids
def AddTail.ids : AddTail δ → List Ident
  | .nil => []
  | .cons _ t rest => t.ids ++ rest.ids
def Term.ids : Term δ → List Ident
  | .mk f rest => f.ids ++ rest.ids
def MulTail.ids : MulTail δ → List Ident
  | .nil => []
  | .cons _ f rest => f.ids ++ rest.ids
def Factor.ids : Factor δ → List Ident
  | .desig d => d.ids
  | .call d args => d.ids ++ args.ids
  | .addr d => d.ids
  | .value _ => []
  | .str _ => []
  | .num _ => []
  | .nil => []
  | .paren e => e.ids
  | .not f => f.ids
  | .set es => es.ids
  | .cast t e => IdentRef.ids t ++ e.ids
def Desig.ids : Desig δ → List Ident
  | .mk q items => QualId.ids q ++ items.ids
def Items.ids : Items δ → List Ident
  | .nil => []
  | .ident i rest => i :: rest.ids
  | .index es rest => es.ids ++ rest.ids
  | .deref rest => rest.ids
def Exprs.ids : Exprs δ → List Ident
  | .one e => e.ids
  | .cons e rest => e.ids ++ rest.ids
def SetElems.ids : SetElems δ → List Ident
  | .one e => e.ids
  | .cons e rest => e.ids ++ rest.ids
def SetElem.ids : SetElem δ → List Ident
  | .single e => e.ids
  | .range lo hi => lo.ids ++ hi.ids
end

def CaseLabel.ids : CaseLabel δ → List Ident
  | .single e => e.ids
  | .range lo hi => lo.ids ++ hi.ids

def CaseLabels.ids : CaseLabels δ → List Ident
  | .one l => l.ids
  | .cons l rest => l.ids ++ rest.ids

def QualIds.ids : QualIds δ → List Ident
  | .one q => q.ids
  | .cons q rest => q.ids ++ rest.ids

section
variable {τ : Type} (f : τ → List Ident)

mutual
def Stmt.ids : Stmt δ τ → List Ident
  | .mk l b => l.toList ++ b.ids
def Body.ids : Body δ τ → List Ident
  | .assign d e => d.ids ++ e.ids
  | .call d => d.ids
  | .callArgs d args => d.ids ++ args.ids
  | .inherited => []
  | .goto l _ => [l]
  | .compound l => l.ids
  | .ifThen c s => c.ids ++ s.ids
  | .ifElse c s1 s2 => c.ids ++ s1.ids ++ s2.ids
  | .case e sels els => e.ids ++ sels.ids ++ els.ids
  | .repeat l c => l.ids ++ c.ids
  | .while c s => c.ids ++ s.ids
  | .for q _ lo hi s => q.ids ++ lo.ids ++ hi.ids ++ s.ids
  | .with qs s => qs.ids ++ s.ids
  | .tryExcept l b => l.ids ++ b.ids
  | .tryFinally l1 l2 => l1.ids ++ l2.ids
  | .raise obj addr => obj.toList.flatMap Expr.ids ++ addr.toList.flatMap Expr.ids
  | .asm => []
def Stmts.ids : Stmts δ τ → List Ident
  | .one s => s.ids
  | .cons s rest => s.ids ++ rest.ids
def OptStmts.ids : OptStmts δ τ → List Ident
  | .none => []
  | .some l => l.ids
def Sels.ids : Sels δ τ → List Ident
  | .one ls s => ls.ids ++ s.ids
  | .cons ls s rest => ls.ids ++ s.ids ++ rest.ids
def ExcBlock.ids : ExcBlock δ τ → List Ident
  | .plain l => l.ids
  | .handlers hs els => hs.ids ++ els.ids
def Handlers.ids : Handlers δ τ → List Ident
  | .one h => h.ids
  | .cons h rest => h.ids ++ rest.ids
def Handler.ids : Handler δ τ → List Ident
  | .mk i t s => i.toList ++ f t ++ s.ids
end
end

def TypeId.ids (t : TypeId δ) : List Ident := t.unit.toList ++ [t.ident]

def EnumElem.ids (e : EnumElem δ) : List Ident := e.ident :: e.expr.toList.flatMap Expr.ids

def Stored.ids : Stored δ → List Ident
  | .const _ => []
  | .ref r => r.ids

def PropDefault.ids : PropDefault δ → List Ident
  | .value e => e.ids
  | .noDefault => []

mutual
def PType.ids : PType δ → List Ident
  | .nil => []
  | .id t => TypeId.ids t
  | .enum es => es.flatMap EnumElem.ids
  | .subrange lo hi => Expr.ids lo ++ Expr.ids hi
  | .pointer t => TypeId.ids t
  | .fixedString i len => i :: Expr.ids len
  | .array _ index base => index.ids ++ base.ids
  | .set _ elem => elem.ids
  | .file _ t => TypeId.ids t
  | .record _ fl => fl.ids
  | .proc _ ps ret _ => ps.ids ++ ret.toList.flatMap TypeId.ids
  | .forward => []
  | .classRef t => TypeId.ids t
  | .cls h ms => h.flatMap TypeId.ids ++ ms.ids
def OptPTypes.ids : OptPTypes δ → List Ident
  | .none => []
  | .some ts => ts.ids
def PTypes.ids : PTypes δ → List Ident
  | .one t => t.ids
  | .cons t rest => t.ids ++ rest.ids
def FieldList.ids : FieldList δ → List Ident
  | .mk fs v => fs.ids ++ v.ids
def Fields.ids : Fields δ → List Ident
  | .nil => []
  | .cons is t rest => is ++ t.ids ++ rest.ids
def OptVariant.ids : OptVariant δ → List Ident
  | .none => []
  | .some i t vs => i.toList ++ t.ids ++ vs.ids
def Variants.ids : Variants δ → List Ident
  | .nil => []
  | .cons es fl rest => Exprs.ids es ++ fl.ids ++ rest.ids
def OptParams.ids : OptParams δ → List Ident
  | .none => []
  | .some ps => ps.ids
def Params.ids : Params δ → List Ident
  | .one _ is t dflt => is ++ t.ids ++ dflt.toList.flatMap Expr.ids
  | .cons _ is t dflt rest => is ++ t.ids ++ dflt.toList.flatMap Expr.ids ++ rest.ids
def ParamTy.ids : ParamTy δ → List Ident
  | .none => []
  | .some _ t => t.ids
def Sects.ids : Sects δ → List Ident
  | .nil => []
  | .cons _ fs ms ps rest => fs.ids ++ ms.ids ++ ps.ids ++ rest.ids
def Methods.ids : Methods δ → List Ident
  | .nil => []
  | .cons h _ rest => h.ids ++ rest.ids
def Heading.ids : Heading δ → List Ident
  | .func _ i ps ret => i :: ps.ids ++ ret.toList.flatMap TypeId.ids
  | .ctor i ps => i :: ps.ids
  | .dtor i => [i]
def Props.ids : Props δ → List Ident
  | .nil => []
  | .cons p rest => p.ids ++ rest.ids
def ClassProp.ids : ClassProp δ → List Ident
  | .mk i intf ix rd wr st df impl _ =>
    i :: intf.ids ++ ix.toList.flatMap Expr.ids ++ rd.toList.flatMap IdentRef.ids ++ wr.toList.flatMap IdentRef.ids ++
      st.toList.flatMap Stored.ids ++ df.toList.flatMap PropDefault.ids ++ impl.toList.flatMap TypeId.ids
def OptIntf.ids : OptIntf δ → List Ident
  | .none => []
  | .some ps t => ps.ids ++ TypeId.ids t
end

def ConstDecl.ids (d : ConstDecl δ) : List Ident := d.ident :: d.type.toList.flatMap PType.ids ++ d.expr.ids
def TypeDecl.ids (d : TypeDecl δ) : List Ident := d.ident :: d.type.ids
def VarDecl.ids (d : VarDecl δ) : List Ident := d.idents ++ d.type.ids ++ d.absolute.toList ++ d.expr.toList.flatMap Expr.ids
def ThreadVarDecl.ids (d : ThreadVarDecl δ) : List Ident := d.idents ++ d.type.ids
def ExportsItem.ids (d : ExportsItem δ) : List Ident := d.ident :: d.name.toList.flatMap Expr.ids ++ d.index.toList.flatMap Expr.ids

mutual
def Block.ids : Block δ → List Ident
  | .mk ds ex b => ds.ids ++ ex.flatMap (fun is => is.flatMap ExportsItem.ids) ++ b.toList.flatMap (Body.ids PType.ids)
def DeclSects.ids : DeclSects δ → List Ident
  | .nil => []
  | .cons s rest => s.ids ++ rest.ids
def DeclSect.ids : DeclSect δ → List Ident
  | .label i => [i]
  | .const ds => ds.flatMap ConstDecl.ids
  | .type ds => ds.flatMap TypeDecl.ids
  | .var ds => ds.flatMap VarDecl.ids
  | .threadVar ds => ds.flatMap ThreadVarDecl.ids
  | .func h _ b => h.ids ++ b.ids
end

def IntfDecl.ids : IntfDecl δ → List Ident
  | .const ds => ds.flatMap ConstDecl.ids
  | .type _ ds => ds.flatMap TypeDecl.ids
  | .var ds => ds.flatMap VarDecl.ids
  | .threadVar ds => ds.flatMap ThreadVarDecl.ids
  | .heading h _ => h.ids

def InitSection.ids (s : InitSection δ) : List Ident :=
  s.initialization.ids PType.ids ++ s.finalization.toList.flatMap (Stmts.ids PType.ids)

def UnitBody.ids (b : UnitBody δ) : List Ident :=
  b.decls.ids ++ b.exports.flatMap (fun is => is.flatMap ExportsItem.ids) ++ b.init.toList.flatMap InitSection.ids

/-- the identifiers of a unit, with its own name and the names of its uses clauses -/
def UnitTree.ids (t : UnitTree δ) : List Ident :=
  t.head.ident :: t.intfUses.map UsesEntry.ident ++ t.intf.flatMap IntfDecl.ids ++ t.implUses.map UsesEntry.ident ++ t.body.ids

/-- the identifiers of a program, with its own name and the names of its uses clause, without those of its units -/
def ProgramTree.ids (t : ProgramTree δ) : List Ident := t.ident :: t.uses.map UsesEntry.ident ++ t.block.ids

end TP
