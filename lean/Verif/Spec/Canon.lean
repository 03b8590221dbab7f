import Verif.Model.Decls

/-!
# Trees up to spelling

`Tr` says how the leaves of a tree are replaced: declarations, identifiers, texts, and the numbers of references that are
set later.  `tr` replaces them everywhere in a tree and keeps the rest.
-/

namespace TP.Spec
open TP

/-- how the leaves of a tree are replaced -/
structure Tr (δ ε : Type) where
  /-- a declaration that the identifier refers to -/
  decl : Ident → δ → ε
  ref : Nat → Nat
  id : Ident → Ident
  str : Str → Str

end TP.Spec

namespace TP
open Spec
variable {δ ε : Type} (m : Tr δ ε)

def IdentRef.tr (r : IdentRef δ) : IdentRef ε := ⟨m.id r.ident, r.ref.map (m.decl r.ident)⟩

def QualId.tr (q : QualId δ) : QualId ε := ⟨q.ns.map (·.tr m), q.ident.tr m⟩

mutual
def Expr.tr : Expr δ → Expr ε
  | .mk se rest => .mk se.tr rest.tr
def RelTail.tr : RelTail δ → RelTail ε
  | .nil => .nil
  | .cons op se rest => .cons (m.str op) se.tr rest.tr
def SExpr.tr : SExpr δ → SExpr ε
  | .mk un t rest => .mk (un.map m.str) t.tr rest.tr
def AddTail.tr : AddTail δ → AddTail ε
  | .nil => .nil
  | .cons op t rest => .cons (m.str op) t.tr rest.tr
def Term.tr : Term δ → Term ε
  | .mk f rest => .mk f.tr rest.tr
def MulTail.tr : MulTail δ → MulTail ε
  | .nil => .nil
  | .cons op f rest => .cons (m.str op) f.tr rest.tr
def Factor.tr : Factor δ → Factor ε
  | .desig d => .desig d.tr
  | .call d args => .call d.tr args.tr
  | .addr d => .addr d.tr
  | .value v => .value (m.str v)
  | .str v => .str (m.str v)
  | .num v => .num (m.str v)
  | .nil => .nil
  | .paren e => .paren e.tr
  | .not f => .not f.tr
  | .set es => .set es.tr
  | .cast t e => .cast (t.tr m) e.tr
def Desig.tr : Desig δ → Desig ε
  | .mk q items => .mk (q.tr m) items.tr
def Items.tr : Items δ → Items ε
  | .nil => .nil
  | .ident i rest => .ident (m.id i) rest.tr
  | .index es rest => .index es.tr rest.tr
  | .deref rest => .deref rest.tr
def Exprs.tr : Exprs δ → Exprs ε
  | .one e => .one e.tr
  | .cons e rest => .cons e.tr rest.tr
def SetElems.tr : SetElems δ → SetElems ε
  | .one e => .one e.tr
  | .cons e rest => .cons e.tr rest.tr
def SetElem.tr : SetElem δ → SetElem ε
  | .single e => .single e.tr
  | .range lo hi => .range lo.tr hi.tr
end

def CaseLabel.tr : CaseLabel δ → CaseLabel ε
  | .single e => .single (e.tr m)
  | .range lo hi => .range (lo.tr m) (hi.tr m)

def CaseLabels.tr : CaseLabels δ → CaseLabels ε
  | .one l => .one (l.tr m)
  | .cons l rest => .cons (l.tr m) rest.tr

def QualIds.tr : QualIds δ → QualIds ε
  | .one q => .one (q.tr m)
  | .cons q rest => .cons (q.tr m) rest.tr

section
variable {τ υ : Type} (f : τ → υ)

mutual
def Stmt.tr : Stmt δ τ → Stmt ε υ
  | .mk l b => .mk (l.map m.id) b.tr
def Body.tr : Body δ τ → Body ε υ
  | .assign d e => .assign (d.tr m) (e.tr m)
  | .call d => .call (d.tr m)
  | .callArgs d args => .callArgs (d.tr m) (args.tr m)
  | .inherited => .inherited
  | .goto l r => .goto (m.id l) (r.map (m.decl l))
  | .compound l => .compound l.tr
  | .ifThen c s => .ifThen (c.tr m) s.tr
  | .ifElse c s1 s2 => .ifElse (c.tr m) s1.tr s2.tr
  | .case e sels els => .case (e.tr m) sels.tr els.tr
  | .repeat l c => .repeat l.tr (c.tr m)
  | .while c s => .while (c.tr m) s.tr
  | .for q down lo hi s => .for (q.tr m) down (lo.tr m) (hi.tr m) s.tr
  | .with qs s => .with (qs.tr m) s.tr
  | .tryExcept l b => .tryExcept l.tr b.tr
  | .tryFinally l1 l2 => .tryFinally l1.tr l2.tr
  | .raise obj addr => .raise (obj.map (·.tr m)) (addr.map (·.tr m))
  | .asm => .asm
def Stmts.tr : Stmts δ τ → Stmts ε υ
  | .one s => .one s.tr
  | .cons s rest => .cons s.tr rest.tr
def OptStmts.tr : OptStmts δ τ → OptStmts ε υ
  | .none => .none
  | .some l => .some l.tr
def Sels.tr : Sels δ τ → Sels ε υ
  | .one ls s => .one (ls.tr m) s.tr
  | .cons ls s rest => .cons (ls.tr m) s.tr rest.tr
def ExcBlock.tr : ExcBlock δ τ → ExcBlock ε υ
  | .plain l => .plain l.tr
  | .handlers hs els => .handlers hs.tr els.tr
def Handlers.tr : Handlers δ τ → Handlers ε υ
  | .one h => .one h.tr
  | .cons h rest => .cons h.tr rest.tr
def Handler.tr : Handler δ τ → Handler ε υ
  | .mk i t s => .mk (i.map m.id) (f t) s.tr
end
end

def TRef.tr (i : Ident) : TRef δ → TRef ε
  | .none => .none
  | .now d => .now (m.decl i d)
  | .later n => .later (m.ref n)

def TypeId.tr (t : TypeId δ) : TypeId ε := ⟨t.unit.map m.id, m.id t.ident, t.ref.tr m t.ident⟩

def EnumElem.tr (e : EnumElem δ) : EnumElem ε := ⟨m.id e.ident, e.expr.map (·.tr m)⟩

def Stored.tr : Stored δ → Stored ε
  | .const b => .const b
  | .ref r => .ref (r.tr m)

def PropDefault.tr : PropDefault δ → PropDefault ε
  | .value e => .value (e.tr m)
  | .noDefault => .noDefault

mutual
def PType.tr : PType δ → PType ε
  | .nil => .nil
  | .id t => .id (t.tr m)
  | .enum es => .enum (es.map (·.tr m))
  | .subrange lo hi => .subrange (lo.tr m) (hi.tr m)
  | .pointer t => .pointer (t.tr m)
  | .fixedString i len => .fixedString (m.id i) (len.tr m)
  | .array packed index base => .array packed index.tr base.tr
  | .set packed elem => .set packed elem.tr
  | .file packed t => .file packed (t.tr m)
  | .record packed fl => .record packed fl.tr
  | .proc fn ps ret o => .proc fn ps.tr (ret.map (·.tr m)) o
  | .forward => .forward
  | .classRef t => .classRef (t.tr m)
  | .cls h ms => .cls (h.map (·.tr m)) ms.tr
def OptPTypes.tr : OptPTypes δ → OptPTypes ε
  | .none => .none
  | .some ts => .some ts.tr
def PTypes.tr : PTypes δ → PTypes ε
  | .one t => .one t.tr
  | .cons t rest => .cons t.tr rest.tr
def FieldList.tr : FieldList δ → FieldList ε
  | .mk fs v => .mk fs.tr v.tr
def Fields.tr : Fields δ → Fields ε
  | .nil => .nil
  | .cons is t rest => .cons (is.map m.id) t.tr rest.tr
def OptVariant.tr : OptVariant δ → OptVariant ε
  | .none => .none
  | .some i t vs => .some (i.map m.id) t.tr vs.tr
def Variants.tr : Variants δ → Variants ε
  | .nil => .nil
  | .cons es fl rest => .cons (es.tr m) fl.tr rest.tr
def OptParams.tr : OptParams δ → OptParams ε
  | .none => .none
  | .some ps => .some ps.tr
def Params.tr : Params δ → Params ε
  | .one opt is t dflt => .one opt (is.map m.id) t.tr (dflt.map (·.tr m))
  | .cons opt is t dflt rest => .cons opt (is.map m.id) t.tr (dflt.map (·.tr m)) rest.tr
def ParamTy.tr : ParamTy δ → ParamTy ε
  | .none => .none
  | .some a t => .some a t.tr
def Sects.tr : Sects δ → Sects ε
  | .nil => .nil
  | .cons v fs ms ps rest => .cons v fs.tr ms.tr ps.tr rest.tr
def Methods.tr : Methods δ → Methods ε
  | .nil => .nil
  | .cons h ds rest => .cons h.tr (ds.map m.str) rest.tr
def Heading.tr : Heading δ → Heading ε
  | .func fn i ps ret => .func fn (m.id i) ps.tr (ret.map (·.tr m))
  | .ctor i ps => .ctor (m.id i) ps.tr
  | .dtor i => .dtor (m.id i)
def Props.tr : Props δ → Props ε
  | .nil => .nil
  | .cons p rest => .cons p.tr rest.tr
def ClassProp.tr : ClassProp δ → ClassProp ε
  | .mk i intf ix rd wr st df impl parent =>
    .mk (m.id i) intf.tr (ix.map (·.tr m)) (rd.map (·.tr m)) (wr.map (·.tr m)) (st.map (·.tr m)) (df.map (·.tr m))
      (impl.map (·.tr m)) (parent.map (m.decl i))
def OptIntf.tr : OptIntf δ → OptIntf ε
  | .none => .none
  | .some ps t => .some ps.tr (t.tr m)
end

def DKind.tr : DKind δ → DKind ε
  | .enumElem => .enumElem
  | .const => .const
  | .var => .var
  | .threadVar => .threadVar
  | .param => .param
  | .type t => .type (t.tr m)
  | .label => .label
  | .func => .func
  | .heading => .heading
  | .handler => .handler

def ConstDecl.tr (d : ConstDecl δ) : ConstDecl ε := ⟨m.id d.ident, d.type.map (·.tr m), d.expr.tr m⟩
def TypeDecl.tr (d : TypeDecl δ) : TypeDecl ε := ⟨m.id d.ident, d.type.tr m, d.portability.map m.str⟩
def VarDecl.tr (d : VarDecl δ) : VarDecl ε :=
  ⟨d.idents.map m.id, d.type.tr m, d.absolute.map m.id, d.expr.map (·.tr m)⟩
def ThreadVarDecl.tr (d : ThreadVarDecl δ) : ThreadVarDecl ε := ⟨d.idents.map m.id, d.type.tr m⟩
def ExportsItem.tr (d : ExportsItem δ) : ExportsItem ε := ⟨m.id d.ident, d.name.map (·.tr m), d.index.map (·.tr m)⟩
def ExternalOptions.tr (f : Str → Str) (o : ExternalOptions) : ExternalOptions := ⟨f o.library, o.name.map f, o.index⟩
def RoutineOpts.tr (f : Str → Str) (o : RoutineOpts) : RoutineOpts := ⟨o.directives.map f, o.ext.map (·.tr f)⟩

mutual
def Block.tr : Block δ → Block ε
  | .mk ds ex b => .mk ds.tr (ex.map fun is => is.map (·.tr m)) (b.map fun b => b.tr m (·.tr m))
def DeclSects.tr : DeclSects δ → DeclSects ε
  | .nil => .nil
  | .cons s rest => .cons s.tr rest.tr
def DeclSect.tr : DeclSect δ → DeclSect ε
  | .label i => .label (m.id i)
  | .const ds => .const (ds.map (·.tr m))
  | .type ds => .type (ds.map (·.tr m))
  | .var ds => .var (ds.map (·.tr m))
  | .threadVar ds => .threadVar (ds.map (·.tr m))
  | .func h o b => .func (h.tr m) (o.tr m.str) b.tr
end

end TP
