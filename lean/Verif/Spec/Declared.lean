import Verif.Model.Goal

/-!
# The declarations of a tree

What a tree declares: the elements of enumerations, parameters, labels, constants, variables, thread variables, routines,
variables of exception handlers, types, items of uses clauses, units and the program.
-/

namespace TP.Spec

/-- what a node of a tree declares -/
inductive Dcl (δ : Type)
  /-- a node of this kind declares this identifier -/
  | named (t : Tag) (i : Ident)
  /-- a `TypeDecl` of this name and type -/
  | type (name : Str) (ty : PType δ)
  /-- the item of a uses clause with this name and number -/
  | uses (name : Str) (no : Nat)
  /-- the unit with this name and number -/
  | unit (name : Str) (no : Nat)
  /-- the program of this name -/
  | program (name : Str)

variable {δ : Type}

mutual
def dclType : PType δ → List (Dcl δ)
  | .nil => []
  | .id _ => []
  | .enum es => es.map fun e => .named .enumElem e.ident
  | .subrange _ _ => []
  | .pointer _ => []
  | .fixedString _ _ => []
  | .array _ ix base => dclOptTypes ix ++ dclType base
  | .set _ elem => dclType elem
  | .file _ _ => []
  | .record _ fl => dclFieldList fl
  | .proc _ ps _ _ => dclOptParams ps
  | .forward => []
  | .classRef _ => []
  | .cls _ ms => dclSects ms
def dclOptTypes : OptPTypes δ → List (Dcl δ)
  | .none => []
  | .some ts => dclTypes ts
def dclTypes : PTypes δ → List (Dcl δ)
  | .one t => dclType t
  | .cons t rest => dclType t ++ dclTypes rest
def dclFieldList : FieldList δ → List (Dcl δ)
  | .mk fs v => dclFields fs ++ dclOptVariant v
def dclFields : Fields δ → List (Dcl δ)
  | .nil => []
  | .cons _ t rest => dclType t ++ dclFields rest
def dclOptVariant : OptVariant δ → List (Dcl δ)
  | .none => []
  | .some _ t vs => dclType t ++ dclVariants vs
def dclVariants : Variants δ → List (Dcl δ)
  | .nil => []
  | .cons _ fl rest => dclFieldList fl ++ dclVariants rest
def dclOptParams : OptParams δ → List (Dcl δ)
  | .none => []
  | .some ps => dclParams ps
def dclParams : Params δ → List (Dcl δ)
  | .one _ is t _ => is.map (.named .param) ++ dclParamTy t
  | .cons _ is t _ rest => is.map (.named .param) ++ dclParamTy t ++ dclParams rest
def dclParamTy : ParamTy δ → List (Dcl δ)
  | .none => []
  | .some _ t => dclType t
def dclSects : Sects δ → List (Dcl δ)
  | .nil => []
  | .cons _ fs ms ps rest => dclFields fs ++ dclMethods ms ++ dclProps ps ++ dclSects rest
def dclMethods : Methods δ → List (Dcl δ)
  | .nil => []
  | .cons h _ rest => dclHeading h ++ dclMethods rest
def dclHeading : Heading δ → List (Dcl δ)
  | .func _ _ ps _ => dclOptParams ps
  | .ctor _ ps => dclOptParams ps
  | .dtor _ => []
def dclProps : Props δ → List (Dcl δ)
  | .nil => []
  | .cons p rest => dclProp p ++ dclProps rest
def dclProp : ClassProp δ → List (Dcl δ)
  | .mk _ intf _ _ _ _ _ _ _ => dclOptIntf intf
def dclOptIntf : OptIntf δ → List (Dcl δ)
  | .none => []
  | .some ps _ => dclOptParams ps
end

mutual
def dclStmt : Stmt δ (PType δ) → List (Dcl δ)
  | .mk _ b => dclBody b
def dclBody : Body δ (PType δ) → List (Dcl δ)
  | .assign _ _ => []
  | .call _ => []
  | .callArgs _ _ => []
  | .inherited => []
  | .goto _ _ => []
  | .compound l => dclStmts l
  | .ifThen _ s => dclStmt s
  | .ifElse _ s1 s2 => dclStmt s1 ++ dclStmt s2
  | .case _ sels els => dclSels sels ++ dclOptStmts els
  | .repeat l _ => dclStmts l
  | .while _ s => dclStmt s
  | .for _ _ _ _ s => dclStmt s
  | .with _ s => dclStmt s
  | .tryExcept l b => dclStmts l ++ dclExcBlock b
  | .tryFinally l1 l2 => dclStmts l1 ++ dclStmts l2
  | .raise _ _ => []
  | .asm => []
def dclStmts : Stmts δ (PType δ) → List (Dcl δ)
  | .one s => dclStmt s
  | .cons s rest => dclStmt s ++ dclStmts rest
def dclOptStmts : OptStmts δ (PType δ) → List (Dcl δ)
  | .none => []
  | .some l => dclStmts l
def dclSels : Sels δ (PType δ) → List (Dcl δ)
  | .one _ s => dclStmt s
  | .cons _ s rest => dclStmt s ++ dclSels rest
def dclExcBlock : ExcBlock δ (PType δ) → List (Dcl δ)
  | .plain l => dclStmts l
  | .handlers hs els => dclHandlers hs ++ dclOptStmts els
def dclHandlers : Handlers δ (PType δ) → List (Dcl δ)
  | .one h => dclHandler h
  | .cons h rest => dclHandler h ++ dclHandlers rest
def dclHandler : Handler δ (PType δ) → List (Dcl δ)
  | .mk i t s => i.toList.map (.named .handler) ++ dclType t ++ dclStmt s
end

def dclConst (d : ConstDecl δ) : List (Dcl δ) := .named .const d.ident :: d.type.toList.flatMap dclType
def dclVar (d : VarDecl δ) : List (Dcl δ) := d.idents.map (.named .var) ++ dclType d.type
def dclThreadVar (d : ThreadVarDecl δ) : List (Dcl δ) := d.idents.map (.named .threadVar) ++ dclType d.type
def dclTypeDecl (d : TypeDecl δ) : List (Dcl δ) := .type d.ident.name d.type :: dclType d.type

mutual
def dclBlock : Block δ → List (Dcl δ)
  | .mk ds _ b => dclSections ds ++ b.toList.flatMap dclBody
def dclSections : DeclSects δ → List (Dcl δ)
  | .nil => []
  | .cons s rest => dclSection s ++ dclSections rest
def dclSection : DeclSect δ → List (Dcl δ)
  | .label i => [.named .label i]
  | .const ds => ds.flatMap dclConst
  | .type ds => ds.flatMap dclTypeDecl
  | .var ds => ds.flatMap dclVar
  | .threadVar ds => ds.flatMap dclThreadVar
  | .func h _ b => .named .func h.ident :: dclHeading h ++ dclBlock b
end

def dclIntf : IntfDecl δ → List (Dcl δ)
  | .const ds => ds.flatMap dclConst
  | .type _ ds => ds.flatMap dclTypeDecl
  | .var ds => ds.flatMap dclVar
  | .threadVar ds => ds.flatMap dclThreadVar
  | .heading h _ => .named .heading h.ident :: dclHeading h

def dclInit (s : InitSection δ) : List (Dcl δ) := dclStmts s.initialization ++ s.finalization.toList.flatMap dclStmts

def dclUses (es : List UsesEntry) : List (Dcl δ) := es.map fun e => .uses e.ident.name e.no

def dclUnitBody (b : UnitBody δ) : List (Dcl δ) := dclSections b.decls ++ b.init.toList.flatMap dclInit

def dclUnit (t : UnitTree δ) : List (Dcl δ) :=
  .unit t.head.ident.name t.head.no :: dclUses t.intfUses ++ t.intf.flatMap dclIntf ++ dclUses t.implUses ++ dclUnitBody t.body

def dclProgram (t : ProgramTree δ) : List (Dcl δ) :=
  .program t.ident.name :: dclUses t.uses ++ t.units.flatMap dclUnit ++ dclBlock t.block

/-- The declaration is that of an embedded type, of a member of a class, or one of `S`; `T` are the types of all `TypeDecl`s
by number. -/
def Leads (S : Dcl (Decl Node) → Prop) (T : List (PType (Decl Node))) (d : Decl Node) : Prop :=
  match d.node with
  | .embedded k name => d.name = name ∧ (k, name) ∈ embeddedTypes
  | .type j => ∃ ty, T[j]? = some ty ∧ S (.type d.name ty)
  | .uses j => S (.uses d.name j)
  | .unit j => S (.unit d.name j)
  | .program => S (.program d.name)
  | .prop i _ _ _ _ => d.name = i.name
  | .decl t i => t = .field ∨ t = .method ∨ d.name = i.name ∧ S (.named t i)

end TP.Spec
