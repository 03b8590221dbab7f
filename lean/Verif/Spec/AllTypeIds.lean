import Verif.Spec.TypeIds
import Verif.Spec.Refs

/-!
# The type identifiers of a program

All `TypeId` nodes of a program with its units, except the operands of `CLASS OF`; and the references of a tree in a context,
which are those that the parser has set when it met the identifier and those that it has set at the end of a type section.
-/

namespace TP.Spec

variable {δ τ : Type}

section
variable (f : τ → List (TypeId δ))

mutual
def idsStmt : Stmt δ τ → List (TypeId δ)
  | .mk _ b => idsBody b
def idsBody : Body δ τ → List (TypeId δ)
  | .assign _ _ => []
  | .call _ => []
  | .callArgs _ _ => []
  | .inherited => []
  | .goto _ _ => []
  | .compound l => idsStmts l
  | .ifThen _ s => idsStmt s
  | .ifElse _ s1 s2 => idsStmt s1 ++ idsStmt s2
  | .case _ sels els => idsSels sels ++ idsOptStmts els
  | .repeat l _ => idsStmts l
  | .while _ s => idsStmt s
  | .for _ _ _ _ s => idsStmt s
  | .with _ s => idsStmt s
  | .tryExcept l b => idsStmts l ++ idsExcBlock b
  | .tryFinally l1 l2 => idsStmts l1 ++ idsStmts l2
  | .raise _ _ => []
  | .asm => []
def idsStmts : Stmts δ τ → List (TypeId δ)
  | .one s => idsStmt s
  | .cons s rest => idsStmt s ++ idsStmts rest
def idsOptStmts : OptStmts δ τ → List (TypeId δ)
  | .none => []
  | .some l => idsStmts l
def idsSels : Sels δ τ → List (TypeId δ)
  | .one _ s => idsStmt s
  | .cons _ s rest => idsStmt s ++ idsSels rest
def idsExcBlock : ExcBlock δ τ → List (TypeId δ)
  | .plain l => idsStmts l
  | .handlers hs els => idsHandlers hs ++ idsOptStmts els
def idsHandlers : Handlers δ τ → List (TypeId δ)
  | .one h => idsHandler h
  | .cons h rest => idsHandler h ++ idsHandlers rest
def idsHandler : Handler δ τ → List (TypeId δ)
  | .mk _ t s => f t ++ idsStmt s
end
end

def idsConsts (ds : List (ConstDecl δ)) : List (TypeId δ) := ds.flatMap fun d => d.type.toList.flatMap idsType
def idsVars (ds : List (VarDecl δ)) : List (TypeId δ) := ds.flatMap fun d => idsType d.type
def idsThreadVars (ds : List (ThreadVarDecl δ)) : List (TypeId δ) := ds.flatMap fun d => idsType d.type

mutual
def idsBlock : Block δ → List (TypeId δ)
  | .mk ds _ b => idsSections ds ++ b.toList.flatMap (idsBody idsType)
def idsSections : DeclSects δ → List (TypeId δ)
  | .nil => []
  | .cons s rest => idsSection s ++ idsSections rest
def idsSection : DeclSect δ → List (TypeId δ)
  | .label _ => []
  | .const ds => idsConsts ds
  | .type ds => idsDecls ds
  | .var ds => idsVars ds
  | .threadVar ds => idsThreadVars ds
  | .func h _ b => idsHeading h ++ idsBlock b
end

def idsIntf : IntfDecl δ → List (TypeId δ)
  | .const ds => idsConsts ds
  | .type _ ds => idsDecls ds
  | .var ds => idsVars ds
  | .threadVar ds => idsThreadVars ds
  | .heading h _ => idsHeading h

def idsInit (s : InitSection δ) : List (TypeId δ) :=
  idsStmts idsType s.initialization ++ s.finalization.toList.flatMap (idsStmts idsType)

def idsUnitBody (b : UnitBody δ) : List (TypeId δ) := idsSections b.decls ++ b.init.toList.flatMap idsInit

def idsUnit (t : UnitTree δ) : List (TypeId δ) := t.intf.flatMap idsIntf ++ idsUnitBody t.body

def idsProgram (t : ProgramTree δ) : List (TypeId δ) := t.units.flatMap idsUnit ++ idsBlock t.block

/-- the references that were set at the end of a type section, in the context `k` -/
def laterRefs (k : DS) (ts : List (TypeId (Decl Node))) : Refs (Decl Node) :=
  ts.flatMap fun t => match t.ref with
    | .later _ => (k.ref t.ref).toList.map fun d => (t.ident, d)
    | _ => []

end TP.Spec
