import Verif.Spec.Declared
import Verif.Spec.Refs

/-!
# References to earlier declarations

`T` are the types of all `TypeDecl`s by number, `L` is what is declared before.
-/

namespace TP.Spec

local notation "DL" => List (Dcl (Decl Node))
local notation "RL" => Refs (Decl Node)

/-- the references lead to one of these declarations (or to an embedded type, or to a member of a class) -/
def toward (T : List (PType (Decl Node))) (L : DL) (R : RL) : Prop := ∀ r ∈ R, Leads (· ∈ L) T r.2

/-- a constant may refer to itself -/
def ordConsts (T : List (PType (Decl Node))) : DL → List (ConstDecl (Decl Node)) → Prop
  | _, [] => True
  | L, d :: ds => toward T (dclConst d ++ L) d.refs ∧ ordConsts T (dclConst d ++ L) ds

/-- a type refers to the elements of its own enumerations, its parameters, and what is declared before -/
def ordTypes (T : List (PType (Decl Node))) : DL → List (TypeDecl (Decl Node)) → Prop
  | _, [] => True
  | L, d :: ds => toward T (dclType d.type ++ L) d.refs ∧ ordTypes T (dclTypeDecl d ++ L) ds

/-- the type and the value of a variable do not refer to the variable -/
def ordVars (T : List (PType (Decl Node))) : DL → List (VarDecl (Decl Node)) → Prop
  | _, [] => True
  | L, d :: ds => toward T (dclType d.type ++ L) d.refs ∧ ordVars T (dclVar d ++ L) ds

def ordThreadVars (T : List (PType (Decl Node))) : DL → List (ThreadVarDecl (Decl Node)) → Prop
  | _, [] => True
  | L, d :: ds => toward T (dclType d.type ++ L) d.refs ∧ ordThreadVars T (dclThreadVar d ++ L) ds

mutual
/-- the sections in turn, then the exports and the statements -/
def ordBlock (T : List (PType (Decl Node))) (L : DL) : Block (Decl Node) → Prop
  | .mk ds ex b => ordSections T L ds ∧
    toward T (b.toList.flatMap dclBody ++ (dclSections ds ++ L)) (ex.flatMap fun is => is.flatMap ExportsItem.refs) ∧
    toward T (b.toList.flatMap dclBody ++ (dclSections ds ++ L)) (b.toList.flatMap (Body.refs PType.refs))
def ordSections (T : List (PType (Decl Node))) (L : DL) : DeclSects (Decl Node) → Prop
  | .nil => True
  | .cons s rest => ordSection T L s ∧ ordSections T (dclSection s ++ L) rest
/-- the heading of a routine does not refer to the routine, its block may -/
def ordSection (T : List (PType (Decl Node))) (L : DL) : DeclSect (Decl Node) → Prop
  | .label _ => True
  | .const ds => ordConsts T L ds
  | .type ds => ordTypes T L ds
  | .var ds => ordVars T L ds
  | .threadVar ds => ordThreadVars T L ds
  | .func h _ b => toward T (dclHeading h ++ L) h.refs ∧ ordBlock T (.named .func h.ident :: (dclHeading h ++ L)) b
end

/-- the declarations of an interface in turn -/
def ordIntf (T : List (PType (Decl Node))) : DL → List (IntfDecl (Decl Node)) → Prop
  | _, [] => True
  | L, d :: ds => (match d with
    | .const cs => ordConsts T L cs
    | .type _ ts => ordTypes T L ts
    | .var vs => ordVars T L vs
    | .threadVar vs => ordThreadVars T L vs
    | .heading h _ => toward T (dclHeading h ++ L) h.refs) ∧ ordIntf T (dclIntf d ++ L) ds

/-- initialization and finalization -/
def ordInit (T : List (PType (Decl Node))) (L : DL) (s : InitSection (Decl Node)) : Prop :=
  toward T (dclStmts s.initialization ++ L) (s.initialization.refs PType.refs) ∧
  toward T (dclInit s ++ L) (s.finalization.toList.flatMap (Stmts.refs PType.refs))

/-- the implementation of a unit, the exports, initialization and finalization -/
def ordUnitBody (T : List (PType (Decl Node))) (L : DL) (b : UnitBody (Decl Node)) : Prop :=
  ordSections T L b.decls ∧ toward T (dclSections b.decls ++ L) (b.exports.flatMap fun is => is.flatMap ExportsItem.refs) ∧
  ∀ i ∈ b.init, ordInit T (dclSections b.decls ++ L) i

/-- a unit -/
def ordUnit (T : List (PType (Decl Node))) (L : DL) (t : UnitTree (Decl Node)) : Prop :=
  ordIntf T (dclUses t.intfUses ++ L) t.intf ∧
  ordUnitBody T (dclUses t.implUses ++ (t.intf.flatMap dclIntf ++ (dclUses t.intfUses ++ L))) t.body

/-- what the interface of a unit declares -/
def dclPublic (t : UnitTree (Decl Node)) : DL := .unit t.head.ident.name t.head.no :: dclUses t.intfUses ++ t.intf.flatMap dclIntf

/-- what is declared before the units -/
def dclStart (t : ProgramTree (Decl Node)) : DL := dclUses t.uses ++ [.program t.ident.name]

/-- A program.  The interface of a unit refers to its own earlier declarations and to the interfaces of other units, its
implementation to its interface, its own earlier declarations and to other units, and the block of the program in the same way. -/
def ordProgram (T : List (PType (Decl Node))) (t : ProgramTree (Decl Node)) : Prop :=
  (∀ i m, t.units[i]? = some m →
    ordIntf T (.unit m.head.ident.name m.head.no :: dclUses m.intfUses ++ ((t.units.eraseIdx i).flatMap dclPublic ++ dclStart t)) m.intf ∧
    ordUnitBody T (dclUses m.implUses ++ (dclPublic m ++ ((t.units.eraseIdx i).flatMap dclUnit ++ dclStart t))) m.body) ∧
  ordBlock T (t.units.flatMap dclUnit ++ dclStart t) t.block

end TP.Spec
