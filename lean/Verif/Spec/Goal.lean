import Verif.Model.Goal
import Verif.Spec.Decl

/-!
# What the tree of a unit or of a program says about the tokens

Relations in the style of `Verif/Spec/Decl.lean`: `g t x y` holds if the tokens `x` begin with the text of `t` and
continue with `y`.
-/

namespace TP.Spec

variable (u : Uni)

/-- `Ident [IN String]` -/
def gUsesEntry (e : UsesEntry) : Rd :=
  tk u (.ident e.ident) ▹ (match e.path with
    | none => eps
    | some p => kwR u r!"IN" ▹ gStr u p)
/-- `UsesClauseItem ','... ';'` -/
def gUsesEntries : List UsesEntry → Rd
  | [] => fun _ _ => False
  | e :: rest => gUsesEntry u e ▹ (given (rest = []) (symR u r!";") ∣∣ symR u r!"," ▹ gUsesEntries rest)
/-- `[USES UsesClauseItem ','... ';']` -/
def gOptUses : List UsesEntry → Rd
  | [] => eps
  | es => kwR u r!"USES" ▹ gUsesEntries u es

/-- `[PortabilityDirective]` -/
def gOptPort : Option Str → Rd
  | none => eps
  | some p => tkP (fun t => IsWordOf u portabilityNames t ∧ p = t.value u)
/-- `UNIT Ident [PortabilityDirective]` -/
def gUnitName (h : UnitHead) : Rd := kwR u r!"UNIT" ▹ tk u (.ident h.ident) ▹ gOptPort u h.portability

def gIntfDecl : IntfDecl (Decl Node) → Rd
  | .const ds => kwR u r!"CONST" ▹ gConstDecls u ds
  | .type _ ds => kwR u r!"TYPE" ▹ gTypeDecls u ds
  | .var ds => kwR u r!"VAR" ▹ gVarDecls u ds
  | .threadVar ds => kwR u r!"THREADVAR" ▹ gThreadVarDecls u ds
  | .heading h o => gHeading u h ▹ symR u r!";" ▹ gRoutineOpts u o
def gIntfDecls : List (IntfDecl (Decl Node)) → Rd
  | [] => eps
  | d :: rest => gIntfDecl u d ▹ gIntfDecls rest

/-- `Statement ';'...` -/
def gStmts (l : Stmts (Decl Node) (PType (Decl Node))) : Rd := fun x y => ∃ used k k', x = used ++ y ∧
  DStmts u ((declEnv u).senv u) False (fun _ ty used _ => typeTokens u ty used) k l used k'
/-- `INITIALIZATION StatementList [FINALIZATION StatementList]` -/
def gInitSection (i : InitSection (Decl Node)) : Rd :=
  kwR u r!"INITIALIZATION" ▹ gStmts u i.initialization ▹ (match i.finalization with
    | none => eps
    | some l => kwR u r!"FINALIZATION" ▹ gStmts u l)
/-- `[DeclSections] [ExportsStmts] [';'] [InitSection] END '.'`, in front of the period -/
def gUnitBody (b : UnitBody (Decl Node)) : Rd :=
  gDeclSects u ((declEnv u).senv u) b.decls ▹ gExports u b.exports ▹ optSemiR u ▹ (match b.init with
    | none => eps
    | some i => gInitSection u i) ▹ kwR u r!"END" ▹ look (IsSym r!".")

/-- the unit, in front of its period -/
def gUnit (t : UnitTree (Decl Node)) : Rd :=
  gUnitName u t.head ▹ symR u r!";" ▹ kwR u r!"INTERFACE" ▹ gOptUses u t.intfUses ▹ gIntfDecls u t.intf ▹
    kwR u r!"IMPLEMENTATION" ▹ gOptUses u t.implUses ▹ gUnitBody u t.body

/-- the unit as part of a program: the semicolon behind its name may be missing -/
def gUsedUnit (t : UnitTree (Decl Node)) : Rd :=
  gUnitName u t.head ▹ optSemiR u ▹ kwR u r!"INTERFACE" ▹ gOptUses u t.intfUses ▹ gIntfDecls u t.intf ▹
    kwR u r!"IMPLEMENTATION" ▹ gOptUses u t.implUses ▹ gUnitBody u t.body

/-- the program, in front of its period -/
def gProgram (t : ProgramTree (Decl Node)) : Rd :=
  kwR u r!"PROGRAM" ▹ tk u (.ident t.ident) ▹ symR u r!";" ▹ gOptUses u t.uses ▹
    gBlock u ((declEnv u).senv u) t.block ▹ look (IsSym r!".")

/-! ## Sets of units -/

/-- No two of the units have the same name. -/
def DistinctUnits (us : List UnitHead) : Prop := (us.map fun h => u.toLower h.ident.name).Nodup

/-- The unit with the name `a` names the unit with the name `b` in the uses clause of its interface (names in lower
case). -/
def UsesName (us : List (UnitHead × List UsesEntry)) (a b : Str) : Prop :=
  ∃ p ∈ us, ∃ q ∈ us, ∃ e ∈ p.2, u.toLower p.1.ident.name = a ∧ u.toLower e.ident.name = b ∧ u.toLower q.1.ident.name = b

end TP.Spec
