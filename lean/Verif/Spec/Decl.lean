import Verif.Model.Decls
import Verif.Spec.Type

/-!
# What declarations and blocks stand for

The grammar of the comments in `ast/const.go`, `ast/var.go`, `ast/type.go`, `ast/function.go`, `ast/block.go`, as far as the
parser follows it.  Deviations: `LABEL` declares one label; `type` after `=` is not in the tree; a type declaration that does
not end with a semicolon loses one token; the second list of `EXPORTS` statements replaces the first.
-/

namespace TP.Spec
open TP

/-- the tokens of a type; what comes next may belong to it -/
def typeTokens {δ : Type} (u : Uni) (ty : PType δ) (used : List Token) : Prop := ∃ y, gType u ty (used ++ y) y

variable {κ δ : Type} (u : Uni)

/-- the token is one of these words -/
def IsWordOf (names : List Str) (t : Token) : Prop := u.toUpper t.raw ∈ names
def wordOf (names : List Str) : Rd := tkP (IsWordOf u names)
/-- the next token, if there is one, is a reserved word or the end -/
def endsSection : Rd := fun x y => x = y ∧ ∀ t, x.head? = some t → t.typ = .reserved ∨ t.typ = .eof
/-- `[':' Type]` -/
def gOptType : Option (PType δ) → Rd
  | none => eps
  | some t => symR u r!":" ▹ gType u t
/-- `['=' ConstExpr]` -/
def gInit : Option (Expr δ) → Rd
  | none => eps
  | some e => symR u r!"=" ▹ gExpr u e

/-- `Ident [':' Type] '=' ConstExpr` -/
def gConstDecl (d : ConstDecl δ) : Rd :=
  tkP (fun t => (Leaf.at d.ident).Is u t ∧ (t.typ = .ident ∨ IsWordOf u directiveNames t)) ▹ gOptType u d.type ▹
    symR u r!"=" ▹ gExpr u d.expr
/-- `(ConstantDecl ';')...` -/
def gConstDecls : List (ConstDecl δ) → Rd
  | [] => fun _ _ => False
  | d :: rest => gConstDecl u d ▹ symR u r!";" ▹ (given (rest = []) endsSection ∣∣ gConstDecls rest)

/-- `[ABSOLUTE Ident]` -/
def gAbsolute : Option Ident → Rd
  | none => eps
  | some i => tk u (.upper r!"ABSOLUTE") ▹ tk u (.ident i)
/-- `IdentList ':' Type [ABSOLUTE Ident] ['=' ConstExpr]` -/
def gVarDecl (d : VarDecl δ) : Rd :=
  gIdents u d.idents ▹ symR u r!":" ▹ gType u d.type ▹ gAbsolute u d.absolute ▹ gInit u d.expr
def gVarDecls : List (VarDecl δ) → Rd
  | [] => fun _ _ => False
  | d :: rest => gVarDecl u d ▹ (given (rest = []) endsSection ∣∣
      symR u r!";" ▹ (given (rest = []) endsSection ∣∣ gVarDecls rest))
/-- `IdentList ':' Type` -/
def gThreadVarDecl (d : ThreadVarDecl δ) : Rd := gIdents u d.idents ▹ symR u r!":" ▹ gType u d.type
def gThreadVarDecls : List (ThreadVarDecl δ) → Rd
  | [] => fun _ _ => False
  | d :: rest => gThreadVarDecl u d ▹ symR u r!";" ▹ (given (rest = []) endsSection ∣∣ gThreadVarDecls rest)

/-- one token that is not a semicolon is lost -/
def lost : Rd := fun x y => y = x.tail ∧ ∀ t, x.head? = some t → ¬ IsSym r!";" t
/-- `[PortabilityDirective]`, after a lost token -/
def gTypeEnd : Option Str → Rd
  | none => look (IsSym r!";") ∣∣ lost
  | some p => lost ▹ tkP (fun t => IsWordOf u portabilityNames t ∧ p = t.value u)
/-- `Ident '=' [TYPE] Type [PortabilityDirective]` -/
def gTypeDecl (d : TypeDecl δ) : Rd :=
  tk u (.ident d.ident) ▹ symR u r!"=" ▹ (kwR u r!"TYPE" ∣∣ eps) ▹ gType u d.type ▹ gTypeEnd u d.portability
def gTypeDecls : List (TypeDecl δ) → Rd
  | [] => fun _ _ => False
  | d :: rest => gTypeDecl u d ▹ (given (rest = []) endsSection ∣∣
      symR u r!";" ▹ (given (rest = []) endsSection ∣∣ gTypeDecls rest))

/-- `Ident [NAME ConstExpr | INDEX ConstExpr]` -/
def gExportsItem (i : ExportsItem δ) : Rd :=
  tk u (.ident i.ident) ▹ (match i.name, i.index with
    | none, none => eps
    | some e, none => wordOf u [r!"NAME"] ▹ gExpr u e
    | none, some e => wordOf u [r!"INDEX"] ▹ gExpr u e
    | some _, some _ => fun _ _ => False)
/-- `ExportsItem ','... ';'` -/
def gExportsItems : List (ExportsItem δ) → Rd
  | [] => fun _ _ => False
  | i :: rest => gExportsItem u i ▹ (given (rest = []) (symR u r!";") ∣∣ symR u r!"," ▹ gExportsItems rest)
/-- `(EXPORTS ExportsItem ','... ';')...` -/
def gExports : List (List (ExportsItem δ)) → Rd
  | [] => eps
  | is :: rest => kwR u r!"EXPORTS" ▹ gExportsItems u is ▹ gExports rest

def gStr (v : Str) : Rd := tk u (.str v)
/-- `EXTERNAL [String [NAME String]]` -/
def gExternal : Option ExternalOptions → Rd
  | none => wordOf u [r!"EXTERNAL"] ▹ look (IsSym r!";")
  | some ⟨lib, none, none⟩ => wordOf u [r!"EXTERNAL"] ▹ gStr u lib ▹ look (IsSym r!";")
  | some ⟨lib, some nm, none⟩ => wordOf u [r!"EXTERNAL"] ▹ gStr u lib ▹ wordOf u [r!"NAME"] ▹ gStr u nm
  | some ⟨lib, none, some i⟩ => wordOf u [r!"EXTERNAL"] ▹ gStr u lib ▹ wordOf u [r!"INDEX"] ▹
      tkP (fun t => t.typ = .charString ∧ parseInt64 t.raw = some i)
  | some ⟨_, some _, some _⟩ => fun _ _ => False
/-- `(Directive ';')...`; `e` are the options so far, `e'` those in the end: the last `EXTERNAL` counts -/
def gRoutineDirs : List Str → Option ExternalOptions → Option ExternalOptions → Rd
  | [], e, e' => given (e = e') eps
  | d :: ds, e, e' => fun x y => ∃ e1, (((given (d = r!"EXTERNAL") (gExternal u e1)) ∣∣
      given (d ≠ r!"EXTERNAL" ∧ e1 = e) (tkP fun t => IsWordOf u directiveNames t ∧ u.toUpper (t.value u) = d)) ▹
      symR u r!";" ▹ gRoutineDirs ds e1 e') x y
def gRoutineOpts (o : RoutineOpts) : Rd := gRoutineDirs u o.directives none o.ext

section
variable (S : SEnv κ δ (PType δ))
/-- a compound statement or an assembler block -/
def gBody (b : Body δ (PType δ)) : Rd := fun x y => ∃ used k k', x = used ++ y ∧
  DBody u S False (fun _ ty used _ => typeTokens u ty used) k b used k'
def gOptBody : Option (Body δ (PType δ)) → Rd
  | none => eps
  | some b => gBody u S b
/-- the exports in front of the body and those after it -/
def gExportsBody (ex : List (List (ExportsItem δ))) (b : Option (Body δ (PType δ))) : Rd := fun x y => ∃ ex1 ex2,
  ex = (if ex2 = [] then ex1 else ex2) ∧ (gExports u ex1 ▹ gOptBody u S b ▹ gExports u ex2) x y

mutual
/-- `[DeclSections] [ExportsStmts] [CompoundStmt | AssemblerStatement] [ExportsStmts]` -/
def gBlock : Block δ → Rd
  | .mk ds ex b => gDeclSects ds ▹ gExportsBody u S ex b
def gDeclSects : DeclSects δ → Rd
  | .nil => eps
  | .cons s rest => gDeclSect s ▹ optSemiR u ▹ gDeclSects rest
def gDeclSect : DeclSect δ → Rd
  | .label i => kwR u r!"LABEL" ▹ tk u (.ident i) ▹ symR u r!";"
  | .const ds => kwR u r!"CONST" ▹ gConstDecls u ds
  | .type ds => kwR u r!"TYPE" ▹ gTypeDecls u ds
  | .var ds => kwR u r!"VAR" ▹ gVarDecls u ds
  | .threadVar ds => kwR u r!"THREADVAR" ▹ gThreadVarDecls u ds
  | .func h o b => gHeading u h ▹ symR u r!";" ▹ gRoutineOpts u o ▹ gBlock b
end
end

end TP.Spec
