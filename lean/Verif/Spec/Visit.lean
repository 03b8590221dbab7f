import Verif.Model.Children
import Verif.Spec.Goal

/-!
# What a walk over a tree of the parser shows of the source

`Reads ok n is ts`: the tokens `ts`, read from left to right, show the names and literals `is` in this order; the tokens
in between satisfy `ok`, except for at most `n` of them.
-/

namespace TP.Spec
open TP

/-- a name or literal that a visitor sees -/
inductive Item
  | name (i : Ident)
  | value (v : Str)
  | number (v : Str)
  | string (v : Str)
  deriving DecidableEq, Repr

/-- the item that a node stands for -/
def itemOf : NodeVal → Option Item
  | .ident i => some (.name i)
  | .absolute i => some (.name i)
  | .value v => some (.value v)
  | .number v => some (.number v)
  | .string v => some (.string v)
  | .other _ => none

/-- the token is that item: a name has the place of the token -/
def Item.Is : Item → Token → Prop
  | .name i, t => i = ⟨t.raw, t.start, t.stop⟩
  | .value v, t => t.raw = v
  | .number v, t => t.raw = v
  | .string v, t => t.raw = v

inductive Reads (ok : Token → Prop) : Nat → List Item → List Token → Prop
  | nil (n : Nat) : Reads ok n [] []
  | hit {n : Nat} {i : Item} {is : List Item} {t : Token} {ts : List Token} : i.Is t → Reads ok n is ts →
      Reads ok n (i :: is) (t :: ts)
  | skip {n : Nat} {is : List Item} {t : Token} {ts : List Token} : ok t → Reads ok n is ts → Reads ok n is (t :: ts)
  | lose {n : Nat} {is : List Item} {t : Token} {ts : List Token} : Reads ok n is ts → Reads ok (n + 1) is (t :: ts)

/-- words that mean something at certain places without being reserved -/
def roleWords : List Str :=
  directiveNames ++ portabilityNames ++ methodDirectives ++
  [r!"PRIVATE", r!"PROTECTED", r!"PUBLIC", r!"PUBLISHED", r!"READ", r!"WRITE", r!"STORED", r!"DEFAULT", r!"ABSOLUTE", r!"AT",
   r!"ON", r!"DO", r!"TO", r!"DOWNTO", r!"FUNCTION", r!"PROCEDURE", r!":=", r!".."]

/-- The token is neither a number nor an identifier, or it is one of these words (or `TRUE` or `FALSE`). -/
def NoName (u : Uni) (t : Token) : Prop :=
  (t.typ ≠ .ident ∧ t.typ ≠ .numInt ∧ t.typ ≠ .numReal) ∨ u.toUpper t.raw ∈ roleWords ∨ t.raw ∈ roleWords ∨
    u.toUpper (u.toUpper t.raw) ∈ roleWords ∨ u.toLower t.raw ∈ [r!"true", r!"false"]

/-- the visitor that writes down what it sees -/
def recorder (s : List NodeVal) (a : NodeVal) : List NodeVal × Option Unit := (s ++ [a], none)

/-- `WalkDown` from `t` ends without error or panic, and the visitor is called for the nodes `vs`, in this order. -/
def Visits (t : Tree NodeVal) (vs : List NodeVal) : Prop := walkDown recorder t [] = (vs, .ok)

/-- the name that a node stands for -/
def nameOf : NodeVal → Option Ident
  | .ident i => some i
  | .absolute i => some i
  | _ => none
/-- the names among the nodes, with their places -/
def namesOf (vs : List NodeVal) : List Ident := vs.filterMap nameOf

/-! ## Trees for which the order of the walk is that of the source

Left out are variant parts with a name, exports of a block, properties with a qualified type and `IMPLEMENTS`, exception handlers
with anything but an unqualified type name, and assembler blocks unless `A`. -/

variable {δ : Type}

/-- an unqualified name -/
def PlainName : PType δ → Prop
  | .id t => t.unit = none
  | _ => False

section
variable (A : Prop)

mutual
def RegType : PType δ → Prop
  | .array _ ix base => RegIndex ix ∧ RegType base
  | .set _ t => RegType t
  | .record _ fl => RegFieldList fl
  | .proc _ ps _ _ => RegOptParams ps
  | .cls _ ms => RegSects ms
  | _ => True
def RegIndex : OptPTypes δ → Prop
  | .none => True
  | .some ts => RegTypes ts
def RegTypes : PTypes δ → Prop
  | .one t => RegType t
  | .cons t rest => RegType t ∧ RegTypes rest
def RegFieldList : FieldList δ → Prop
  | .mk fs v => RegFields fs ∧ RegVariant v
def RegFields : Fields δ → Prop
  | .nil => True
  | .cons _ t rest => RegType t ∧ RegFields rest
def RegVariant : OptVariant δ → Prop
  | .none => True
  | .some i t vs => i = none ∧ RegType t ∧ RegVariants vs
def RegVariants : Variants δ → Prop
  | .nil => True
  | .cons _ fl rest => RegFieldList fl ∧ RegVariants rest
def RegOptParams : OptParams δ → Prop
  | .none => True
  | .some ps => RegParams ps
def RegParams : Params δ → Prop
  | .one _ _ t _ => RegParamTy t
  | .cons _ _ t _ rest => RegParamTy t ∧ RegParams rest
def RegParamTy : ParamTy δ → Prop
  | .none => True
  | .some _ t => RegType t
def RegSects : Sects δ → Prop
  | .nil => True
  | .cons _ fs ms ps rest => RegFields fs ∧ RegMethods ms ∧ RegProps ps ∧ RegSects rest
def RegMethods : Methods δ → Prop
  | .nil => True
  | .cons h _ rest => RegHeading h ∧ RegMethods rest
def RegHeading : Heading δ → Prop
  | .func _ _ ps _ => RegOptParams ps
  | .ctor _ ps => RegOptParams ps
  | .dtor _ => True
def RegProps : Props δ → Prop
  | .nil => True
  | .cons p rest => RegProp p ∧ RegProps rest
def RegProp : ClassProp δ → Prop
  | .mk _ intf _ _ _ _ _ im _ => RegIntf (im = none) intf
def RegIntf (noImplements : Prop) : OptIntf δ → Prop
  | .none => True
  | .some ps t => RegOptParams ps ∧ (noImplements ∨ t.unit = none)
end

mutual
def RegStmt : Stmt δ (PType δ) → Prop
  | .mk _ b => RegBody b
def RegBody : Body δ (PType δ) → Prop
  | .compound l => RegStmts l
  | .ifThen _ s => RegStmt s
  | .ifElse _ s1 s2 => RegStmt s1 ∧ RegStmt s2
  | .case _ sels els => RegSels sels ∧ RegElse els
  | .repeat l _ => RegStmts l
  | .while _ s => RegStmt s
  | .for _ _ _ _ s => RegStmt s
  | .with _ s => RegStmt s
  | .tryExcept l b => RegStmts l ∧ RegExc b
  | .tryFinally l1 l2 => RegStmts l1 ∧ RegStmts l2
  | .asm => A
  | _ => True
def RegStmts : Stmts δ (PType δ) → Prop
  | .one s => RegStmt s
  | .cons s rest => RegStmt s ∧ RegStmts rest
def RegElse : OptStmts δ (PType δ) → Prop
  | .none => True
  | .some l => RegStmts l
def RegSels : Sels δ (PType δ) → Prop
  | .one _ s => RegStmt s
  | .cons _ s rest => RegStmt s ∧ RegSels rest
def RegExc : ExcBlock δ (PType δ) → Prop
  | .plain l => RegStmts l
  | .handlers hs els => RegHandlers hs ∧ RegElse els
def RegHandlers : Handlers δ (PType δ) → Prop
  | .one h => RegHandler h
  | .cons h rest => RegHandler h ∧ RegHandlers rest
def RegHandler : Handler δ (PType δ) → Prop
  | .mk _ ty s => PlainName ty ∧ RegStmt s
end

mutual
def RegBlock : Block δ → Prop
  | .mk ds ex b => RegDecls ds ∧ ex = [] ∧ ∀ c, b = some c → RegBody A c
def RegDecls : DeclSects δ → Prop
  | .nil => True
  | .cons s rest => RegDecl s ∧ RegDecls rest
def RegDecl : DeclSect δ → Prop
  | .label _ => True
  | .const ds => ∀ d ∈ ds, ∀ t, d.type = some t → RegType t
  | .type ds => ∀ d ∈ ds, RegType d.type
  | .var ds => ∀ d ∈ ds, RegType d.type
  | .threadVar ds => ∀ d ∈ ds, RegType d.type
  | .func h _ b => RegHeading h ∧ RegBlock b
end

def RegIntfDecl : IntfDecl δ → Prop
  | .const ds => ∀ d ∈ ds, ∀ t, d.type = some t → RegType t
  | .type _ ds => ∀ d ∈ ds, RegType d.type
  | .var ds => ∀ d ∈ ds, RegType d.type
  | .threadVar ds => ∀ d ∈ ds, RegType d.type
  | .heading h _ => RegHeading h

def RegUnit (t : UnitTree δ) : Prop :=
  (∀ d ∈ t.intf, RegIntfDecl d) ∧ RegDecls A t.body.decls ∧
    ∀ i, t.body.init = some i → RegStmts A i.initialization ∧ ∀ l, i.finalization = some l → RegStmts A l

def RegProgram (t : ProgramTree δ) : Prop := RegBlock A t.block
end

/-! ## Number of type declarations -/

mutual
def typesBlock : Block δ → Nat
  | .mk ds _ _ => typesDecls ds
def typesDecls : DeclSects δ → Nat
  | .nil => 0
  | .cons s rest => typesDecl s + typesDecls rest
def typesDecl : DeclSect δ → Nat
  | .type ds => ds.length
  | .func _ _ b => typesBlock b
  | _ => 0
end

/-- of the interface of a unit -/
def typesIntf : List (IntfDecl δ) → Nat
  | [] => 0
  | .type _ ds :: rest => ds.length + typesIntf rest
  | _ :: rest => typesIntf rest

/-- of a unit -/
def typesUnit (t : UnitTree δ) : Nat := typesIntf t.intf + typesDecls t.body.decls

end TP.Spec
