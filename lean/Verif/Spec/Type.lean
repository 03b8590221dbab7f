import Verif.Model.Types
import Verif.Spec.Stmt

/-!
# What a type tree stands for

The grammar of the comments in `ast/type*.go` and `ast/function_heading.go`, as far as `parser/type*.go` follows it,
as relations between the tokens at hand and the tokens left.  Some types end before the last token that belongs to
them (`END` of a record or class, the name in `class of Name`), so the rules also speak about the token that is left
first.  Nothing here refers to the parser functions.

Deviations from the documented grammar: a type name may be any token; `RECORD … END` and `CLASS … END` leave their
`END`; a variant part inside a variant ends with `END` instead of `)`; `NODEFAULT` and `IMPLEMENTS` are not consumed
as words of their own.
-/

namespace TP.Spec
open TP

/-- reading something from the first list leaves the second -/
abbrev Rd := List Token → List Token → Prop

/-- nothing -/
def eps : Rd := fun x y => x = y
/-- one after the other -/
def seq (a b : Rd) : Rd := fun x z => ∃ y, a x y ∧ b y z
infixr:67 " ▹ " => seq
/-- one or the other -/
def alt (a b : Rd) : Rd := fun x y => a x y ∨ b x y
infixr:65 " ∣∣ " => alt
/-- a condition on the tree -/
def given (c : Prop) (a : Rd) : Rd := fun x y => c ∧ a x y
/-- one token -/
def tkP (p : Token → Prop) : Rd := fun x y => ∃ t, x = t :: y ∧ p t
/-- one token that is left -/
def look (p : Token → Prop) : Rd := fun x y => x = y ∧ ∃ t z, x = t :: z ∧ p t
/-- a token of any kind at this place, or the end of the text -/
def anyAt (i : Ident) : Rd := fun x y => (∃ t, x = t :: y ∧ i = ⟨t.raw, t.start, t.stop⟩) ∨ (x = [] ∧ y = [] ∧ i.name = [])

section
variable (u : Uni)
/-- one token -/
def tk (l : Leaf) : Rd := tkP (l.Is u)
/-- tokens -/
def leaves (ls : List Leaf) : Rd := fun x y => ∃ used, x = used ++ y ∧ Leaves u ls used
def symR (s : Str) : Rd := tk u (.sym s)
def kwR (s : Str) : Rd := tk u (.kw s)
def optSemiR : Rd := symR u r!";" ∣∣ eps
end

variable {δ : Type} (u : Uni)

def gExpr (e : Expr δ) : Rd := leaves u (flatExpr e)

/-- `Ident ','...` -/
def gIdents : List Ident → Rd
  | [] => fun _ _ => False
  | [i] => tk u (.ident i)
  | i :: rest => tk u (.ident i) ▹ symR u r!"," ▹ gIdents rest

/-- `[UnitId '.'] <type-identifier>`; after a unit the identifier is left -/
def gTypeId (t : TypeId δ) : Rd :=
  match t.unit with
  | some q => tk u (.at q) ▹ symR u r!"." ▹ look ((Leaf.ident t.ident).Is u)
  | none => anyAt t.ident

/-- `Ident ['=' ConstExpr]` -/
def gElem (e : EnumElem δ) : Rd :=
  tk u (.ident e.ident) ▹ (match e.expr with
    | none => eps
    | some x => symR u r!"=" ▹ gExpr u x)

/-- `EnumeratedTypeElement ','... ')'` -/
def gElems : List (EnumElem δ) → Rd
  | [] => fun _ _ => False
  | [e] => gElem u e ▹ look (IsSym r!")")
  | e :: rest => gElem u e ▹ symR u r!"," ▹ gElems rest

def gTypeIds : List (TypeId δ) → Rd
  | [] => fun _ _ => False
  | [t] => gTypeId u t ▹ look (IsSym r!")")
  | t :: rest => gTypeId u t ▹ symR u r!"," ▹ gTypeIds rest

/-- `['(' ClassHeritage ')']` -/
def gHeritage (h : List (TypeId δ)) : Rd :=
  given (h = []) eps ∣∣ symR u r!"(" ▹ gTypeIds u h ▹ symR u r!")"

/-- a word in any spelling -/
def upR (s : Str) : Rd := tk u (.upper s)

def IsVisibilityWord (t : Token) : Prop :=
  IsUp u r!"PRIVATE" t ∨ IsUp u r!"PROTECTED" t ∨ IsUp u r!"PUBLIC" t ∨ IsUp u r!"PUBLISHED" t
/-- a token that ends a list of properties -/
def EndsProps (t : Token) : Prop := IsVisibilityWord u t ∨ IsKw u r!"END" t
/-- a token that ends a list of methods -/
def EndsMethods (t : Token) : Prop := IsKw u r!"PROPERTY" t ∨ EndsProps u t
/-- a token that ends a list of fields of a class -/
def EndsFields (t : Token) : Prop :=
  IsKw u r!"FUNCTION" t ∨ IsKw u r!"PROCEDURE" t ∨ IsKw u r!"CONSTRUCTOR" t ∨ IsKw u r!"DESTRUCTOR" t ∨ EndsMethods u t

/-- `[PUBLIC | PROTECTED | PRIVATE | PUBLISHED]` -/
def gVisibility : Visibility → Rd
  | .dflt => look fun t => t.typ = .ident ∧ ¬ IsVisibilityWord u t
  | .priv => tkP fun t => t.typ = .ident ∧ IsUp u r!"PRIVATE" t
  | .prot => tkP fun t => t.typ = .ident ∧ IsUp u r!"PROTECTED" t
  | .pub => tkP fun t => t.typ = .ident ∧ IsUp u r!"PUBLIC" t
  | .published => tkP fun t => t.typ = .ident ∧ IsUp u r!"PUBLISHED" t

/-- `ClassMethodDirective ';'...` -/
def gDirectives : List Str → Rd
  | [] => eps
  | w :: rest => given (u.toUpper w ∈ methodDirectives)
      (upR u w ▹ (given (rest = []) (look (EndsMethods u)) ∣∣ symR u r!";" ▹ gDirectives rest))

def gParmOpt : Option ParmOpt → Rd
  | none => eps
  | some .var => kwR u r!"VAR"
  | some .const => kwR u r!"CONST"
  | some .out => kwR u r!"OUT"

def gDefault : Option (Expr δ) → Rd
  | none => eps
  | some e => symR u r!"=" ▹ gExpr u e

/-- `':' TypeId` of a function -/
def gReturn (fn : Bool) (ret : Option (TypeId δ)) : Rd :=
  match fn, ret with
  | true, some t => symR u r!":" ▹ gTypeId u t
  | false, none => eps
  | _, _ => fun _ _ => False

def gFuncWord (fn : Bool) : Rd := tk u (.val (if fn then r!"FUNCTION" else r!"PROCEDURE"))

/-- `[OF OBJECT]` -/
def gOfObject (o : Bool) : Rd := if o then kwR u r!"OF" ▹ kwR u r!"OBJECT" else eps

def gVariantIdent : Option Ident → Rd
  | none => eps
  | some i => tk u (.ident i) ▹ symR u r!":"

/-- `READ Ident` -/
def gAccessor (word : Str) : Option (IdentRef δ) → Rd
  | none => eps
  | some r => upR u word ▹ anyAt r.ident

def gPropIndex : Option (Expr δ) → Rd
  | none => eps
  | some e => upR u r!"INDEX" ▹ gExpr u e

/-- `STORED (Ident | Constant)` -/
def gStored : Option (Stored δ) → Rd
  | none => eps
  | some (.const b) => upR u r!"STORED" ▹ tkP fun t => u.toLower (t.value u) = if b then r!"true" else r!"false"
  | some (.ref r) => upR u r!"STORED" ▹ anyAt r.ident

/-- `DEFAULT ConstExpr`, or a `NODEFAULT` that is left -/
def gPropDefault : Option (PropDefault δ) → Rd
  | none => eps
  | some (.value e) => upR u r!"DEFAULT" ▹ gExpr u e
  | some .noDefault => look (IsUp u r!"NODEFAULT")

/-- the word `IMPLEMENTS` taken as a type name -/
def gImplements : Option (TypeId δ) → Rd
  | none => eps
  | some t => fun x y => gTypeId u t x y ∧ ∃ w z, x = w :: z ∧ IsUp u r!"IMPLEMENTS" w

def gArrayOf (b : Bool) : Rd := if b then kwR u r!"ARRAY" ▹ kwR u r!"OF" else eps

def gPacked (b : Bool) : Rd := if b then kwR u r!"PACKED" else eps

mutual
def gType : PType δ → Rd
  /- no type at all: a reserved word that begins none -/
  | .nil => look fun t => t.typ = .reserved
  | .id t => fun x y => gTypeId u t x y ∧ ∃ w z, x = w :: z ∧ (w.typ = .ident ∨ w.typ = .reserved)
  /- `'(' EnumeratedTypeElement ','... ')'` -/
  | .enum es => symR u r!"(" ▹ gElems u es ▹ symR u r!")"
  /- `ConstExpr '..' ConstExpr` -/
  | .subrange lo hi => gExpr u lo ▹ tk u (.val r!"..") ▹ gExpr u hi
  /- `'^' TypeId` -/
  | .pointer t => symR u r!"^" ▹ gTypeId u t
  /- `STRING '[' ConstExpr ']'` -/
  | .fixedString i e => tk u (.at i) ▹ symR u r!"[" ▹ gExpr u e ▹ symR u r!"]"
  /- `[PACKED] ARRAY ['[' OrdinalType ','... ']'] OF Type [PACKED]` -/
  | .array p ix base =>
    gPacked u p ▹ kwR u r!"ARRAY" ▹ gIndex ix ▹ kwR u r!"OF" ▹ gType base ∣∣
    given (p = true) ((gPacked u true ∣∣ eps) ▹ kwR u r!"ARRAY" ▹ gIndex ix ▹ kwR u r!"OF" ▹ gType base ▹ kwR u r!"PACKED")
  /- `[PACKED] SET OF OrdinalType` -/
  | .set p t => gPacked u p ▹ kwR u r!"SET" ▹ kwR u r!"OF" ▹ gType t
  /- `[PACKED] FILE OF TypeId` -/
  | .file p t => gPacked u p ▹ kwR u r!"FILE" ▹ kwR u r!"OF" ▹ gTypeId u t
  /- `[PACKED] RECORD [FieldList] END`, without the `END` -/
  | .record p fl => gPacked u p ▹ kwR u r!"RECORD" ▹ gFieldList (IsKw u r!"END") fl ▹ look (IsKw u r!"END")
  /- `(FUNCTION | PROCEDURE) [FormalParameters] [':' TypeId] [OF OBJECT]` -/
  | .proc fn ps ret o => gFuncWord u fn ▹ gOptParams r!"(" r!")" ps ▹ gReturn u fn ret ▹ gOfObject u o
  /- `CLASS` before a semicolon -/
  | .forward => kwR u r!"CLASS" ▹ look (IsSym r!";")
  /- `CLASS OF TypeId`, without the name -/
  | .classRef t => given (t.unit = none) (kwR u r!"CLASS" ▹ kwR u r!"OF" ▹ look ((Leaf.ident t.ident).Is u))
  /- `CLASS [ClassHeritage] [ClassMemberSection]... END`, without the `END` -/
  | .cls h ms => kwR u r!"CLASS" ▹ gHeritage u h ▹
      (given (ms = .nil) (look fun t => IsKw u r!"END" t ∨ IsSym r!";" t) ∣∣ gSects ms)
def gIndex : OptPTypes δ → Rd
  | .none => eps
  | .some ts => symR u r!"[" ▹ gIndexTypes ts ▹ symR u r!"]"
def gIndexTypes : PTypes δ → Rd
  | .one t => gType t ▹ look (IsSym r!"]")
  | .cons t rest => gType t ▹ symR u r!"," ▹ gIndexTypes rest
/-- `FieldDecl ';'... [VariantSection]`, up to a token for which `term` holds or the `END` of the variant part -/
def gFieldList (term : Token → Prop) : FieldList δ → Rd
  | .mk fs v => gFields term fs ▹ (given (v = .none) (look term) ∣∣ gVariant v)
/-- `IdentList ':' Type ';'...` -/
def gFields (term : Token → Prop) : Fields δ → Rd
  | .nil => look fun t => IsKw u r!"CASE" t ∨ term t
  | .cons is t rest => gIdents u is ▹ symR u r!":" ▹ gType t ▹
      (given (rest = .nil) (look term) ∣∣ symR u r!";" ▹ gFields term rest)
/-- `CASE [Ident ':'] OrdinalType OF RecVariant ';'...` -/
def gVariant : OptVariant δ → Rd
  | .none => fun _ _ => False
  | .some i t vs => kwR u r!"CASE" ▹ gVariantIdent u i ▹ gType t ▹ kwR u r!"OF" ▹ gVariants vs
/-- `ConstExpr ','... ':' '(' [FieldList] ')'` -/
def gVariants : Variants δ → Rd
  | .nil => look (IsKw u r!"END")
  | .cons es fl rest => leaves u (flatExprs es) ▹ symR u r!":" ▹ symR u r!"(" ▹ gFieldList (IsSym r!")") fl ▹
      tkP (fun t => IsSym r!")" t ∨ IsKw u r!"END" t) ▹
      (given (rest = .nil) (look (IsKw u r!"END")) ∣∣ symR u r!";" ▹ gVariants rest)
def gOptParams (op cl : Str) : OptParams δ → Rd
  | .none => eps
  | .some ps => symR u op ▹ gParams cl ps ▹ symR u cl
/-- `[VAR | CONST | OUT] IdentList [':' ([ARRAY OF] Type | ARRAY OF CONST)] ['=' ConstExpr]`, separated by semicolons -/
def gParams (cl : Str) : Params δ → Rd
  | .one opt is t e => gParmOpt u opt ▹ gIdents u is ▹ gParamTy t ▹ gDefault u e ▹ look (IsSym cl)
  | .cons opt is t e rest => gParmOpt u opt ▹ gIdents u is ▹ gParamTy t ▹ gDefault u e ▹ symR u r!";" ▹ gParams cl rest
def gParamTy : ParamTy δ → Rd
  | .none => eps
  | .some arr t => symR u r!":" ▹ gArrayOf u arr ▹ (gType t ∣∣ given (arr = true ∧ t = .nil) (kwR u r!"CONST"))
/-- sections of a class, up to `END` -/
def gSects : Sects δ → Rd
  | .nil => fun _ _ => False
  | .cons v fs ms ps rest =>
      gVisibility u v ▹
      (given (fs = .nil ∧ ms = .nil ∧ ps = .nil) (look (IsKw u r!"END")) ∣∣ gClassFields fs ▹ gMethods ms ▹ gProps ps) ▹
      (given (rest = .nil) (look (IsKw u r!"END")) ∣∣ gSects rest)
def gClassFields : Fields δ → Rd
  | .nil => look (EndsFields u)
  | .cons is t rest => gIdents u is ▹ symR u r!":" ▹ gType t ▹
      (given (rest = .nil) (look (EndsFields u)) ∣∣ symR u r!";" ▹ gClassFields rest)
def gMethods : Methods δ → Rd
  | .nil => look (EndsMethods u)
  | .cons h ds rest => gHeading h ▹ optSemiR u ▹ gDirectives u ds ▹ optSemiR u ▹ gMethods rest
def gHeading : Heading δ → Rd
  | .func fn i ps ret => gFuncWord u fn ▹ tk u (.ident i) ▹ gOptParams r!"(" r!")" ps ▹ gReturn u fn ret
  | .ctor i ps => kwR u r!"CONSTRUCTOR" ▹ anyAt i ▹ gOptParams r!"(" r!")" ps
  | .dtor i => kwR u r!"DESTRUCTOR" ▹ anyAt i
def gProps : Props δ → Rd
  | .nil => look (EndsProps u)
  | .cons p rest => gProp p ▹ optSemiR u ▹ gProps rest
/-- `PROPERTY Ident [PropertyInterface] [INDEX ConstExpr] [READ Ident] [WRITE Ident] [STORED …] [DEFAULT …]` -/
def gProp : ClassProp δ → Rd
  | .mk i intf ix rd wr st df im _ => kwR u r!"PROPERTY" ▹ anyAt i ▹ gIntf intf ▹ gPropIndex u ix ▹
      gAccessor u r!"READ" rd ▹ gAccessor u r!"WRITE" wr ▹ gStored u st ▹ gPropDefault u df ▹ gImplements u im
/-- `['[' FormalParm ';'... ']'] ':' TypeId` -/
def gIntf : OptIntf δ → Rd
  | .none => eps
  | .some ps t => gOptParams r!"[" r!"]" ps ▹ symR u r!":" ▹ gTypeId u t
end

end TP.Spec
