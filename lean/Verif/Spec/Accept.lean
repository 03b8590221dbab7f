import Verif.Spec.Decl

/-!
# Texts that have to be accepted

A grammar of declarations, blocks and units, with a bookkeeping of the names (`NameEnv`).  It is smaller than the language:
a class with properties has no ancestor that is declared before (`Orphan`) or only such ancestors whose
heritage is known (`Descends`), and their accessors are members of the class; the types of parameters and of variables and constants
with a value are names.

The bookkeeping does not say what a name stands for but only what it may stand for, because a parser that has gone back
to an earlier token stays in the scope in which it went back (C23).  So the names of a scope have to differ from those of
the scopes inside it that were closed before.  Nothing here refers to the parser functions.
-/

namespace TP.Spec
open TP

/-- what a name may stand for -/
inductive What
  | type
  /-- a unit or program -/
  | space
  | label
  | other
  deriving DecidableEq

/-- What is known of a name. -/
inductive NameSort
  /-- it is a type -/
  | plain
  /-- it is ordinal -/
  | ord
  /-- it is a forward declared class -/
  | fwd
  /-- it is a class with members -/
  | cls
  /-- it is a class with members that has no ancestors but such classes, and perhaps a class that is only declared forward -/
  | rooted
  /-- it is a label -/
  | label
  deriving DecidableEq

/-- Names in lower case. -/
structure NameEnv where
  /-- those that the innermost scope may have -/
  inner : List Str
  /-- those that may be visible, except the embedded types -/
  seen : List (Str × What)
  /-- those that are certainly types or labels, with what is known of them -/
  sure : List (Str × NameSort)

namespace NameEnv
variable (u : Uni)

/-- nothing is declared -/
def empty : NameEnv := ⟨[], [], []⟩

/-- the name of an embedded type, in any spelling -/
def embedded (name : Str) : Bool := embeddedTypes.any fun kn => u.toUpper kn.2 == u.toUpper name

/-- the name of an embedded ordinal type -/
def embeddedOrd (name : Str) : Bool :=
  embeddedTypes.any fun kn => kn.1 == .ordIdent && u.toUpper kn.2 == u.toUpper name

/-- the most specific thing a name may stand for -/
def get (Γ : NameEnv) (name : Str) : Option What :=
  if (u.toLower name, .space) ∈ Γ.seen then some .space
  else if embedded u name = true ∨ (u.toLower name, .type) ∈ Γ.seen then some .type
  else if (u.toLower name, .label) ∈ Γ.seen then some .label
  else none

/-- the names can be declared in the innermost scope -/
def New (Γ : NameEnv) (names : List Str) : Prop :=
  (names.map u.toLower).Nodup ∧ ∀ n ∈ names, u.toLower n ∉ Γ.inner

/-- the name is not visible -/
def Unseen (Γ : NameEnv) (name : Str) : Prop :=
  embedded u name = false ∧ u.toLower name ∉ Γ.inner ∧ ∀ w, (u.toLower name, w) ∉ Γ.seen

/-- the name is certainly that of a type -/
def Sure (Γ : NameEnv) (name : Str) : Prop :=
  (∃ o, (u.toLower name, o) ∈ Γ.sure ∧ o ≠ .label) ∨ (embedded u name = true ∧ ∀ w, (u.toLower name, w) ∉ Γ.seen)

/-- after the declaration of the names -/
def declare (Γ : NameEnv) (names : List Str) : NameEnv :=
  ⟨names.map u.toLower ++ Γ.inner, names.map (fun n => (u.toLower n, .other)) ++ Γ.seen,
   Γ.sure.filter fun p => p.1 ∉ names.map u.toLower⟩

/-- after the declaration of a type -/
def declareType (Γ : NameEnv) (name : Str) (o : NameSort) : NameEnv :=
  ⟨u.toLower name :: Γ.inner, (u.toLower name, .type) :: Γ.seen, (u.toLower name, o) :: Γ.sure⟩

/-- after the completion of a forward declared class -/
def completeType (Γ : NameEnv) (name : Str) (o : NameSort) : NameEnv :=
  ⟨u.toLower name :: Γ.inner, (u.toLower name, .type) :: Γ.seen,
   (u.toLower name, o) :: Γ.sure.filter fun p => p.1 ≠ u.toLower name⟩

/-- after the declaration of a unit or a used unit -/
def declareSpace (Γ : NameEnv) (name : Str) : NameEnv :=
  ⟨u.toLower name :: Γ.inner, (u.toLower name, .space) :: Γ.seen, Γ.sure.filter fun p => p.1 ≠ u.toLower name⟩

/-- after the declaration of a label -/
def declareLabel (Γ : NameEnv) (name : Str) : NameEnv :=
  ⟨u.toLower name :: Γ.inner, (u.toLower name, .label) :: Γ.seen,
   (u.toLower name, .label) :: Γ.sure.filter fun p => p.1 ≠ u.toLower name⟩

/-- If the name may be that of a label it certainly is. -/
def Clear (Γ : NameEnv) (name : Str) : Prop :=
  (u.toLower name, .label) ∈ Γ.seen → Γ.get u name = some .label ∧ (u.toLower name, .label) ∈ Γ.sure

/-- For each of the tokens it is known whether it is a label, and no label is called like the words that end a
list of statements. -/
def LabelsKnown (Γ : NameEnv) (ts : List Token) : Prop :=
  (∀ t ∈ ts, Γ.Clear u (t.value u)) ∧ ∀ w ∈ [r!"END", r!"UNTIL", r!"EXCEPT", r!"FINALLY", r!"FINALIZATION"], (u.toLower w, .label) ∉ Γ.seen

/-- in a new scope -/
def opened (Γ : NameEnv) : NameEnv := { Γ with inner := [] }

/-- after a scope -/
def closed (Γ Γ' : NameEnv) : NameEnv :=
  ⟨Γ.inner ++ Γ'.inner, Γ.seen ++ Γ'.seen, Γ.sure.filter fun p => p ∈ Γ'.sure⟩

/-- for expressions and statements -/
def env : SEnv NameEnv What Unit where
  get := get u
  isType w := w == .type
  isNamespace w := w == .space
  isUses _ := false
  member _ _ _ := .error
  rollback Γ := Γ
  isLabel w := w == .label
  setHandler Γ i _ :=
    if u.toLower i.name ∈ Γ.inner ∨ (u.toLower i.name, .space) ∈ Γ.seen ∨ (u.toLower i.name, .label) ∈ Γ.seen then .err else .ok (Γ.declare u [i.name])
  parseType _ := P.wait

end NameEnv

section
variable (u : Uni)

/-- the type of an exception handler -/
def OkHandlerType (Γ : NameEnv) (_ : Unit) (ts : List Token) (Γ' : NameEnv) : Prop :=
  Γ' = Γ ∧ ∃ t, ts = [t] ∧ t.typ = .ident ∧ Γ.Sure u t.raw

/-- an expression -/
def OkExpr (Γ : NameEnv) (ts : List Token) : Prop := ∃ e, DExpr u (NameEnv.env u) True Γ e ts

/-- `BEGIN StmtList END` -/
def OkCompound (Γ : NameEnv) (ts : List Token) (Γ' : NameEnv) : Prop :=
  Γ.LabelsKnown u ts ∧ ∃ l, DBody u (NameEnv.env u) True (OkHandlerType u) Γ (.compound l) ts Γ'

/-- `CompoundStmt` or `ASM ... END`; the first token of an assembler block may be any -/
inductive OkMain : NameEnv → List Token → NameEnv → Prop
  | compound {Γ x Γ'} : OkCompound u Γ x Γ' → OkMain Γ x Γ'
  | asm {Γ a f x e} : IsKw u r!"ASM" a → (∀ t ∈ x, ¬ IsKw u r!"END" t) → IsKw u r!"END" e → OkMain Γ (a :: f :: (x ++ [e])) Γ

/-- `Ident [(NAME | INDEX) ConstExpr]` -/
inductive OkExport (Γ : NameEnv) : List Token → Prop
  | plain {t} : t.typ = .ident → OkExport Γ [t]
  | named {t w x} : t.typ = .ident → IsWordOf u [r!"NAME"] w ∨ IsWordOf u [r!"INDEX"] w → OkExpr u Γ x → OkExport Γ (t :: w :: x)

/-- items of an `EXPORTS` statement, separated by commas -/
inductive OkExportItems (Γ : NameEnv) : List Token → Prop
  | one {x} : OkExport u Γ x → OkExportItems Γ x
  | cons {x c y} : OkExport u Γ x → IsSym r!"," c → OkExportItems Γ y → OkExportItems Γ (x ++ c :: y)

/-- `(EXPORTS ExportsItem ','... ';')...` -/
inductive OkExports (Γ : NameEnv) : List Token → Prop
  | nil : OkExports Γ []
  | cons {w x s y} : IsKw u r!"EXPORTS" w → OkExportItems u Γ x → IsSym r!";" s → OkExports Γ y → OkExports Γ (w :: (x ++ s :: y))

/-- what follows the sections of a block -/
inductive OkBody : NameEnv → List Token → NameEnv → Prop
  | mk {Γ x y Γ' z} : OkExports u Γ x → OkMain u Γ y Γ' → OkExports u Γ' z → OkBody Γ (x ++ (y ++ z)) Γ'

/-- `IdentList` -/
inductive OkIdents : List Token → List Str → Prop
  | one {t} : t.typ = .ident → OkIdents [t] [t.raw]
  | cons {t c ts ns} : t.typ = .ident → IsSym r!"," c → OkIdents ts ns → OkIdents (t :: c :: ts) (t.raw :: ns)

/-- a type name, where any token would do -/
def OkTypeId (Γ : NameEnv) (t : Token) : Prop :=
  (t.typ = .ident ∨ IsKw u r!"STRING" t) ∧ Γ.get u (t.value u) ≠ some .space

/-- `['=' ConstExpr]` -/
def OkInit (Γ : NameEnv) (ts : List Token) : Prop := ts = [] ∨ ∃ e x, ts = e :: x ∧ IsSym r!"=" e ∧ OkExpr u Γ x

/-- `Ident ['=' ConstExpr] ','...` -/
inductive OkElems : NameEnv → List Token → NameEnv → Prop
  | one {Γ t x} : t.typ = .ident → OkInit u Γ x → Γ.New u [t.raw] → OkElems Γ (t :: x) (Γ.declare u [t.raw])
  | cons {Γ t x c ts Γ'} : t.typ = .ident → OkInit u Γ x → Γ.New u [t.raw] → IsSym r!"," c →
      OkElems (Γ.declare u [t.raw]) ts Γ' → OkElems Γ (t :: (x ++ c :: ts)) Γ'

/-- Types without parts that are types.  The flag tells whether the type is ordinal. -/
inductive OkSimple : NameEnv → List Token → Bool → NameEnv → Prop
  | name {Γ t} : OkTypeId u Γ t → OkSimple Γ [t] false Γ
  | ordName {Γ t} : t.typ = .ident → Γ.get u t.raw ≠ some .space → NameEnv.embeddedOrd u t.raw = true →
      OkSimple Γ [t] true Γ
  | pointer {Γ c t} : IsSym r!"^" c → OkTypeId u Γ t → OkSimple Γ [c, t] false Γ
  | fixed {Γ t o x c} : IsKw u r!"STRING" t → IsSym r!"[" o → OkExpr u Γ x → IsSym r!"]" c →
      OkSimple Γ (t :: o :: (x ++ [c])) false Γ
  | enum {Γ o x c Γ'} : IsSym r!"(" o → OkElems u Γ x Γ' → IsSym r!")" c → OkSimple Γ (o :: (x ++ [c])) true Γ'
  | range {Γ t x d y} : t.typ = .numInt ∨ t.typ = .numReal ∨ t.typ = .charString → OkExpr u Γ (t :: x) →
      IsSym r!".." d → OkExpr u Γ y → OkSimple Γ (t :: (x ++ d :: y)) true Γ
  | identRange {Γ t d y} : t.typ = .ident → Γ.get u t.raw ≠ some .space → NameEnv.embedded u t.raw = false →
      IsSym r!".." d → OkExpr u Γ y → OkSimple Γ (t :: d :: y) true Γ

/-- Ordinal types. -/
inductive OkOrd : NameEnv → List Token → NameEnv → Prop
  | simple {Γ ts Γ'} : OkSimple u Γ ts true Γ' → OkOrd Γ ts Γ'
  | name {Γ t} : t.typ = .ident → Γ.get u t.raw ≠ some .space → NameEnv.embedded u t.raw = false →
      (u.toLower t.raw, .ord) ∈ Γ.sure → OkOrd Γ [t] Γ

/-- `OrdinalType ','...` -/
inductive OkOrds : NameEnv → List Token → NameEnv → Prop
  | one {Γ ts Γ'} : OkOrd u Γ ts Γ' → OkOrds Γ ts Γ'
  | cons {Γ x Γ1 c y Γ'} : OkOrd u Γ x Γ1 → IsSym r!"," c → OkOrds Γ1 y Γ' → OkOrds Γ (x ++ c :: y) Γ'

/-- `['[' OrdinalType ','... ']']` -/
inductive OkIndex : NameEnv → List Token → NameEnv → Prop
  | none {Γ} : OkIndex Γ [] Γ
  | some {Γ o x c Γ'} : IsSym r!"[" o → OkOrds u Γ x Γ' → IsSym r!"]" c → OkIndex Γ (o :: (x ++ [c])) Γ'

/-- `[VAR | CONST | OUT]` -/
def OkParmOpt (ts : List Token) : Prop :=
  ts = [] ∨ ∃ t, ts = [t] ∧ (IsKw u r!"VAR" t ∨ IsKw u r!"CONST" t ∨ IsKw u r!"OUT" t)

/-- `[':' ([ARRAY OF] TypeId | ARRAY OF CONST) ['=' ConstExpr]]` -/
inductive OkParmType : NameEnv → List Token → Prop
  | none {Γ} : OkParmType Γ []
  | name {Γ c t x} : IsSym r!":" c → OkTypeId u Γ t → OkInit u Γ x → OkParmType Γ (c :: t :: x)
  | array {Γ c a o t x} : IsSym r!":" c → IsKw u r!"ARRAY" a → IsKw u r!"OF" o → OkTypeId u Γ t → OkInit u Γ x →
      OkParmType Γ (c :: a :: o :: t :: x)
  | const {Γ c a o t} : IsSym r!":" c → IsKw u r!"ARRAY" a → IsKw u r!"OF" o → IsKw u r!"CONST" t →
      OkParmType Γ [c, a, o, t]

/-- parameters, separated by semicolons -/
inductive OkParams : NameEnv → List Token → NameEnv → Prop
  | one {Γ o x ns y} : OkParmOpt u o → OkIdents x ns → OkParmType u Γ y → Γ.New u ns →
      OkParams Γ (o ++ (x ++ y)) (Γ.declare u ns)
  | cons {Γ o x ns y c ts Γ'} : OkParmOpt u o → OkIdents x ns → OkParmType u Γ y → Γ.New u ns → IsSym r!";" c →
      OkParams (Γ.declare u ns) ts Γ' → OkParams Γ (o ++ (x ++ (y ++ c :: ts))) Γ'

/-- `['(' FormalParm ';'... ')']` -/
inductive OkOptParams : NameEnv → List Token → NameEnv → Prop
  | none {Γ} : OkOptParams Γ [] Γ
  | some {Γ o x c Γ'} : IsSym r!"(" o → OkParams u Γ x Γ' → IsSym r!")" c → OkOptParams Γ (o :: (x ++ [c])) Γ'

/-- `':' TypeId` of a function -/
inductive OkReturn (Γ : NameEnv) : Bool → List Token → Prop
  | proc : OkReturn Γ false []
  | func {c t} : IsSym r!":" c → OkTypeId u Γ t → OkReturn Γ true [c, t]

/-- `FUNCTION` or `PROCEDURE` -/
def IsRoutineWord (fn : Bool) (t : Token) : Prop := IsKw u (if fn then r!"FUNCTION" else r!"PROCEDURE") t

/-- `[OF OBJECT]` -/
def OkOfObject (ts : List Token) : Prop := ts = [] ∨ ∃ o t, ts = [o, t] ∧ IsKw u r!"OF" o ∧ IsKw u r!"OBJECT" t

/-- `[PACKED]` -/
def OkPacked (ts : List Token) : Prop := ts = [] ∨ ∃ t, ts = [t] ∧ IsKw u r!"PACKED" t

/-- Types that end with their last token. -/
inductive OkType : NameEnv → List Token → Bool → NameEnv → Prop
  | simple {Γ ts o Γ'} : OkSimple u Γ ts o Γ' → OkType Γ ts o Γ'
  | set {Γ p s o x Γ'} : OkPacked u p → IsKw u r!"SET" s → IsKw u r!"OF" o → OkOrd u Γ x Γ' →
      OkType Γ (p ++ s :: o :: x) false Γ'
  | file {Γ p f o t} : OkPacked u p → IsKw u r!"FILE" f → IsKw u r!"OF" o → OkTypeId u Γ t →
      OkType Γ (p ++ [f, o, t]) false Γ
  | array {Γ p a x Γ1 o y b Γ'} : OkPacked u p → IsKw u r!"ARRAY" a → OkIndex u Γ x Γ1 → IsKw u r!"OF" o →
      OkType Γ1 y b Γ' → OkType Γ (p ++ a :: (x ++ o :: y)) false Γ'
  | proc {Γ fn w x Γ1 r o} : IsRoutineWord u fn w → OkOptParams u Γ.opened x Γ1 → OkReturn u Γ1 fn r → OkOfObject u o →
      OkType Γ (w :: (x ++ (r ++ o))) false (Γ.closed Γ1)

/-- `IdentList ':' Type ';'...`, the last semicolon may be missing -/
inductive OkFields : NameEnv → List Token → NameEnv → Prop
  | nil {Γ} : OkFields Γ [] Γ
  | last {Γ x ns c y b Γ'} : OkIdents x ns → IsSym r!":" c → OkType u Γ y b Γ' → OkFields Γ (x ++ c :: y) Γ'
  | cons {Γ x ns c y b Γ1 s z Γ'} : OkIdents x ns → IsSym r!":" c → OkType u Γ y b Γ1 → IsSym r!";" s →
      OkFields Γ1 z Γ' → OkFields Γ (x ++ c :: (y ++ s :: z)) Γ'

/-- `[Ident ':'] OrdinalType` of a variant part; without the name the type begins with a name -/
inductive OkTag : NameEnv → List Token → NameEnv → Prop
  | mk {Γ t x Γ'} : t.typ = .ident → OkOrd u Γ (t :: x) Γ' → OkTag Γ (t :: x) Γ'
  | named {Γ t c x Γ'} : t.typ = .ident → IsSym r!":" c → OkOrd u Γ x Γ' → OkTag Γ (t :: c :: x) Γ'

/-- `ConstExpr ','...` -/
inductive OkExprs (Γ : NameEnv) : List Token → Prop
  | one {x} : OkExpr u Γ x → OkExprs Γ x
  | cons {x c y} : OkExpr u Γ x → IsSym r!"," c → OkExprs Γ y → OkExprs Γ (x ++ c :: y)

/-- `ConstExpr ','... ':' '(' FieldList ')' ';'...`, the last semicolon may be missing -/
inductive OkVariants : NameEnv → List Token → NameEnv → Prop
  | nil {Γ} : OkVariants Γ [] Γ
  | last {Γ x c o y d Γ'} : OkExprs u Γ x → IsSym r!":" c → IsSym r!"(" o → OkFields u Γ y Γ' → IsSym r!")" d →
      OkVariants Γ (x ++ c :: o :: (y ++ [d])) Γ'
  | cons {Γ x c o y d Γ1 s z Γ'} : OkExprs u Γ x → IsSym r!":" c → IsSym r!"(" o → OkFields u Γ y Γ1 → IsSym r!")" d →
      IsSym r!";" s → OkVariants Γ1 z Γ' → OkVariants Γ (x ++ c :: o :: (y ++ d :: s :: z)) Γ'

/-- `IdentList ':' Type ';'...` with a semicolon at the end -/
inductive OkFixedFields : NameEnv → List Token → NameEnv → Prop
  | nil {Γ} : OkFixedFields Γ [] Γ
  | cons {Γ x ns c y b Γ1 s z Γ'} : OkIdents x ns → IsSym r!":" c → OkType u Γ y b Γ1 → IsSym r!";" s →
      OkFixedFields Γ1 z Γ' → OkFixedFields Γ (x ++ c :: (y ++ s :: z)) Γ'

/-- `TypeId ','...` -/
inductive OkTypeIds (Γ : NameEnv) : List Token → Prop
  | one {t} : OkTypeId u Γ t → OkTypeIds Γ [t]
  | cons {t c ts} : OkTypeId u Γ t → IsSym r!"," c → OkTypeIds Γ ts → OkTypeIds Γ (t :: c :: ts)

/-- `['(' TypeId ','... ')']` -/
inductive OkHeritage (Γ : NameEnv) : List Token → Prop
  | none : OkHeritage Γ []
  | some {o x c} : IsSym r!"(" o → OkTypeIds u Γ x → IsSym r!")" c → OkHeritage Γ (o :: (x ++ [c]))

/-- `(FUNCTION | PROCEDURE) Ident [FormalParameters] [':' TypeId]` in a scope of its own -/
inductive OkHeading : NameEnv → List Token → Str → NameEnv → Prop
  | mk {Γ fn w t x Γ1 r} : IsRoutineWord u fn w → t.typ = .ident → OkOptParams u Γ x Γ1 → OkReturn u Γ1 fn r →
      OkHeading Γ (w :: t :: (x ++ r)) t.raw Γ1

/-- method headings -/
inductive OkMethodHead : NameEnv → List Token → Str → NameEnv → Prop
  | func {Γ ts n Γ'} : OkHeading u Γ ts n Γ' → OkMethodHead Γ ts n Γ'
  | ctor {Γ w t x Γ'} : IsKw u r!"CONSTRUCTOR" w → t.typ = .ident → OkOptParams u Γ x Γ' → OkMethodHead Γ (w :: t :: x) t.raw Γ'
  | dtor {Γ w t} : IsKw u r!"DESTRUCTOR" w → t.typ = .ident → OkMethodHead Γ [w, t] t.raw Γ

/-- `(Directive ';')...` of a method -/
inductive OkMethodDirs : List Token → Prop
  | nil : OkMethodDirs []
  | cons {t s ts} : t.typ = .ident → u.toUpper (u.toUpper t.raw) ∈ methodDirectives → IsSym r!";" s → OkMethodDirs ts →
      OkMethodDirs (t :: s :: ts)

/-- `(MethodHeading ';' (Directive ';')...)...`, with the names of the methods -/
inductive OkMethods : NameEnv → List Token → List Str → NameEnv → Prop
  | nil {Γ} : OkMethods Γ [] [] Γ
  | cons {Γ x n Γ1 s d y ns Γ'} : OkMethodHead u Γ.opened x n Γ1 → IsSym r!";" s → OkMethodDirs u d →
      OkMethods (Γ.closed Γ1) y ns Γ' → OkMethods Γ (x ++ s :: (d ++ y)) (n :: ns) Γ'

/-- Fields of a class; they end with a semicolon. -/
inductive OkClassFields : NameEnv → List Token → List Str → NameEnv → Prop
  | nil {Γ} : OkClassFields Γ [] [] Γ
  | cons {Γ t x ns c y b Γ1 s z ms Γ'} : OkIdents (t :: x) ns → ¬ IsVisibilityWord u t → IsSym r!":" c → OkType u Γ y b Γ1 →
      IsSym r!";" s → OkClassFields Γ1 z ms Γ' → OkClassFields Γ (t :: (x ++ c :: (y ++ s :: z))) (ns ++ ms) Γ'

/-- `[':' TypeId]`, with indexes `'[' FormalParm ';'... ']' ':' TypeId`, of a property -/
inductive OkPropType : NameEnv → List Token → NameEnv → Prop
  | none {Γ} : OkPropType Γ [] Γ
  | name {Γ c t} : IsSym r!":" c → OkTypeId u Γ t → OkPropType Γ [c, t] Γ
  | array {Γ o x b c t Γ1} : IsSym r!"[" o → OkParams u Γ.opened x Γ1 → IsSym r!"]" b → IsSym r!":" c → OkTypeId u Γ1 t →
      OkPropType Γ (o :: (x ++ [b, c, t])) (Γ.closed Γ1)

/-- `[INDEX ConstExpr]` or `[DEFAULT ConstExpr]` -/
def OkSpecExpr (Γ : NameEnv) (word : Str) (ts : List Token) : Prop := ts = [] ∨ ∃ w x, ts = w :: x ∧ w.typ = .ident ∧ IsUp u word w ∧ OkExpr u Γ x

/-- One of the names.  What lower case makes of the name is in lower case. -/
def IsOneOf (ms : List Str) (t : Token) : Prop :=
  t.typ = .ident ∧ u.toLower (u.toLower t.raw) = u.toLower t.raw ∧ u.toLower t.raw ∈ ms.map u.toLower

/-- `[READ Ident]` or `[WRITE Ident]`; the names are those of the members -/
def OkAccessor (ms : List Str) (word : Str) (ts : List Token) : Prop :=
  ts = [] ∨ ∃ w t, ts = [w, t] ∧ w.typ = .ident ∧ IsUp u word w ∧ IsOneOf u ms t

/-- `[STORED (TRUE | FALSE | Ident)]` -/
def OkStored (ms : List Str) (ts : List Token) : Prop :=
  ts = [] ∨ ∃ w t, ts = [w, t] ∧ w.typ = .ident ∧ IsUp u r!"STORED" w ∧
    (u.toLower t.raw = r!"true" ∧ t.typ = .ident ∨ u.toLower t.raw = r!"false" ∧ t.typ = .ident ∨ IsOneOf u ms t)

/-- `(PROPERTY Ident Type Index Read Write Stored Default ';')...` -/
inductive OkProps (ms : List Str) : NameEnv → List Token → NameEnv → Prop
  | nil {Γ} : OkProps ms Γ [] Γ
  | cons {Γ w t x Γ1 i r v d e s y Γ'} : IsKw u r!"PROPERTY" w → t.typ = .ident → OkPropType u Γ x Γ1 → OkSpecExpr u Γ1 r!"INDEX" i →
      OkAccessor u ms r!"READ" r → OkAccessor u ms r!"WRITE" v → OkStored u ms d → OkSpecExpr u Γ1 r!"DEFAULT" e → IsSym r!";" s →
      OkProps ms Γ1 y Γ' → OkProps ms Γ (w :: t :: (x ++ (i ++ (r ++ (v ++ (d ++ (e ++ s :: y))))))) Γ'

/-- `(Visibility ClassFields Methods Properties)...`, after the members `ms`.  There are properties only with `p`. -/
inductive OkSections (p : Prop) : List Str → NameEnv → List Token → NameEnv → Prop
  | nil {ms Γ} : OkSections p ms Γ [] Γ
  | cons {ms Γ v x fs Γ1 y ns Γ2 w Γ3 z Γ'} : v.typ = .ident → IsVisibilityWord u v → OkClassFields u Γ x fs Γ1 → OkMethods u Γ1 y ns Γ2 →
      OkProps u (ms ++ (fs ++ ns)) Γ2 w Γ3 → (w ≠ [] → p) → OkSections p (ms ++ (fs ++ ns)) Γ3 z Γ' →
      OkSections p ms Γ (v :: (x ++ (y ++ (w ++ z)))) Γ'

/-- Members of a class: the visibility may be missing in front of fields. -/
inductive OkMembers (p : Prop) : NameEnv → List Token → NameEnv → Prop
  | sections {Γ x Γ'} : OkSections u p [] Γ x Γ' → OkMembers p Γ x Γ'
  | fields {Γ x fs Γ1 y ns Γ2 w Γ3 z Γ'} : x ≠ [] → OkClassFields u Γ x fs Γ1 → OkMethods u Γ1 y ns Γ2 → OkProps u (fs ++ ns) Γ2 w Γ3 →
      (w ≠ [] → p) → OkSections u p (fs ++ ns) Γ3 z Γ' → OkMembers p Γ (x ++ (y ++ (w ++ z))) Γ'

/-- The first name of a heritage is not that of a type declared before: the class has no ancestor yet. -/
def Orphan (Γ : NameEnv) (h : List Token) : Prop :=
  ∀ o t x, h = o :: t :: x → (u.toLower t.raw, .type) ∉ Γ.seen

/-- The first name of a heritage is that of a rooted or of a forward declared class. -/
def Descends (Γ : NameEnv) (h : List Token) : Prop :=
  h = [] ∨ ∃ o t x, h = o :: t :: x ∧ ((u.toLower t.raw, .rooted) ∈ Γ.sure ∨ (u.toLower t.raw, .fwd) ∈ Γ.sure)

/-- What a type declaration may have on its right side. -/
inductive OkTypeDef : NameEnv → List Token → NameSort → NameEnv → Prop
  | type {Γ x o Γ'} : OkType u Γ x o Γ' → OkTypeDef Γ x (if o = true then .ord else .plain) Γ'
  | record {Γ p r x e Γ'} : OkPacked u p → IsKw u r!"RECORD" r → OkFields u Γ x Γ' → IsKw u r!"END" e →
      OkTypeDef Γ (p ++ r :: (x ++ [e])) .plain Γ'
  | variant {Γ p r x Γ1 c y Γ2 o z e Γ'} : OkPacked u p → IsKw u r!"RECORD" r → OkFixedFields u Γ x Γ1 → IsKw u r!"CASE" c →
      OkTag u Γ1 y Γ2 → IsKw u r!"OF" o → OkVariants u Γ2 z Γ' → IsKw u r!"END" e →
      OkTypeDef Γ (p ++ r :: (x ++ c :: (y ++ o :: (z ++ [e])))) .plain Γ'
  | forward {Γ c} : IsKw u r!"CLASS" c → OkTypeDef Γ [c] .fwd Γ
  | classOf {Γ c o t} : IsKw u r!"CLASS" c → IsKw u r!"OF" o → t.typ = .ident → OkTypeDef Γ [c, o, t] .plain Γ
  | cls {Γ c h x e Γ'} : IsKw u r!"CLASS" c → OkHeritage u Γ h → OkMembers u (Orphan u Γ h) Γ x Γ' → IsKw u r!"END" e →
      OkTypeDef Γ (c :: (h ++ (x ++ [e]))) .cls Γ'
  | rooted {Γ c h x e Γ'} : IsKw u r!"CLASS" c → OkHeritage u Γ h → Descends u Γ h → OkMembers u True Γ x Γ' → IsKw u r!"END" e →
      OkTypeDef Γ (c :: (h ++ (x ++ [e]))) .rooted Γ'

/-- The name gets a type: it is not visible, or it is that of a forward declared class and the type is a class. -/
inductive OkName : NameEnv → Str → NameSort → NameEnv → Prop
  | new {Γ name o} : Γ.Unseen u name → OkName Γ name o (Γ.declareType u name o)
  | complete {Γ name o} : (u.toLower name, .fwd) ∈ Γ.sure → o = .cls ∨ o = .rooted → OkName Γ name o (Γ.completeType u name o)

/-- `(Ident '=' TypeDef ';')...` -/
inductive OkTypes : NameEnv → List Token → NameEnv → Prop
  | one {Γ t e x o Γ1 s Γ'} : t.typ = .ident → IsSym r!"=" e → OkTypeDef u Γ x o Γ1 → OkName u Γ1 t.raw o Γ' → IsSym r!";" s →
      OkTypes Γ (t :: e :: (x ++ [s])) Γ'
  | cons {Γ t e x o Γ1 s Γ2 y Γ'} : t.typ = .ident → IsSym r!"=" e → OkTypeDef u Γ x o Γ1 → OkName u Γ1 t.raw o Γ2 → IsSym r!";" s →
      OkTypes Γ2 y Γ' → OkTypes Γ (t :: e :: (x ++ s :: y)) Γ'

/-- `Ident [':' TypeId] '=' ConstExpr` -/
inductive OkConst : NameEnv → List Token → NameEnv → Prop
  | plain {Γ t e x} : t.typ = .ident → Γ.New u [t.raw] → IsSym r!"=" e → OkExpr u (Γ.declare u [t.raw]) x →
      OkConst Γ (t :: e :: x) (Γ.declare u [t.raw])
  | typed {Γ t c y e x} : t.typ = .ident → Γ.New u [t.raw] → IsSym r!":" c → OkTypeId u (Γ.declare u [t.raw]) y →
      IsSym r!"=" e → OkExpr u (Γ.declare u [t.raw]) x → OkConst Γ (t :: c :: y :: e :: x) (Γ.declare u [t.raw])

/-- `(ConstantDecl ';')...` -/
inductive OkConsts : NameEnv → List Token → NameEnv → Prop
  | one {Γ x s Γ'} : OkConst u Γ x Γ' → IsSym r!";" s → OkConsts Γ (x ++ [s]) Γ'
  | cons {Γ x s Γ1 y Γ'} : OkConst u Γ x Γ1 → IsSym r!";" s → OkConsts Γ1 y Γ' → OkConsts Γ (x ++ s :: y) Γ'

/-- `IdentList ':' Type [ABSOLUTE Ident]` or `IdentList ':' TypeId '=' ConstExpr` -/
inductive OkVar : NameEnv → List Token → NameEnv → Prop
  | plain {Γ x ns c y b Γ1} : OkIdents x ns → IsSym r!":" c → OkType u Γ y b Γ1 → Γ1.New u ns →
      OkVar Γ (x ++ c :: y) (Γ1.declare u ns)
  | init {Γ x ns c t e y} : OkIdents x ns → IsSym r!":" c → OkTypeId u Γ t → IsSym r!"=" e → OkExpr u Γ y → Γ.New u ns →
      OkVar Γ (x ++ c :: t :: e :: y) (Γ.declare u ns)
  | absolute {Γ x ns c y b Γ1 a t} : OkIdents x ns → IsSym r!":" c → OkType u Γ y b Γ1 → IsUp u r!"ABSOLUTE" a → t.typ = .ident →
      Γ1.New u ns → OkVar Γ (x ++ c :: (y ++ [a, t])) (Γ1.declare u ns)

/-- `(VarDecl ';')...` -/
inductive OkVars : NameEnv → List Token → NameEnv → Prop
  | one {Γ x s Γ'} : OkVar u Γ x Γ' → IsSym r!";" s → OkVars Γ (x ++ [s]) Γ'
  | cons {Γ x s Γ1 y Γ'} : OkVar u Γ x Γ1 → IsSym r!";" s → OkVars Γ1 y Γ' → OkVars Γ (x ++ s :: y) Γ'

/-- `(IdentList ':' Type ';')...` -/
inductive OkThreadVars : NameEnv → List Token → NameEnv → Prop
  | one {Γ x ns c y b Γ1 s} : OkIdents x ns → IsSym r!":" c → OkType u Γ y b Γ1 → Γ1.New u ns → IsSym r!";" s →
      OkThreadVars Γ (x ++ c :: (y ++ [s])) (Γ1.declare u ns)
  | cons {Γ x ns c y b Γ1 s z Γ'} : OkIdents x ns → IsSym r!":" c → OkType u Γ y b Γ1 → Γ1.New u ns → IsSym r!";" s →
      OkThreadVars (Γ1.declare u ns) z Γ' → OkThreadVars Γ (x ++ c :: (y ++ s :: z)) Γ'

/-- what follows `EXTERNAL` -/
inductive OkExternal : List Token → Prop
  | none : OkExternal []
  | lib {l} : l.typ = .charString → OkExternal [l]
  | name {l w n} : l.typ = .charString → IsWordOf u [r!"NAME"] w → n.typ = .charString → OkExternal [l, w, n]

/-- `(Directive ';')...` of a routine -/
inductive OkDirectives : List Token → Prop
  | nil : OkDirectives []
  | cons {t s ts} : t.typ = .ident → IsWordOf u directiveNames t → ¬ IsUp u r!"EXTERNAL" t → IsSym r!";" s →
      OkDirectives ts → OkDirectives (t :: s :: ts)
  | ext {t x s ts} : t.typ = .ident → IsWordOf u [r!"EXTERNAL"] t → OkExternal u x → IsSym r!";" s → OkDirectives ts →
      OkDirectives (t :: (x ++ s :: ts))

mutual
/-- `[DeclSections] [ExportsStmts] (CompoundStmt | AssemblerStmt) [ExportsStmts]` -/
inductive OkBlock : NameEnv → List Token → NameEnv → Prop
  | mk {Γ x Γ1 y Γ'} : OkSects Γ x Γ1 → OkBody u Γ1 y Γ' → OkBlock Γ (x ++ y) Γ'
inductive OkSects : NameEnv → List Token → NameEnv → Prop
  | nil {Γ} : OkSects Γ [] Γ
  | cons {Γ x Γ1 y Γ'} : OkSect Γ x Γ1 → OkSects Γ1 y Γ' → OkSects Γ (x ++ y) Γ'
/-- a section with its final semicolon -/
inductive OkSect : NameEnv → List Token → NameEnv → Prop
  | label {Γ w t s} : IsKw u r!"LABEL" w → t.typ = .ident → Γ.New u [t.raw] → IsSym r!";" s → OkSect Γ [w, t, s] (Γ.declareLabel u t.raw)
  | const {Γ w x Γ'} : IsKw u r!"CONST" w → OkConsts u Γ x Γ' → OkSect Γ (w :: x) Γ'
  | type {Γ w x Γ'} : IsKw u r!"TYPE" w → OkTypes u Γ x Γ' → OkSect Γ (w :: x) Γ'
  | var {Γ w x Γ'} : IsKw u r!"VAR" w → OkVars u Γ x Γ' → OkSect Γ (w :: x) Γ'
  | threadVar {Γ w x Γ'} : IsKw u r!"THREADVAR" w → OkThreadVars u Γ x Γ' → OkSect Γ (w :: x) Γ'
  /- `FunctionHeading ';' [Directives] Block ';'` -/
  | func {Γ x name Γ1 s d b Γ2 e} : OkHeading u Γ.opened x name Γ1 → IsSym r!";" s → Γ1.New u [name] → OkDirectives u d →
      OkBlock (Γ1.declare u [name]) b Γ2 → IsSym r!";" e → OkSect Γ (x ++ s :: (d ++ (b ++ [e]))) (Γ.closed Γ2)
end

/-- `PROGRAM Ident ';' Block '.'` -/
inductive OkProgram : List Token → Prop
  | mk {p t s x Γ' d} : IsKw u r!"PROGRAM" p → t.typ = .ident → IsSym r!";" s → OkBlock u .empty x Γ' → IsSym r!"." d →
      OkProgram (p :: t :: s :: (x ++ [d]))

/-- `Ident ','...` of a uses clause -/
inductive OkUses : NameEnv → List Token → NameEnv → Prop
  | one {Γ t} : t.typ = .ident → Γ.New u [t.raw] → OkUses Γ [t] (Γ.declareSpace u t.raw)
  | cons {Γ t c ts Γ'} : t.typ = .ident → Γ.New u [t.raw] → IsSym r!"," c → OkUses (Γ.declareSpace u t.raw) ts Γ' →
      OkUses Γ (t :: c :: ts) Γ'

/-- `[USES Ident ','... ';']` -/
inductive OkOptUses : NameEnv → List Token → NameEnv → Prop
  | none {Γ} : OkOptUses Γ [] Γ
  | some {Γ w x e Γ'} : IsKw u r!"USES" w → OkUses u Γ x Γ' → IsSym r!";" e → OkOptUses Γ (w :: (x ++ [e])) Γ'

/-- `PROGRAM Ident ';' USES Ident ','... ';' Block '.'` -/
inductive OkUsing : List Token → Prop
  | mk {p t s w x Γ e y Γ' d} : IsKw u r!"PROGRAM" p → t.typ = .ident → IsSym r!";" s → IsKw u r!"USES" w → OkUses u .empty x Γ →
      IsSym r!";" e → OkBlock u (Γ.opened.declareSpace u t.raw) y Γ' → IsSym r!"." d →
      OkUsing (p :: t :: s :: w :: (x ++ e :: (y ++ [d])))

/-- a section of an interface -/
inductive OkIntfSect : NameEnv → List Token → NameEnv → Prop
  | const {Γ w x Γ'} : IsKw u r!"CONST" w → OkConsts u Γ x Γ' → OkIntfSect Γ (w :: x) Γ'
  | type {Γ w x Γ'} : IsKw u r!"TYPE" w → OkTypes u Γ x Γ' → OkIntfSect Γ (w :: x) Γ'
  | var {Γ w x Γ'} : IsKw u r!"VAR" w → OkVars u Γ x Γ' → OkIntfSect Γ (w :: x) Γ'
  | threadVar {Γ w x Γ'} : IsKw u r!"THREADVAR" w → OkThreadVars u Γ x Γ' → OkIntfSect Γ (w :: x) Γ'
  /- `FunctionHeading ';' [Directives]` -/
  | heading {Γ x name Γ1 s d} : OkHeading u Γ.opened x name Γ1 → IsSym r!";" s → Γ1.New u [name] → OkDirectives u d →
      OkIntfSect Γ (x ++ s :: d) (Γ.closed (Γ1.declare u [name]))
inductive OkIntf : NameEnv → List Token → NameEnv → Prop
  | nil {Γ} : OkIntf Γ [] Γ
  | cons {Γ x Γ1 y Γ'} : OkIntfSect u Γ x Γ1 → OkIntf Γ1 y Γ' → OkIntf Γ (x ++ y) Γ'

/-- the sections of an implementation and its `EXPORTS` statements -/
inductive OkImpl : NameEnv → List Token → NameEnv → Prop
  | mk {Γ x Γ' y} : OkSects u Γ x Γ' → OkExports u Γ' y → OkImpl Γ (x ++ y) Γ'

/-- `StmtList` -/
def OkStmts (Γ : NameEnv) (ts : List Token) (Γ' : NameEnv) : Prop :=
  Γ.LabelsKnown u ts ∧ ∃ l, DStmts u (NameEnv.env u) True (OkHandlerType u) Γ l ts Γ'

/-- `[INITIALIZATION StmtList [FINALIZATION StmtList]]` -/
inductive OkInitPart : NameEnv → List Token → Prop
  | none {Γ} : OkInitPart Γ []
  | init {Γ w x Γ1} : IsKw u r!"INITIALIZATION" w → OkStmts u Γ x Γ1 → OkInitPart Γ (w :: x)
  | both {Γ w x Γ1 f y Γ2} : IsKw u r!"INITIALIZATION" w → OkStmts u Γ x Γ1 → IsKw u r!"FINALIZATION" f → OkStmts u Γ1 y Γ2 →
      OkInitPart Γ (w :: (x ++ f :: y))

/-- `UNIT Ident ';' INTERFACE [UsesClause] ... IMPLEMENTATION [UsesClause] ... [InitSection] END '.'`, where no used unit is read -/
inductive OkUnit : List Token → Prop
  | mk {w t s i x Γ1 y Γ2 m z Γ3 v Γ4 q e d} : IsKw u r!"UNIT" w → t.typ = .ident → IsSym r!";" s → IsKw u r!"INTERFACE" i →
      OkOptUses u .empty x Γ1 → OkIntf u Γ1 y Γ2 → IsKw u r!"IMPLEMENTATION" m → OkOptUses u Γ2 z Γ3 → OkImpl u Γ3 v Γ4 →
      OkInitPart u Γ4 q → IsKw u r!"END" e → IsSym r!"." d →
      OkUnit (w :: t :: s :: i :: (x ++ (y ++ m :: (z ++ (v ++ (q ++ [e, d]))))))

end

end TP.Spec
