import Verif.Model.Stmt
import Verif.Model.DeclMap

/-!
# Model of `parser/type*.go`, `parser/function_heading.go`, `parser/ident_list.go` and of the nodes of `ast/type*.go`

Lists that the parser never makes empty are types without an empty list where that is possible.

`TraceMethod` (`parser/base.go:113-116`) calls a method of the current token at the start and, deferred, at the end of
a function, which panics for a nil token.  Simplification: a function that returns an error is modelled as returning
the error, although the deferred call would panic if the current token is nil.
-/

namespace TP

/-- The field `Ref` of a `TypeId`, which may be set later (`parser/type.go:180-191`). -/
inductive TRef (δ : Type)
  /-- nil -/
  | none
  | now (d : δ)
  /-- nil, unless `RunPostSectionFuncs` has set it: the number is that of the pending reference -/
  | later (i : Nat)
  deriving DecidableEq, Repr

/-- `TypeId`, `ast/type_id.go:12-17` -/
structure TypeId (δ : Type) where
  unit : Option Ident
  ident : Ident
  ref : TRef δ
  deriving DecidableEq, Repr

/-- `EnumeratedTypeElement`, `ast/type_simple.go:134-138` -/
structure EnumElem (δ : Type) where
  ident : Ident
  expr : Option (Expr δ)

/-- `FormalParmOption`, `ast/function_heading.go:98-104` -/
inductive ParmOpt
  | var | const | out
  deriving DecidableEq, Repr

/-- `ClassVisibility`, `ast/type_class.go:235-243` -/
inductive Visibility
  | dflt | priv | prot | pub | published
  deriving DecidableEq, Repr

/-- `PropertyStoredSpecifier`, `ast/type_class.go:559-562` -/
inductive Stored (δ : Type)
  | const (b : Bool)
  | ref (r : IdentRef δ)

/-- `PropertyDefaultSpecifier`, `ast/type_class.go:574-577` -/
inductive PropDefault (δ : Type)
  | value (e : Expr δ)
  | noDefault

mutual
/-- The implementations of `Type`, `ast/type.go:81-84`. -/
inductive PType (δ : Type)
  /-- a nil `Type` -/
  | nil
  | id (t : TypeId δ)
  /-- `EnumeratedType`, `ast/type_simple.go:119` -/
  | enum (es : List (EnumElem δ))
  /-- `SubrangeType`, `ast/type_simple.go:157-161` -/
  | subrange (lo hi : Expr δ)
  /-- `CustomPointerType`, `ast/type_pointer.go:28-30` -/
  | pointer (t : TypeId δ)
  /-- `FixedStringType`, `ast/type_string.go:29-32` -/
  | fixedString (i : Ident) (len : Expr δ)
  /-- `ArrayType`, `ast/type_struc.go:22-26`; without index types if the list is `none` -/
  | array (packed : Bool) (index : OptPTypes δ) (base : PType δ)
  /-- `SetType`, `ast/type_struc.go:46-49` -/
  | set (packed : Bool) (elem : PType δ)
  /-- `FileType`, `ast/type_struc.go:64-67` -/
  | file (packed : Bool) (t : TypeId δ)
  /-- `RecType`, `ast/type_struc.go:82-85` -/
  | record (packed : Bool) (fl : FieldList δ)
  /-- `ProcedureType`, `ast/type_procedure.go:14-19` -/
  | proc (fn : Bool) (params : OptParams δ) (ret : Option (TypeId δ)) (ofObject : Bool)
  /-- `ForwardDeclaredClassType`, `ast/type_class.go:25-28` -/
  | forward
  /-- `CustomClassRefType`, `ast/type_class_ref.go:8-10` -/
  | classRef (t : TypeId δ)
  /-- `CustomClassType`, `ast/type_class.go:53-56`; no heritage is the empty list -/
  | cls (heritage : List (TypeId δ)) (members : Sects δ)
/-- `IndexTypes` of an array -/
inductive OptPTypes (δ : Type)
  | none
  | some (ts : PTypes δ)
inductive PTypes (δ : Type)
  | one (t : PType δ)
  | cons (t : PType δ) (rest : PTypes δ)
/-- `FieldList`, `ast/type_struc.go:100-103` -/
inductive FieldList (δ : Type)
  | mk (fields : Fields δ) (variant : OptVariant δ)
/-- `FieldDecls`, `FieldDecl`, `ast/type_struc.go:115-135`, and `ClassFieldList`, `ClassField`,
`ast/type_class.go:249-268` -/
inductive Fields (δ : Type)
  | nil
  | cons (is : List Ident) (t : PType δ) (rest : Fields δ)
/-- `VariantSection`, `ast/type_struc.go:151-155` -/
inductive OptVariant (δ : Type)
  | none
  | some (ident : Option Ident) (t : PType δ) (vs : Variants δ)
/-- `RecVariants`, `RecVariant`, `ast/type_struc.go:170-189` -/
inductive Variants (δ : Type)
  | nil
  | cons (es : Exprs δ) (fl : FieldList δ) (rest : Variants δ)
/-- `FormalParameters` that may be nil -/
inductive OptParams (δ : Type)
  | none
  | some (ps : Params δ)
/-- `FormalParameters`, `FormalParm`, `Parameter`, `ast/function_heading.go:84-109,200-204` -/
inductive Params (δ : Type)
  | one (opt : Option ParmOpt) (is : List Ident) (t : ParamTy δ) (dflt : Option (Expr δ))
  | cons (opt : Option ParmOpt) (is : List Ident) (t : ParamTy δ) (dflt : Option (Expr δ)) (rest : Params δ)
/-- `ParameterType`, `ast/function_heading.go:168-171`, that may be nil -/
inductive ParamTy (δ : Type)
  | none
  /-- `ARRAY OF CONST` has the type `nil` -/
  | some (isArray : Bool) (t : PType δ)
/-- `ClassMemberSections`, `ClassMemberSection`, `ast/type_class.go:189-213` -/
inductive Sects (δ : Type)
  | nil
  | cons (vis : Visibility) (fields : Fields δ) (methods : Methods δ) (props : Props δ) (rest : Sects δ)
/-- `ClassMethodList`, `ClassMethod`, `ast/type_class.go:287-307` -/
inductive Methods (δ : Type)
  | nil
  | cons (h : Heading δ) (directives : List Str) (rest : Methods δ)
/-- the implementations of `ClassMethodHeading`, `ast/type_class.go:332-336`; `FunctionHeading`,
`ast/function_heading.go:54-59` -/
inductive Heading (δ : Type)
  | func (fn : Bool) (i : Ident) (ps : OptParams δ) (ret : Option (TypeId δ))
  | ctor (i : Ident) (ps : OptParams δ)
  | dtor (i : Ident)
/-- `ClassPropertyList` -/
inductive Props (δ : Type)
  | nil
  | cons (p : ClassProp δ) (rest : Props δ)
/-- `ClassProperty`, `ast/type_class.go:450-462`; `Parent` is given by the declaration of the property -/
inductive ClassProp (δ : Type)
  | mk (i : Ident) (intf : OptIntf δ) (index : Option (Expr δ)) (read write : Option (IdentRef δ))
      (stored : Option (Stored δ)) (dflt : Option (PropDefault δ)) (impl : Option (TypeId δ)) (parent : Option δ)
/-- `PropertyInterface`, `ast/type_class.go:541-544`, that may be nil -/
inductive OptIntf (δ : Type)
  | none
  | some (ps : OptParams δ) (t : TypeId δ)
end

variable {δ : Type}

/-- `append(classType.Members, section)` -/
def Sects.snoc (vis : Visibility) (fs : Fields δ) (ms : Methods δ) : Sects δ → Sects δ
  | .nil => .cons vis fs ms .nil .nil
  | .cons v f m p rest => .cons v f m p (Sects.snoc vis fs ms rest)

/-- the section before the current one is complete -/
def Sects.add (vis : Visibility) (fs : Fields δ) (ms : Methods δ) (ps : Props δ) : Sects δ → Sects δ
  | .nil => .cons vis fs ms ps .nil
  | .cons v f m p rest => .cons v f m p (Sects.add vis fs ms ps rest)

/-- What a node declares, apart from the names. -/
inductive DKind (δ : Type)
  | enumElem | const | var | threadVar | param
  | type (t : PType δ)
  | label | func | heading | handler

/-- Result of a search through classes. -/
inductive FindR (α : Type)
  | found (a : α)
  | none
  /-- does not return (cyclic ancestors) -/
  | hang

/-- What the parser of types and declarations needs of the context. -/
structure DEnv (κ δ : Type) extends Env κ δ where
  /-- `decl.Node.(*ast.LabelDeclSection)` succeeds -/
  isLabel : δ → Bool
  /-- `ast.EmbeddedTypeDecl(kind, name)`, `ast/type_embedded.go:104-106` -/
  emb : EmbKind → Str → Option δ
  /-- `p.context.Set(decl)` for a node that declares these names -/
  set : κ → List Ident → DKind δ → SetR κ
  /-- `parser/type.go:77-86`: the declaration `old` is a `TypeDecl`; it has to be a forward declaration completed by the
  type, and the new declaration overwrites it -/
  complete : κ → δ → Ident → PType δ → SetR κ
  /-- `p.context.StackDeclMap()` -/
  stack : κ → κ
  /-- the function returned by `StackDeclMap`, called in the second state; the first is the state in which
  `StackDeclMap` was called -/
  restore : κ → κ → κ
  /-- `p.AddPostSection` with the function of `parser/type.go:182-187` -/
  newRef : κ → Str → κ × Nat
  /-- `p.SetupPostSectionFuncs()`, `parser/base.go:128-132` -/
  openSection : κ → κ
  /-- `p.RunPostSectionFuncs()`, `parser/base.go:138-142` -/
  runSection : κ → κ
  /-- the function returned by `SetupPostSectionFuncs`; the first state is that in which it was called -/
  closeSection : κ → κ → κ
  /-- `typ.(ast.OrdinalType)` and `IsOrdinalType()`, `parser/type_simple.go:129-135`; `none` does not return -/
  ordinal : κ → PType δ → Option Bool
  /-- `classType.FindMemberDecl(name, true)` for a class with this heritage and these members -/
  findMember : κ → List (TypeId δ) → Sects δ → Str → FindR δ
  /-- `classType.FindProperty(name, true)` -/
  findProp : κ → List (TypeId δ) → Sects δ → Str → FindR δ
  /-- `res.InheritsFrom(parentProp)`, `ast/type_class.go:525-535`, for a parent that is not nil -/
  inherits : κ → ClassProp δ → δ → Bool

/-- `token.Directive`, `token/directives.go:22-24, 35, 48-93` -/
def directiveNames : List Str :=
  [r!"ABSTRACT", r!"CDECL", r!"DYNAMIC", r!"EXPORT", r!"EXTERNAL", r!"FAR", r!"FORWARD", r!"INDEX", r!"LOCAL",
   r!"MESSAGE", r!"NAME", r!"NEAR", r!"OVERLOAD", r!"OVERRIDE", r!"PASCAL", r!"REGISTER", r!"REINTRODUCE",
   r!"SAFECALL", r!"STDCALL", r!"VARARGS"]

/-- `portabilityDirectives`, `token/directives.go:95-99` -/
def portabilityNames : List Str := [r!"PLATFORM", r!"DEPRECATED", r!"LIBRARY"]

/-- `DirectivePredicator`, `token/directives.go:22-24` -/
def Pred.directive (u : Uni) (names : List Str) : Pred := fun t => names.contains (u.toUpper t.raw)

/-- `ClassMethodDirectives`, `ast/type_class.go:354-382` -/
def methodDirectives : List Str :=
  [r!"ABSTRACT", r!"VIRTUAL", r!"OVERRIDE", r!"OVERLOAD", r!"REINTRODUCE"]

/-- `visibilityBreak`, `parser/type_class.go:159-164` -/
def visibilityBreak (u : Uni) : Pred := Pred.some
  [Pred.upperCase u r!"PRIVATE", Pred.upperCase u r!"PROTECTED", Pred.upperCase u r!"PUBLIC",
   Pred.upperCase u r!"PUBLISHED"]
/-- `propertyBreak`, `parser/type_class.go:166-169` -/
def propertyBreak (u : Uni) : Pred := Pred.some [visibilityBreak u, kw u r!"END"]
/-- `methodBreak`, `parser/type_class.go:170-173` -/
def methodBreak (u : Uni) : Pred := Pred.some [kw u r!"PROPERTY", propertyBreak u]
/-- `fieldListBreak`, `parser/type_class.go:174-180` -/
def fieldListBreak (u : Uni) : Pred := Pred.some
  [kw u r!"FUNCTION", kw u r!"PROCEDURE", kw u r!"CONSTRUCTOR", kw u r!"DESTRUCTOR", methodBreak u]

section
variable {κ : Type} (u : Uni) (D : DEnv κ δ)

/-- `p.context.Set(decl)` with its error returned -/
def setDecl (is : List Ident) (k : DKind δ) : P κ Unit := fun s =>
  match D.set s.cx is k with
  | .ok c => .ok () { s with cx := c }
  | .err => .err
  | .panic => .panic

/-- `defer p.TraceMethod(name)()`, `parser/base.go:113-116` -/
def traced {α : Type} (p : P κ α) : P κ α := do
  let _ ← P.cur
  let a ← p
  let _ ← P.cur
  pure a

/-- `defer p.context.StackDeclMap()()` -/
def stacked {α : Type} (p : P κ α) : P κ α := fun s =>
  match p { s with cx := D.stack s.cx } with
  | .ok a s' => .ok a { s' with cx := D.restore s.cx s'.cx }
  | .err => .err
  | .panic => .panic
  | .wait => .wait

/-- `Current(pred)` whose error is replaced by `TokenErrorf(…, p.CurrentToken())`: a nil token panics
(`parser/base.go:118-122`), as in `parser/type_struc.go:63-65` -/
def currentP (pred : Pred) : P κ Token := do
  let t ← P.cur
  if pred t then pure t else P.fail

/-- `ParseIdentListBy`, `parser/ident_list.go:12-30`, with the loop of `Until` -/
def parseIdents (terminator : Pred) : Nat → P κ (List Ident)
  | 0 => P.wait
  | n + 1 => do
    let t ← P.current (Pred.typ .ident)
    P.next
    match ← P.cur? with
    | none => P.fail
    | some t' =>
      if terminator t' then pure [Ident.ofTok t]
      else if sym r!"," t' then do
        P.next
        let rest ← parseIdents terminator n
        pure (Ident.ofTok t :: rest)
      else P.fail

/-- `parseTypeIdWithUnit`, `parser/type.go:160-173`, with `IsUnitIdentifier` (`parser/unit.go:8-17`) -/
def parseTypeIdWithUnit : P κ (Option (TypeId δ)) := do
  let t ← P.cur
  let d? ← getDecl D.toEnv (t.value u)
  if (match d? with | some d => D.isUses d | none => false) then do
    let _ ← P.nextIs (sym r!".")
    let t2 ← P.nextIs (Pred.typ .ident)
    pure (some ⟨some (Ident.ofTok t), Ident.ofTok t2, .none⟩)
  else pure none

/-- `p.AddPostSection(func() {…})`, `parser/type.go:182-187` -/
def newRef (name : Str) : P κ Nat := fun s =>
  let r := D.newRef s.cx name
  .ok r.2 { s with cx := r.1 }

/-- `parseTypeIdWithoutUnit`, `parser/type.go:175-194` -/
def parseTypeIdWithoutUnit : P κ (TypeId δ) := do
  let t ← P.cur
  P.next
  match ← getDecl D.toEnv t.raw with
  | some d => pure ⟨none, Ident.ofTok t, .now d⟩
  | none => do
    let i ← newRef D t.raw
    pure ⟨none, Ident.ofTok t, .later i⟩

/-- `ParseTypeId`, `parser/type.go:152-158` -/
def parseTypeId : P κ (TypeId δ) := do
  match ← parseTypeIdWithUnit u D with
  | some t => pure t
  | none => parseTypeIdWithoutUnit D

/-- `ParseCustomPointerType`, `parser/type.go:196-206` -/
def parsePointer : P κ (PType δ) := do
  let _ ← P.current (sym r!"^")
  P.next
  let t ← parseTypeId u D
  pure (.pointer t)

/-- `ParseRealType(false)`, `ParseOrdIdent(false)`, `parser/type_simple.go:9-33`, and `ParseStringType(false)`,
`parser/type_string.go:8-19` -/
def parseEmb (k : EmbKind) : P κ (Option (PType δ)) := do
  let t ← P.cur
  match D.emb k (t.value u) with
  | some d => do
    P.next
    pure (some (.id ⟨none, Ident.ofTok t, .now d⟩))
  | none => pure none

/-- `NewConstExpr` of a `QualId` (`ast/expression.go:19-28, 114-123, 178-187, 286-293, 326-347`) -/
def qualExpr (q : QualId δ) : Expr δ :=
  .mk (.mk none (.mk (.desig (.mk q .nil)) .nil) .nil) .nil

/-- `parseSubrangeTypeForIdentifier(false)`, `parser/type_simple.go:35-59` -/
def parseSubrangeIdent (n : Nat) : P κ (Option (PType δ)) := do
  let s0 ← rollbackPoint
  let t1 ← P.cur
  P.next
  if ← P.is (Pred.value u r!"..") then do
    P.next
    let e ← parseExpr u D.toEnv n
    let r ← getDecl D.toEnv t1.raw
    pure (some (.subrange (qualExpr ⟨none, ⟨Ident.ofTok t1, r⟩⟩) e))
  else do
    rollbackTo D.toEnv s0
    pure none

/-- `ParseTypeForIdentifier`, `parser/type.go:136-150` -/
def parseTypeForIdent (n : Nat) : P κ (PType δ) := do
  match ← parseTypeIdWithUnit u D with
  | some t => pure (.id t)
  | none =>
    match ← parseEmb u D .real with
    | some t => pure t
    | none =>
      match ← parseEmb u D .ordIdent with
      | some t => pure t
      | none =>
        match ← parseEmb u D .string with
        | some t => pure t
        | none =>
          match ← parseSubrangeIdent u D n with
          | some t => pure t
          | none => do
            let t ← parseTypeIdWithoutUnit D
            pure (.id t)

/-- `ParseConstSubrageType`, `parser/type_simple.go:61-78` -/
def parseConstSubrange (n : Nat) : P κ (PType δ) := do
  let lo ← parseExpr u D.toEnv n
  let _ ← P.current (Pred.value u r!"..")
  P.next
  let hi ← parseExpr u D.toEnv n
  pure (.subrange lo hi)

/-- `ParseEnumeratedTypeElement`, `parser/type_simple.go:101-121` -/
def parseEnumElem (n : Nat) : P κ (EnumElem δ) := do
  let t ← P.nextIs (Pred.typ .ident)
  P.next
  let e ← (do
    if ← P.is (sym r!"=") then do
      P.next
      let e ← parseExpr u D.toEnv n
      pure (some e)
    else pure none)
  setDecl D [Ident.ofTok t] .enumElem
  pure ⟨Ident.ofTok t, e⟩

/-- the loop of `ParseEnumeratedType`, `parser/type_simple.go:82-96` -/
def parseEnumElems : Nat → P κ (List (EnumElem δ))
  | 0 => P.wait
  | n + 1 => do
    let e ← parseEnumElem u D n
    let t ← P.cur
    if sym r!")" t then pure [e]
    else if sym r!"," t then do
      let rest ← parseEnumElems n
      pure (e :: rest)
    else P.fail

/-- `ParseEnumeratedType`, `parser/type_simple.go:80-99` -/
def parseEnum (n : Nat) : P κ (PType δ) := do
  let es ← parseEnumElems u D n
  P.next
  pure (.enum es)

/-- `ParseStringOfStringType`, `parser/type_string.go:22-43` -/
def parseStringType (n : Nat) : P κ (PType δ) := do
  let t ← P.cur
  match D.emb .string (t.value u) with
  | none => pure .nil
  | some d => do
    P.next
    if ← P.is (sym r!"[") then do
      P.next
      let e ← parseExpr u D.toEnv n
      let _ ← P.current (sym r!"]")
      P.next
      pure (.fixedString (Ident.ofTok t) e)
    else pure (.id ⟨none, Ident.ofTok t, .now d⟩)

/-- `ParseFileType`, `parser/type_struc.go:283-304`; the check for `PACKED` in lines 285-288 is never true because
`ParseStrucType` has seen the word `FILE` -/
def parseFile (packed : Bool) : P κ (PType δ) := do
  let _ ← currentP (kw u r!"FILE")
  P.next
  let _ ← currentP (kw u r!"OF")
  P.next
  let t ← parseTypeId u D
  pure (.file packed t)

/-- `parser/type_class.go:22-38`: after `CLASS`, the current token is `OF` -/
def parseClassRef : P κ (PType δ) := do
  let t ← P.nextIs (Pred.typ .ident)
  let d? ← getDecl D.toEnv (t.value u)
  pure (.classRef ⟨none, Ident.ofTok t,
    match d? with
    | some d => if D.isType d then .now d else .none
    | none => .none⟩)

/-- loop of `ParseClassHeritage`, `parser/type_class.go:72-81` -/
def parseTypeIds : Nat → P κ (List (TypeId δ))
  | 0 => P.wait
  | n + 1 => do
    let t ← parseTypeId u D
    match ← P.cur? with
    | none => P.fail
    | some c =>
      if sym r!")" c then pure [t]
      else if sym r!"," c then do
        P.next
        let rest ← parseTypeIds n
        pure (t :: rest)
      else P.fail

/-- `ParseClassHeritage`, `parser/type_class.go:63-84` -/
def parseHeritage (n : Nat) : P κ (List (TypeId δ)) := traced do
  if ← P.is (sym r!"(") then do
    P.next
    let l ← parseTypeIds u D n
    P.next
    pure l
  else pure []

/-- the loop of `ClassMethodDirectiveList`, `parser/type_class.go:297-308`; `Include` is `ast/type_class.go:366-374` -/
def parseMethodDirectives : Nat → P κ (List Str)
  | 0 => P.wait
  | n + 1 => do
    let t ← P.cur
    let w := u.toUpper (t.value u)
    if methodDirectives.contains (u.toUpper w) then do
      P.next
      match ← P.cur? with
      | none => P.fail
      | some c =>
        if methodBreak u c then pure [w]
        else if sym r!";" c then do
          P.next
          let rest ← parseMethodDirectives n
          pure (w :: rest)
        else P.fail
    else pure []

/-- an optional semicolon -/
def optSemi : P κ Unit := do
  if ← P.is (sym r!";") then P.next

/-- `ClassMethodDirectiveList`, `parser/type_class.go:289-310` -/
def parseMethodDirectiveList (n : Nat) : P κ (List Str) := do
  optSemi
  traced (parseMethodDirectives u n)

/-- the visibility of a section, `parser/type_class.go:107-126` -/
def parseVisibility : P κ Visibility := do
  let t ← P.current (Pred.typ .ident)
  let w := u.toUpper (t.value u)
  if w = r!"PRIVATE" then do
    P.next
    pure .priv
  else if w = r!"PROTECTED" then do
    P.next
    pure .prot
  else if w = r!"PUBLIC" then do
    P.next
    pure .pub
  else if w = r!"PUBLISHED" then do
    P.next
    pure .published
  else pure .dflt

/-- `ParseDestructorHeading`, `parser/type_class.go:334-346` -/
def parseDestructor : P κ (Heading δ) := traced do
  let _ ← P.current (kw u r!"DESTRUCTOR")
  P.next
  let t ← P.cur
  P.next
  pure (.dtor (Ident.ofTok t))

/-- `classType.FindMemberDecl(name, true)`; nil gives an error -/
def findMember (h : List (TypeId δ)) (ms : Sects δ) (name : Str) : P κ δ := fun s =>
  match D.findMember s.cx h ms name with
  | .found d => .ok d s
  | .none => .err
  | .hang => .wait

/-- `classType.FindProperty(name, true)` -/
def findProp (h : List (TypeId δ)) (ms : Sects δ) (name : Str) : P κ (Option δ) := fun s =>
  match D.findProp s.cx h ms name with
  | .found d => .ok (some d) s
  | .none => .ok none s
  | .hang => .wait

/-- an accessor `READ Ident` or `WRITE Ident`, `parser/type_class.go:414-438` -/
def parseAccessor (h : List (TypeId δ)) (ms : Sects δ) (word : Str) : P κ (Option (IdentRef δ)) := do
  if ← P.is (Pred.upperCase u word) then do
    P.next
    let t ← P.cur
    let d ← findMember D h ms (t.value u)
    P.next
    pure (some ⟨Ident.ofTok t, some d⟩)
  else pure none

/-- `INDEX ConstExpr`, `parser/type_class.go:395-404` -/
def parsePropIndex (n : Nat) : P κ (Option (Expr δ)) := do
  if ← P.is (Pred.upperCase u r!"INDEX") then do
    P.next
    let e ← parseExpr u D.toEnv n
    pure (some e)
  else pure none

/-- `STORED (Ident | Constant)`, `parser/type_class.go:442-459` -/
def parseStored (h : List (TypeId δ)) (ms : Sects δ) : P κ (Option (Stored δ)) := do
  if ← P.is (Pred.upperCase u r!"STORED") then do
    P.next
    let t ← P.cur
    let v := u.toLower (t.value u)
    if v = r!"true" then do
      P.next
      pure (some (.const true))
    else if v = r!"false" then do
      P.next
      pure (some (.const false))
    else do
      let d ← findMember D h ms v
      P.next
      pure (some (.ref ⟨Ident.ofTok t, some d⟩))
  else pure none

/-- `(DEFAULT ConstExpr) | NODEFAULT`, `parser/type_class.go:463-476`; the word `NODEFAULT` is not consumed -/
def parseDefault (n : Nat) : P κ (Option (PropDefault δ)) := do
  if ← P.is (Pred.upperCase u r!"DEFAULT") then do
    P.next
    let e ← parseExpr u D.toEnv n
    pure (some (.value e))
  else if ← P.is (Pred.upperCase u r!"NODEFAULT") then pure (some .noDefault)
  else pure none

/-- `IMPLEMENTS TypeId`, `parser/type_class.go:481-489`; the word itself is read as the type -/
def parseImplements : P κ (Option (TypeId δ)) := do
  if ← P.is (Pred.upperCase u r!"IMPLEMENTS") then do
    let t ← parseTypeId u D
    pure (some t)
  else pure none

/-- `typ.(ast.OrdinalType)` and `IsOrdinalType()`, `parser/type_simple.go:129-135` -/
def checkOrdinal (t : PType δ) : P κ Unit := fun s =>
  match D.ordinal s.cx t with
  | some true => .ok () s
  | some false => .err
  | none => .wait

/-- `t.Value()` of the first token of a parameter, `parser/function_heading.go:187-200` -/
def parseParmOpt : P κ (Option ParmOpt) := do
  let t ← P.cur
  if t.typ = .reserved then
    if t.value u = r!"VAR" then do
      P.next
      pure (some .var)
    else if t.value u = r!"CONST" then do
      P.next
      pure (some .const)
    else if t.value u = r!"OUT" then do
      P.next
      pure (some .out)
    else P.fail
  else pure none

/-- `['=' ConstExpr]`, `parser/function_heading.go:254-261` -/
def parseParmDefault (n : Nat) : P κ (Option (Expr δ)) := do
  if ← P.is (sym r!"=") then do
    P.next
    let e ← parseExpr u D.toEnv n
    pure (some e)
  else pure none

/-- `[':' TypeId]` of a function heading or function type, `parser/function_heading.go:148-158` -/
def parseReturn (fn : Bool) : P κ (Option (TypeId δ)) :=
  if fn then do
    let _ ← P.current (sym r!":")
    P.next
    let t ← parseTypeId u D
    pure (some t)
  else pure none

/-- `FUNCTION` or `PROCEDURE`, `parser/function_heading.go:122-130` -/
def parseFuncWord : P κ Bool := do
  let t ← P.cur
  if t.value u = r!"FUNCTION" then pure true
  else if t.value u = r!"PROCEDURE" then pure false
  else P.fail

/-- `[OF OBJECT]`, `parser/type_procedure.go:43-50` -/
def parseOfObject : P κ Bool := do
  if ← P.is (kw u r!"OF") then do
    P.next
    let _ ← P.current (kw u r!"OBJECT")
    P.next
    pure true
  else pure false

/-- `parser/type_struc.go:210-221`: the name of a variant part -/
def parseVariantIdent : P κ (Option Ident) := do
  let s0 ← rollbackPoint
  let t ← P.current (Pred.typ .ident)
  P.next
  if ← P.is (sym r!":") then do
    P.next
    pure (some (Ident.ofTok t))
  else do
    rollbackTo D.toEnv s0
    pure none

/-- loop of `ParseRecVariant` over the constants, `parser/type_struc.go:257-266` -/
def parseConstExprs : Nat → P κ (Exprs δ)
  | 0 => P.wait
  | n + 1 => do
    let e ← parseExpr u D.toEnv n
    match ← P.cur? with
    | none => P.fail
    | some t =>
      if sym r!":" t then pure (.one e)
      else if sym r!"," t then do
        P.next
        let rest ← parseConstExprs n
        pure (.cons e rest)
      else P.fail

mutual
/-- `ParseType`, `parser/type.go:108-134` -/
def parseType : Nat → P κ (PType δ)
  | 0 => P.wait
  | n + 1 => do
    let t ← P.cur
    if t.typ = .symbol then
      if sym r!"(" t then parseEnum u D n
      else if sym r!"^" t then parsePointer u D
      else P.fail
    else if t.typ = .ident then parseTypeForIdent u D n
    else if t.typ = .numInt ∨ t.typ = .numReal ∨ t.typ = .charString then parseConstSubrange u D n
    else if t.typ = .reserved then
      if [r!"PACKED", r!"ARRAY", r!"SET", r!"RECORD", r!"FILE"].contains (t.value u) then parseStruc n
      else if [r!"FUNCTION", r!"PROCEDURE"].contains (t.value u) then parseProcType n
      else if t.value u = r!"CLASS" then parseClassOrRef n
      else parseStringType u D n
    else P.fail

/-- `ParseStrucType`, `parser/type_struc.go:9-55` -/
def parseStruc : Nat → P κ (PType δ)
  | 0 => P.wait
  | n + 1 => do
    let packed ← (do
      if ← P.is (kw u r!"PACKED") then do
        P.next
        pure true
      else pure false)
    let t ← P.cur
    if t.value u = r!"ARRAY" then parseArray packed n
    else if t.value u = r!"SET" then parseSet packed n
    else if t.value u = r!"RECORD" then parseRec packed n
    else if t.value u = r!"FILE" then parseFile u D packed
    else P.fail

/-- `ParseArrayType`, `parser/type_struc.go:57-101`; lines 59-62 never apply, see `parseFile` -/
def parseArray (packed : Bool) : Nat → P κ (PType δ)
  | 0 => P.wait
  | n + 1 => do
    let _ ← currentP (kw u r!"ARRAY")
    P.next
    let ix ← parseIndex n
    let _ ← currentP (kw u r!"OF")
    P.next
    let base ← parseType n
    if ← P.is (kw u r!"PACKED") then do
      P.next
      pure (.array true ix base)
    else pure (.array packed ix base)

/-- `parser/type_struc.go:68-83` -/
def parseIndex : Nat → P κ (OptPTypes δ)
  | 0 => P.wait
  | n + 1 => do
    if ← P.is (sym r!"[") then do
      P.next
      let ts ← parseIndexTypes n
      P.next
      pure (.some ts)
    else pure .none

/-- the loop `parser/type_struc.go:71-80`, with `ParseTypeAsOrdinalType`, `parser/type_simple.go:123-136` -/
def parseIndexTypes : Nat → P κ (PTypes δ)
  | 0 => P.wait
  | n + 1 => do
    let t ← parseType n
    checkOrdinal D t
    match ← P.cur? with
    | none => P.fail
    | some c =>
      if sym r!"]" c then pure (.one t)
      else if sym r!"," c then do
        P.next
        let rest ← parseIndexTypes n
        pure (.cons t rest)
      else P.fail

/-- `ParseSetType`, `parser/type_struc.go:103-124` -/
def parseSet (packed : Bool) : Nat → P κ (PType δ)
  | 0 => P.wait
  | n + 1 => do
    let _ ← currentP (kw u r!"SET")
    P.next
    let _ ← currentP (kw u r!"OF")
    P.next
    let t ← parseType n
    checkOrdinal D t
    pure (.set packed t)

/-- `ParseRecType`, `parser/type_struc.go:126-147` -/
def parseRec (packed : Bool) : Nat → P κ (PType δ)
  | 0 => P.wait
  | n + 1 => do
    let _ ← currentP (kw u r!"RECORD")
    P.next
    let fl ← parseFieldList (kw u r!"END") n
    let _ ← P.current (kw u r!"END")
    pure (.record packed fl)

/-- `ParseFieldList`, `parser/type_struc.go:149-179` -/
def parseFieldList (terminator : Pred) : Nat → P κ (FieldList δ)
  | 0 => P.wait
  | n + 1 => do
    let fs ← parseFields terminator n
    if ← P.is (kw u r!"CASE") then do
      let v ← parseVariant n
      pure (.mk fs v)
    else if ← P.is terminator then pure (.mk fs .none)
    else do
      P.next
      pure (.mk fs .none)

/-- the loop `parser/type_struc.go:153-165`, with `ParseFieldDecl`, lines 181-200 -/
def parseFields (terminator : Pred) : Nat → P κ (Fields δ)
  | 0 => P.wait
  | n + 1 => do
    let t ← P.cur
    if kw u r!"CASE" t || terminator t then pure .nil
    else do
      let is ← parseIdents (sym r!":") n
      P.next
      let ty ← parseType n
      if ← P.is terminator then pure (.cons is ty .nil)
      else do
        let _ ← P.current (sym r!";")
        P.next
        let rest ← parseFields terminator n
        pure (.cons is ty rest)

/-- `ParseVariantSection`, `parser/type_struc.go:202-253` -/
def parseVariant : Nat → P κ (OptVariant δ)
  | 0 => P.wait
  | n + 1 => do
    let _ ← currentP (kw u r!"CASE")
    P.next
    let i ← parseVariantIdent D
    let t ← parseType n
    checkOrdinal D t
    let _ ← currentP (kw u r!"OF")
    P.next
    let vs ← parseVariants n
    pure (.some i t vs)

/-- the loop `parser/type_struc.go:236-248`, with `ParseRecVariant`, lines 255-281 -/
def parseVariants : Nat → P κ (Variants δ)
  | 0 => P.wait
  | n + 1 => do
    if ← P.is (kw u r!"END") then pure .nil
    else do
      let es ← parseConstExprs u D n
      let _ ← P.nextIs (sym r!"(")
      P.next
      let fl ← parseFieldList (sym r!")") n
      P.next
      match ← P.cur? with
      | none => P.fail
      | some t =>
        if kw u r!"END" t then pure (.cons es fl .nil)
        else if sym r!";" t then do
          P.next
          let rest ← parseVariants n
          pure (.cons es fl rest)
        else P.fail

/-- `ParseProcedureType`, `parser/type_procedure.go:8-53` -/
def parseProcType : Nat → P κ (PType δ)
  | 0 => P.wait
  | n + 1 => do
    let fn ← parseFuncWord u
    stacked D (do
      P.next
      let ps ← parseOptParams r!"(" r!")" n
      let r ← parseReturn u D fn
      let o ← parseOfObject u
      pure (.proc fn ps r o))

/-- `if t.Is(token.Symbol('(')) { p.ParseFormalParameters('(', ')') }`, `parser/type_procedure.go:24-30` -/
def parseOptParams (open' close : Str) : Nat → P κ (OptParams δ)
  | 0 => P.wait
  | n + 1 => do
    if ← P.is (sym open') then do
      let ps ← parseParams open' close n
      pure (.some ps)
    else pure .none

/-- `ParseFormalParameters`, `parser/function_heading.go:162-183` -/
def parseParams (open' close : Str) : Nat → P κ (Params δ)
  | 0 => P.wait
  | n + 1 => do
    let _ ← P.current (sym open')
    P.next
    let ps ← parseParamList close n
    let _ ← P.current (sym close)
    P.next
    pure ps

/-- the loop `parser/function_heading.go:168-177`, with `ParseFormalParm`, lines 185-210, and `ParseParameter`,
lines 212-266 -/
def parseParamList (close : Str) : Nat → P κ (Params δ)
  | 0 => P.wait
  | n + 1 => do
    let opt ← parseParmOpt u
    let is ← parseIdents (Pred.some [sym r!":", sym r!";", sym close]) n
    let ty ← parseParamTy n
    let e ← parseParmDefault u D n
    let _ ← P.current (Pred.some [sym r!";", sym close])
    setDecl D is .param
    match ← P.cur? with
    | none => P.fail
    | some t =>
      if sym close t then pure (.one opt is ty e)
      else if sym r!";" t then do
        P.next
        let rest ← parseParamList close n
        pure (.cons opt is ty e rest)
      else P.fail

/-- `parser/function_heading.go:232-253` -/
def parseParamTy : Nat → P κ (ParamTy δ)
  | 0 => P.wait
  | n + 1 => do
    if ← P.is (sym r!":") then do
      P.next
      if ← P.is (kw u r!"ARRAY") then do
        let _ ← P.nextIs (kw u r!"OF")
        P.next
        if ← P.is (kw u r!"CONST") then do
          P.next
          pure (.some true .nil)
        else do
          let t ← parseType n
          pure (.some true t)
      else do
        let t ← parseType n
        pure (.some false t)
    else pure .none

/-- `ParseClassTypeOrClassRefType`, `parser/type_class.go:11-41` -/
def parseClassOrRef : Nat → P κ (PType δ)
  | 0 => P.wait
  | n + 1 => traced do
    let _ ← P.current (kw u r!"CLASS")
    P.next
    if ← P.is (sym r!";") then pure .forward
    else if ← P.is (kw u r!"OF") then parseClassRef u D
    else parseClass n

/-- `ParseClassType`, `parser/type_class.go:43-61`, with `ParseClassMemberSections`, lines 86-99 -/
def parseClass : Nat → P κ (PType δ)
  | 0 => P.wait
  | n + 1 => traced do
    let h ← parseHeritage u D n
    if ← P.is (kw u r!"END") then pure (.cls h .nil)
    else if ← P.is (sym r!";") then pure (.cls h .nil)
    else do
      let ms ← traced (parseSects h .nil n)
      pure (.cls h ms)

/-- the loop `parser/type_class.go:90-97`; `prev` are the sections before -/
def parseSects (h : List (TypeId δ)) (prev : Sects δ) : Nat → P κ (Sects δ)
  | 0 => P.wait
  | n + 1 => do
    let ms ← traced (parseSect h prev n)
    match ← P.cur? with
    | none => P.fail
    | some t => if kw u r!"END" t then pure ms else parseSects h ms n

/-- `ParseClassMemberSection`, `parser/type_class.go:101-156`, with `ParseClassFieldList`, lines 183-202, and
`ParseClassMethodList`, lines 221-242.  The result is the list of members with the section appended. -/
def parseSect (h : List (TypeId δ)) (prev : Sects δ) : Nat → P κ (Sects δ)
  | 0 => P.wait
  | n + 1 => do
    let vis ← parseVisibility u
    if ← P.is (kw u r!"END") then pure (prev.add vis .nil .nil .nil)
    else do
      let fs ← traced (parseClassFields n)
      let ms ← traced (parseMethods n)
      let ps ← traced (parseProps h (prev.snoc vis fs ms) n)
      pure (prev.add vis fs ms ps)

/-- the loop `parser/type_class.go:187-199`, with `ParseClassField`, lines 204-219 -/
def parseClassFields : Nat → P κ (Fields δ)
  | 0 => P.wait
  | n + 1 => do
    if ← P.is (fieldListBreak u) then pure .nil
    else do
      let f ← traced (parseClassField n)
      match ← P.cur? with
      | none => P.fail
      | some t =>
        if fieldListBreak u t then pure (.cons f.1 f.2 .nil)
        else if sym r!";" t then do
          P.next
          let rest ← parseClassFields n
          pure (.cons f.1 f.2 rest)
        else P.fail

/-- `ParseClassField`, `parser/type_class.go:204-219` -/
def parseClassField : Nat → P κ (List Ident × PType δ)
  | 0 => P.wait
  | n + 1 => do
    let is ← parseIdents (sym r!":") n
    P.next
    let t ← parseType n
    pure (is, t)

/-- the loop `parser/type_class.go:225-240` -/
def parseMethods : Nat → P κ (Methods δ)
  | 0 => P.wait
  | n + 1 => do
    if ← P.is (methodBreak u) then pure .nil
    else do
      let m ← traced (parseMethod n)
      optSemi
      match ← P.cur? with
      | none => P.fail
      | some t =>
        if methodBreak u t then pure (.cons m.1 m.2 .nil)
        else do
          let rest ← parseMethods n
          pure (.cons m.1 m.2 rest)

/-- `ParseClassMethod`, `parser/type_class.go:244-287` -/
def parseMethod : Nat → P κ (Heading δ × List Str)
  | 0 => P.wait
  | n + 1 => do
    let t ← P.current (Pred.typ .reserved)
    stacked D (do
      let h ← parseHeading (u.toUpper (t.value u)) n
      let ds ← parseMethodDirectiveList u n
      pure (h, ds))

/-- the `switch` `parser/type_class.go:255-276` -/
def parseHeading (w : Str) : Nat → P κ (Heading δ)
  | 0 => P.wait
  | n + 1 =>
    if w = r!"FUNCTION" ∨ w = r!"PROCEDURE" then parseFuncHeading n
    else if w = r!"CONSTRUCTOR" then traced (parseConstructor n)
    else if w = r!"DESTRUCTOR" then parseDestructor u
    else P.fail

/-- `ParseFunctionHeading`, `parser/function_heading.go:119-160` -/
def parseFuncHeading : Nat → P κ (Heading δ)
  | 0 => P.wait
  | n + 1 => do
    let fn ← parseFuncWord u
    let t ← P.nextIs (Pred.typ .ident)
    traced (do
      P.next
      let ps ← parseOptParams r!"(" r!")" n
      let r ← parseReturn u D fn
      pure (.func fn (Ident.ofTok t) ps r))

/-- `ParseConstructorHeading`, `parser/type_class.go:312-332` -/
def parseConstructor : Nat → P κ (Heading δ)
  | 0 => P.wait
  | n + 1 => do
    let _ ← P.current (kw u r!"CONSTRUCTOR")
    P.next
    let t ← P.cur
    P.next
    let ps ← parseOptParams r!"(" r!")" n
    pure (.ctor (Ident.ofTok t) ps)

/-- the loop of `ParseClassPropertyList`, `parser/type_class.go:352-367` -/
def parseProps (h : List (TypeId δ)) (ms : Sects δ) : Nat → P κ (Props δ)
  | 0 => P.wait
  | n + 1 => do
    if ← P.is (propertyBreak u) then pure .nil
    else do
      let p ← parseProp h ms n
      optSemi
      match ← P.cur? with
      | none => P.fail
      | some t =>
        if propertyBreak u t then pure (.cons p .nil)
        else do
          let rest ← parseProps h ms n
          pure (.cons p rest)

/-- `ParseClassProperty`, `parser/type_class.go:371-504` -/
def parseProp (h : List (TypeId δ)) (ms : Sects δ) : Nat → P κ (ClassProp δ)
  | 0 => P.wait
  | n + 1 => do
    let _ ← P.current (kw u r!"PROPERTY")
    P.next
    let t ← P.cur
    traced (do
      P.next
      let intf ← parseIntf n
      let ix ← parsePropIndex u D n
      let parent ← findProp D h ms (Ident.ofTok t).name
      let rd ← parseAccessor u D h ms r!"READ"
      let wr ← parseAccessor u D h ms r!"WRITE"
      let st ← parseStored u D h ms
      let df ← parseDefault u D n
      let im ← parseImplements u D
      fun s =>
        let res := ClassProp.mk (Ident.ofTok t) intf ix rd wr st df im
        .ok (res (match parent with | some d => if D.inherits s.cx (res none) d then some d else none | none => none)) s)

/-- `parser/type_class.go:385-392`, with `ParsePropertyInterface`, lines 506-528 -/
def parseIntf : Nat → P κ (OptIntf δ)
  | 0 => P.wait
  | n + 1 => do
    if ← P.is (sym r!"[") then
      stacked D (do
        let ps ← parseParams r!"[" r!"]" n
        let _ ← P.current (sym r!":")
        P.next
        let t ← parseTypeId u D
        pure (.some (.some ps) t))
    else if ← P.is (sym r!":") then do
      P.next
      let t ← parseTypeId u D
      pure (.some .none t)
    else pure .none
end

end

end TP
