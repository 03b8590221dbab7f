import Verif.Model.Types

/-!
# Model of `parser/const.go`, `parser/var.go`, `parser/type.go:9-106`, `parser/function.go`, `parser/block.go`

Declarations, blocks and routines, and the nodes of `ast/const.go`, `ast/var.go`, `ast/type.go`, `ast/function.go`,
`ast/block.go`.
-/

namespace TP

/-- `ConstantDecl`, `ast/const.go:38-43` -/
structure ConstDecl (δ : Type) where
  ident : Ident
  type : Option (PType δ)
  expr : Expr δ

/-- `TypeDecl`, `ast/type.go:40-44` -/
structure TypeDecl (δ : Type) where
  ident : Ident
  type : PType δ
  portability : Option Str

/-- `VarDecl`, `ast/var.go:40-46` -/
structure VarDecl (δ : Type) where
  idents : List Ident
  type : PType δ
  absolute : Option Ident
  expr : Option (Expr δ)

/-- `ThreadVarDecl`, `ast/var.go:128-131` -/
structure ThreadVarDecl (δ : Type) where
  idents : List Ident
  type : PType δ

/-- `ExportsItem`, `ast/block.go:84-88` -/
structure ExportsItem (δ : Type) where
  ident : Ident
  name : Option (Expr δ)
  index : Option (Expr δ)

/-- `ExternalOptions`, `ast/directive.go:34-38` -/
structure ExternalOptions where
  library : Str
  name : Option Str
  index : Option Int

/-- `Directives` and `ExternalOptions` of a routine, `ast/function.go:29-30`; no directives is nil. -/
structure RoutineOpts where
  directives : List Str
  ext : Option ExternalOptions

mutual
/-- `Block`, `ast/block.go:19-24`; `ExportsStmts2` is never set -/
inductive Block (δ : Type)
  | mk (decls : DeclSects δ) (exports : List (List (ExportsItem δ))) (body : Option (Body δ (PType δ)))
/-- `DeclSections`, `ast/block.go:124`; none is nil -/
inductive DeclSects (δ : Type)
  | nil
  | cons (s : DeclSect δ) (rest : DeclSects δ)
/-- the implementations of `DeclSection`, `ast/block.go:119-122` -/
inductive DeclSect (δ : Type)
  /-- `LabelDeclSection`, `ast/block.go:140-142` -/
  | label (i : Ident)
  /-- `ConstSection`, `ast/const.go:9` -/
  | const (ds : List (ConstDecl δ))
  /-- `TypeSection`, `ast/type.go:11` -/
  | type (ds : List (TypeDecl δ))
  /-- `VarSection`, `ast/var.go:9` -/
  | var (ds : List (VarDecl δ))
  /-- `ThreadVarSection`, `ast/var.go:106` -/
  | threadVar (ds : List (ThreadVarDecl δ))
  /-- `FunctionDecl`, `ast/function.go:27-33` -/
  | func (h : Heading δ) (opts : RoutineOpts) (b : Block δ)
end

/-- `strconv.ParseInt(s, 10, 64)`: an optional sign and at least one digit, in the range of 64 bits. -/
def parseInt64 (s : Str) : Option Int :=
  let digits (ds : Str) : Option Nat :=
    if ds.isEmpty then none
    else ds.foldl (fun acc c =>
      match acc with
      | some a => if '0' ≤ c ∧ c ≤ '9' then some (10 * a + (c.toNat - '0'.toNat)) else none
      | none => none) (some 0)
  match s with
  | '-' :: ds =>
    match digits ds with
    | some v => if v ≤ 2 ^ 63 then some (-(v : Int)) else none
    | none => none
  | '+' :: ds =>
    match digits ds with
    | some v => if v < 2 ^ 63 then some v else none
    | none => none
  | ds =>
    match digits ds with
    | some v => if v < 2 ^ 63 then some v else none
    | none => none

section
variable {κ δ : Type} (u : Uni) (D : DEnv κ δ)

/-- the environment of the statement parser -/
def DEnv.senv : SEnv κ δ (PType δ) where
  toEnv := D.toEnv
  isLabel := D.isLabel
  setHandler k i _ := D.set k [i] .handler
  parseType n := parseType u D (2 * n)

/-- `t.Is(token.ReservedWord) || t.Is(token.EOF)`: the end of a section -/
def sectionEnd : Pred := Pred.some [Pred.typ .reserved, Pred.typ .eof]

/-- `ParseConstantDecl`, `parser/const.go:38-70` -/
def parseConstDecl (n : Nat) : P κ (ConstDecl δ) := do
  let t ← P.current (Pred.some [Pred.typ .ident, Pred.directive u directiveNames])
  setDecl D [Ident.ofTok t] .const
  P.next
  let ty ← (do
    if ← P.is (sym r!":") then do
      P.next
      let ty ← parseType u D n
      pure (some ty)
    else pure none)
  let _ ← P.current (sym r!"=")
  P.next
  let e ← parseExpr u D.toEnv n
  pure ⟨Ident.ofTok t, ty, e⟩

/-- the loop of `ParseConstSection`, `parser/const.go:21-34` -/
def parseConstDecls : Nat → P κ (List (ConstDecl δ))
  | 0 => P.wait
  | n + 1 => do
    let d ← parseConstDecl u D n
    let _ ← P.current (sym r!";")
    P.next
    if ← P.is sectionEnd then pure [d]
    else do
      let rest ← parseConstDecls n
      pure (d :: rest)

/-- `ParseVarDecl`, `parser/var.go:45-83` -/
def parseVarDecl (n : Nat) : P κ (VarDecl δ) := do
  let is ← parseIdents (sym r!":") n
  P.next
  let ty ← parseType u D n
  let ab ← (do
    if ← P.is (Pred.upperCase u r!"ABSOLUTE") then do
      let t ← P.nextIs (Pred.typ .ident)
      P.next
      pure (some (Ident.ofTok t))
    else pure none)
  let e ← (do
    if ← P.is (sym r!"=") then do
      P.next
      let e ← parseExpr u D.toEnv n
      pure (some e)
    else pure none)
  setDecl D is .var
  pure ⟨is, ty, ab, e⟩

/-- the loop of `ParseVarSection`, `parser/var.go:21-41` -/
def parseVarDecls : Nat → P κ (List (VarDecl δ))
  | 0 => P.wait
  | n + 1 => do
    let d ← parseVarDecl u D n
    if ← P.is sectionEnd then pure [d]
    else do
      let _ ← P.current (sym r!";")
      P.next
      if ← P.is sectionEnd then pure [d]
      else do
        let rest ← parseVarDecls n
        pure (d :: rest)

/-- `ParseThreadVarDecl`, `parser/var.go:115-136` -/
def parseThreadVarDecl (n : Nat) : P κ (ThreadVarDecl δ) := do
  let is ← parseIdents (sym r!":") n
  P.next
  let ty ← parseType u D n
  setDecl D is .threadVar
  pure ⟨is, ty⟩

/-- the loop of `ParseThreadVarSection`, `parser/var.go:98-111` -/
def parseThreadVarDecls : Nat → P κ (List (ThreadVarDecl δ))
  | 0 => P.wait
  | n + 1 => do
    let d ← parseThreadVarDecl u D n
    let _ ← P.current (sym r!";")
    P.next
    if ← P.is sectionEnd then pure [d]
    else do
      let rest ← parseThreadVarDecls n
      pure (d :: rest)

/-- `parser/type.go:77-86` -/
def completeType (old : δ) (i : Ident) (ty : PType δ) : P κ Unit := fun s =>
  match D.complete s.cx old i ty with
  | .ok c => .ok () { s with cx := c }
  | .err => .err
  | .panic => .panic

/-- `parser/type.go:72-91`: declares the type, or completes a forward declaration -/
def declareType (i : Ident) (ty : PType δ) : P κ Unit := do
  match ← getDecl D.toEnv i.name with
  | none => setDecl D [i] (.type ty)
  | some old =>
    if D.isType old then completeType D old i ty
    else P.fail

/-- `parser/type.go:93-103`: the end of a type declaration.  Unless the current token is a semicolon it is skipped. -/
def typeDeclEnd : P κ (Option Str) := do
  if ← P.is (sym r!";") then pure none
  else do
    P.next
    let t ← P.cur
    if Pred.directive u portabilityNames t then do
      P.next
      pure (some (t.value u))
    else pure none

/-- `ParseTypeDecl`, `parser/type.go:50-106` -/
def parseTypeDecl (n : Nat) : P κ (TypeDecl δ) := traced do
  let t ← P.current (Pred.typ .ident)
  let _ ← P.nextIs (sym r!"=")
  P.next
  if ← P.is (kw u r!"TYPE") then P.next
  let ty ← parseType u D n
  declareType D (Ident.ofTok t) ty
  let pd ← typeDeclEnd u
  pure ⟨Ident.ofTok t, ty, pd⟩

/-- the loop of `ParseTypeSection`, `parser/type.go:24-44` -/
def parseTypeDecls : Nat → P κ (List (TypeDecl δ))
  | 0 => P.wait
  | n + 1 => do
    let d ← parseTypeDecl u D n
    if ← P.is sectionEnd then pure [d]
    else do
      let _ ← P.current (sym r!";")
      P.next
      if ← P.is sectionEnd then pure [d]
      else do
        let rest ← parseTypeDecls n
        pure (d :: rest)

/-- `defer p.SetupPostSectionFuncs()()` and, at the end, `p.RunPostSectionFuncs()`, `parser/type.go:20, 45` -/
def withSection {α : Type} (p : P κ α) : P κ α := fun s =>
  match p { s with cx := D.openSection s.cx } with
  | .ok a s' => .ok a { s' with cx := D.closeSection s.cx (D.runSection s'.cx) }
  | .err => .err
  | .panic => .panic
  | .wait => .wait

/-- `ParseTypeSection`, `parser/type.go:20-47`; the current token is `TYPE` -/
def parseTypeSection (n : Nat) : P κ (List (TypeDecl δ)) := withSection D do
  P.next
  parseTypeDecls u D n

/-- `ParseLabelDeclSection`, `parser/block.go:165-177`; the current token is `LABEL` -/
def parseLabelDecl : P κ Ident := do
  let t ← P.nextIs (Pred.typ .ident)
  let _ ← P.nextIs (sym r!";")
  P.next
  setDecl D [Ident.ofTok t] .label
  pure (Ident.ofTok t)

/-- an item of an `EXPORTS` statement, `parser/block.go:130-152` -/
def parseExportsItem (n : Nat) : P κ (ExportsItem δ) := do
  let t ← P.current (Pred.typ .ident)
  P.next
  if ← P.is (Pred.directive u [r!"NAME"]) then do
    P.next
    let e ← parseExpr u D.toEnv n
    pure ⟨Ident.ofTok t, some e, none⟩
  else if ← P.is (Pred.directive u [r!"INDEX"]) then do
    P.next
    let e ← parseExpr u D.toEnv n
    pure ⟨Ident.ofTok t, none, some e⟩
  else pure ⟨Ident.ofTok t, none, none⟩

/-- the loop `parser/block.go:129-155` -/
def parseExportsItems : Nat → P κ (List (ExportsItem δ))
  | 0 => P.wait
  | n + 1 => do
    let i ← parseExportsItem u D n
    match ← P.cur? with
    | none => P.fail
    | some t =>
      if sym r!";" t then pure [i]
      else if sym r!"," t then do
        P.next
        let rest ← parseExportsItems n
        pure (i :: rest)
      else P.fail

/-- `ParseExportsStmts`, `parser/block.go:96-112`, with `ParseExportsStmt(false)`, lines 114-159 -/
def parseExports : Nat → P κ (List (List (ExportsItem δ)))
  | 0 => P.wait
  | n + 1 => do
    if ← P.is (kw u r!"EXPORTS") then do
      P.next
      let is ← parseExportsItems u D n
      P.next
      let rest ← parseExports n
      pure (is :: rest)
    else pure []

/-- `ParseStringFactor(t, false)`, `parser/expression.go:251-258`, for the current token -/
def stringFactor : P κ Str := do
  let t ← P.cur
  if t.typ = .charString then do
    P.next
    pure (t.value u)
  else P.fail

/-- `ParseNumberFactor(t, false)`, `parser/expression.go:260-267`, for the current token: it wants a character string -/
def numberFactor : P κ Str := do
  let t ← P.cur
  if t.typ = .charString then do
    P.next
    pure (t.value u)
  else P.fail

/-- `ParseExternalOptions`, `parser/function_heading.go:72-117` -/
def parseExternal : P κ (Option ExternalOptions) := do
  let _ ← P.current (Pred.directive u [r!"EXTERNAL"])
  P.next
  if ← P.is (sym r!";") then pure none
  else do
    let lib ← stringFactor u
    if ← P.is (sym r!";") then pure (some ⟨lib, none, none⟩)
    else if ← P.is (Pred.directive u [r!"NAME"]) then do
      P.next
      let nm ← stringFactor u
      pure (some ⟨lib, some nm, none⟩)
    else if ← P.is (Pred.directive u [r!"INDEX"]) then do
      P.next
      let v ← numberFactor u
      match parseInt64 v with
      | some i => pure (some ⟨lib, none, some i⟩)
      | none => P.fail
    else P.fail

/-- the loop of `ParseFunctionDirectives`, `parser/function_heading.go:47-68`; the options of the last `EXTERNAL` count -/
def parseDirectives : Nat → Option ExternalOptions → P κ RoutineOpts
  | 0, _ => P.wait
  | n + 1, opts => do
    let t ← P.cur
    if Pred.directive u directiveNames t then do
      let dir := u.toUpper (t.value u)
      let opts' ← (do
        if dir = r!"EXTERNAL" then parseExternal u
        else do
          P.next
          pure opts)
      let _ ← P.current (sym r!";")
      P.next
      let rest ← parseDirectives n opts'
      pure ⟨dir :: rest.directives, rest.ext⟩
    else pure ⟨[], opts⟩

/-- `parser/function.go:30-37`: directives after the heading, if any -/
def parseRoutineOpts (n : Nat) : P κ RoutineOpts := do
  if ← P.is (Pred.directive u directiveNames) then parseDirectives u n none
  else pure ⟨[], none⟩

/-- the identifier of a function heading -/
def Heading.ident : Heading δ → Ident
  | .func _ i _ _ => i
  | .ctor i _ => i
  | .dtor i => i

/-- `ParseExportedHeading`, `parser/function_heading.go:12-42`, where the current token is `PROCEDURE` or `FUNCTION` -/
def parseExportedHeading (n : Nat) : P κ (Heading δ × RoutineOpts) := stacked D do
  let h ← parseFuncHeading u D n
  let _ ← P.current (sym r!";")
  setDecl D [h.ident] .heading
  P.next
  let o ← parseRoutineOpts u n
  pure (h, o)

/-- the body of a block, `parser/block.go:22-35` -/
def parseBlockBody (n : Nat) : P κ (Option (Body δ (PType δ))) := do
  let t ← P.cur
  if t.value u = r!"BEGIN" then do
    let b ← parseCompound u (D.senv u) n
    pure (some b)
  else if t.value u = r!"ASM" then do
    let b ← parseAsm u n
    pure (some b)
  else pure none

mutual
/-- `ParseBlock`, `parser/block.go:8-44`; the second list of `EXPORTS` statements, if there is one, replaces the first -/
def parseBlock : Nat → P κ (Block δ)
  | 0 => P.wait
  | n + 1 => do
    let ds ← parseDeclSects n
    let ex1 ← parseExports u D n
    let body ← parseBlockBody u D n
    let ex2 ← parseExports u D n
    pure (.mk ds (if ex2.isEmpty then ex1 else ex2) body)

/-- `ParseDeclSections`, `parser/block.go:46-65` -/
def parseDeclSects : Nat → P κ (DeclSects δ)
  | 0 => P.wait
  | n + 1 => do
    match ← parseDeclSect n with
    | none => pure .nil
    | some s => do
      optSemi
      let rest ← parseDeclSects n
      pure (.cons s rest)

/-- `ParseDeclSection`, `parser/block.go:67-94`, with the checks `parser/block.go:162`, `parser/const.go:15`,
`parser/type.go:16`, `parser/var.go:15, 92`, `parser/function.go:10` -/
def parseDeclSect : Nat → P κ (Option (DeclSect δ))
  | 0 => P.wait
  | n + 1 => do
    let t ← P.cur
    if kw u r!"LABEL" t then do
      let i ← parseLabelDecl D
      pure (some (.label i))
    else if kw u r!"CONST" t then do
      P.next
      let ds ← parseConstDecls u D n
      pure (some (.const ds))
    else if kw u r!"TYPE" t then do
      let ds ← parseTypeSection u D n
      pure (some (.type ds))
    else if kw u r!"VAR" t then do
      P.next
      let ds ← parseVarDecls u D n
      pure (some (.var ds))
    else if kw u r!"THREADVAR" t then do
      P.next
      let ds ← parseThreadVarDecls u D n
      pure (some (.threadVar ds))
    else if t.value u = r!"PROCEDURE" ∨ t.value u = r!"FUNCTION" then do
      let f ← parseFunc n
      pure (some f)
    else pure none

/-- `ParseProcedureDeclSection`, `parser/function.go:8-45`, after the check of the word -/
def parseFunc : Nat → P κ (DeclSect δ)
  | 0 => P.wait
  | n + 1 => stacked D do
    let h ← parseFuncHeading u D n
    let _ ← P.current (sym r!";")
    setDecl D [h.ident] .func
    P.next
    let o ← parseRoutineOpts u n
    let b ← parseBlock n
    pure (.func h o b)
end

end

end TP
