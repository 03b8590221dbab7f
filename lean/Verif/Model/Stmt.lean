import Verif.Model.Expr

/-!
# Model of `parser/statement*.go` and of the nodes of `ast/statement.go`

`τ` is the type of type nodes: an exception handler contains a type.  The parser for types is a parameter here.
Lists that the parser never makes empty are types without an empty list.
-/

namespace TP

/-- `CaseLabel`, `ast/statement.go:297-300`: `ConstExpr ['..' ConstExpr]` -/
inductive CaseLabel (δ : Type)
  | single (e : Expr δ)
  | range (lo hi : Expr δ)

/-- `CaseLabels`, `ast/statement.go:280` -/
inductive CaseLabels (δ : Type)
  | one (l : CaseLabel δ)
  | cons (l : CaseLabel δ) (rest : CaseLabels δ)

/-- `QualIds`, `ast/unit.go:246` -/
inductive QualIds (δ : Type)
  | one (q : QualId δ)
  | cons (q : QualId δ) (rest : QualIds δ)

mutual
/-- `Statement`, `ast/statement.go:41-44` -/
inductive Stmt (δ τ : Type)
  | mk (label : Option Ident) (body : Body δ τ)
/-- The implementations of `StatementBody`, `ast/statement.go:99-102`. -/
inductive Body (δ τ : Type)
  /-- `AssignStatement`, lines 147-150 -/
  | assign (d : Desig δ) (e : Expr δ)
  /-- `CallStatement`, lines 124-127, without argument list -/
  | call (d : Desig δ)
  /-- `CallStatement` with argument list -/
  | callArgs (d : Desig δ) (args : Exprs δ)
  /-- `InheritedStatement`, lines 166-168 -/
  | inherited
  /-- `GotoStatement`, lines 180-183 -/
  | goto (label : Ident) (ref : Option δ)
  /-- `CompoundStmt`, lines 9-11 -/
  | compound (l : Stmts δ τ)
  /-- `IfStmt`, lines 208-212, with `Else == nil` -/
  | ifThen (c : Expr δ) (s : Stmt δ τ)
  /-- `IfStmt` -/
  | ifElse (c : Expr δ) (s1 s2 : Stmt δ τ)
  /-- `CaseStmt`, lines 233-237 -/
  | case (e : Expr δ) (sels : Sels δ τ) (els : OptStmts δ τ)
  /-- `RepeatStmt`, lines 342-345 -/
  | repeat (l : Stmts δ τ) (c : Expr δ)
  /-- `WhileStmt`, lines 361-364 -/
  | while (c : Expr δ) (s : Stmt δ τ)
  /-- `ForStmt`, lines 380-386 -/
  | for (q : QualId δ) (down : Bool) (lo hi : Expr δ) (s : Stmt δ τ)
  /-- `WithStmt`, lines 403-406 -/
  | with (qs : QualIds δ) (s : Stmt δ τ)
  /-- `TryExceptStmt`, lines 429-432 -/
  | tryExcept (l : Stmts δ τ) (b : ExcBlock δ τ)
  /-- `TryFinallyStmt`, lines 511-514 -/
  | tryFinally (l1 l2 : Stmts δ τ)
  /-- `RaiseStmt`, lines 530-533 -/
  | raise (obj addr : Option (Expr δ))
  /-- `AssemblerStatement`, lines 556-557 -/
  | asm
/-- `StmtList`, `ast/statement.go:25` -/
inductive Stmts (δ τ : Type)
  | one (s : Stmt δ τ)
  | cons (s : Stmt δ τ) (rest : Stmts δ τ)
/-- a `StmtList` that may be nil -/
inductive OptStmts (δ τ : Type)
  | none
  | some (l : Stmts δ τ)
/-- `CaseSelectors`, `CaseSelector`, `ast/statement.go:253-272` -/
inductive Sels (δ τ : Type)
  | one (ls : CaseLabels δ) (s : Stmt δ τ)
  | cons (ls : CaseLabels δ) (s : Stmt δ τ) (rest : Sels δ τ)
/-- `ExceptionBlock`, `ast/statement.go:449-452` -/
inductive ExcBlock (δ τ : Type)
  /-- `Handlers == nil` -/
  | plain (l : Stmts δ τ)
  | handlers (hs : Handlers δ τ) (els : OptStmts δ τ)
/-- `ExceptionBlockHandlers`, `ExceptionBlockHandler`, `ExceptionBlockHandlerDecl`, `ast/statement.go:460-486` -/
inductive Handlers (δ τ : Type)
  | one (h : Handler δ τ)
  | cons (h : Handler δ τ) (rest : Handlers δ τ)
/-- one handler; the identifier may be missing -/
inductive Handler (δ τ : Type)
  | mk (ident : Option Ident) (type : τ) (s : Stmt δ τ)
end

/-- Outcome of `p.context.Set(decl)` -/
inductive SetR (κ : Type)
  | ok (k : κ)
  | err
  | panic

/-- What the statement parser needs of the context and of the rest of the parser. -/
structure SEnv (κ δ τ : Type) extends Env κ δ where
  /-- `decl.Node.(*ast.LabelDeclSection)` succeeds -/
  isLabel : δ → Bool
  /-- `p.context.Set(decl)` for an `ExceptionBlockHandlerDecl` with this identifier and type -/
  setHandler : κ → Ident → τ → SetR κ
  /-- `p.ParseType()` -/
  parseType : Nat → P κ τ

section
variable {κ δ τ : Type} (u : Uni) (S : SEnv κ δ τ)

/-- `p.context.Set(decl)` with its error returned -/
def setHandler (i : Ident) (t : τ) : P κ Unit := fun s =>
  match S.setHandler s.cx i t with
  | .ok k => .ok () { s with cx := k }
  | .err => .err
  | .panic => .panic

/-- `ParseQualIds`, `parser/unit.go:30-49`, with the loop of `Until` (`parser/base.go:84-107`) -/
def parseQualIds : Nat → P κ (QualIds δ)
  | 0 => P.wait
  | n + 1 => do
    let q ← parseQualId u S.toEnv
    match ← P.cur? with
    | none => P.fail
    | some t =>
      if Pred.not (sym r!",") t then pure (.one q)
      else if sym r!"," t then do
        P.next
        let rest ← parseQualIds n
        pure (.cons q rest)
      else P.fail

/-- `ParseCaseLabel`, `parser/statement_conditional.go:137-155` (`ParseConstExpr` is `ParseExpression`,
`parser/const.go:72-75`) -/
def parseCaseLabel (n : Nat) : P κ (CaseLabel δ) := do
  let lo ← parseExpr u S.toEnv n
  if ← P.is (sym r!"..") then do
    P.next
    let hi ← parseExpr u S.toEnv n
    pure (.range lo hi)
  else pure (.single lo)

/-- `ParseCaseLabels`, `parser/statement_conditional.go:120-135` -/
def parseCaseLabels : Nat → P κ (CaseLabels δ)
  | 0 => P.wait
  | n + 1 => do
    let l ← parseCaseLabel u S n
    if ← P.is (sym r!",") then do
      P.next
      let rest ← parseCaseLabels n
      pure (.cons l rest)
    else pure (.one l)

/-- `ParseRaiseStmt`, `parser/statement_raise.go:8-38` -/
def parseRaise (n : Nat) : P κ (Body δ τ) := do
  let _ ← P.current (kw u r!"RAISE")
  P.next
  if ← P.is (sym r!";") then pure (.raise none none)
  else do
    let obj ← (do
      if ← P.is (Pred.upperCase u r!"AT") then pure none
      else do
        let e ← parseExpr u S.toEnv n
        pure (some e))
    if ← P.is (Pred.upperCase u r!"AT") then do
      P.next
      let e ← parseExpr u S.toEnv n
      pure (.raise obj (some e))
    else pure (.raise obj none)

/-- the loop `parser/statement_asm.go:17-22` -/
def asmLoop : Nat → P κ Unit
  | 0 => P.wait
  | n + 1 => do
    P.next
    if ← P.is (kw u r!"END") then P.next
    else asmLoop n

/-- `ParseAssemblerStatement`, `parser/statement_asm.go:9-27` -/
def parseAsm (n : Nat) : P κ (Body δ τ) := do
  let _ ← P.current (kw u r!"ASM")
  P.next
  asmLoop u n
  pure .asm

/-- `ParseInheritedStmt`, `parser/statement.go:200-208` -/
def parseInherited : P κ (Body δ τ) := do
  let _ ← P.current (kw u r!"INHERITED")
  P.next
  pure .inherited

/-- `ParseGotoStatement`, `parser/statement.go:210-224` -/
def parseGoto : P κ (Body δ τ) := do
  let _ ← P.current (kw u r!"GOTO")
  let t ← P.nextIs (Pred.typ .ident)
  let d ← getDecl S.toEnv (t.value u)
  P.next
  pure (.goto (Ident.ofTok t) d)

/-- `ParseDesignatorStatement`, `parser/statement.go:168-198` -/
def parseDesigStmt (n : Nat) : P κ (Body δ τ) := do
  let d ← parseDesig u S.toEnv n
  let t ← P.cur
  if t.value u = r!":=" then do
    P.next
    let e ← parseExpr u S.toEnv n
    pure (.assign d e)
  else if sym r!"(" t then do
    P.next
    let es ← parseExprs u S.toEnv (sym r!")") n
    let _ ← P.current (sym r!")")
    P.next
    pure (.callArgs d es)
  else pure (.call d)

/-- `tryStmtTerminator`, `parser/statement_try.go:9-12` -/
def tryEnd : Pred := Pred.some [kw u r!"EXCEPT", kw u r!"FINALLY"]

/-- `parser/statement_try.go:122-145`: the identifier of a handler; the current token is the one after `ON` -/
def parseHandlerIdent : P κ (Option Ident) := do
  let t ← P.cur
  let d? ← getDecl S.toEnv t.raw
  if (match d? with | some d => S.isType d | none => false) then pure none
  else do
    let _ ← P.nextIs (sym r!":")
    P.next
    pure (some (Ident.ofTok t))

/-- the label of a statement, `parser/statement.go:57-68` -/
def parseLabel : P κ (Option Ident) := do
  let t ← P.cur
  let d? ← getDecl S.toEnv (t.value u)
  if (match d? with | some d => S.isLabel d | none => false) then do
    let _ ← P.nextIs (sym r!":")
    P.next
    pure (some (Ident.ofTok t))
  else pure none

mutual
/-- `ParseStatement`, `parser/statement.go:56-166` -/
def parseStmt : Nat → P κ (Stmt δ τ)
  | 0 => P.wait
  | n + 1 => do
    let l ← parseLabel u S
    let b ← parseBody n
    pure (.mk l b)

/-- `parser/statement.go:70-165` -/
def parseBody : Nat → P κ (Body δ τ)
  | 0 => P.wait
  | n + 1 => do
    let t ← P.cur
    let v := t.value u
    if t.typ = .reserved then
      if v = r!"INHERITED" then parseInherited u
      else if v = r!"GOTO" then parseGoto u S
      else if v = r!"BEGIN" then parseCompound n
      else if v = r!"IF" then parseIf n
      else if v = r!"CASE" then parseCase n
      else if v = r!"REPEAT" then parseRepeat n
      else if v = r!"WHILE" then parseWhile n
      else if v = r!"FOR" then parseFor n
      else if v = r!"WITH" then parseWith n
      else if v = r!"TRY" then parseTry n
      else if v = r!"RAISE" then parseRaise u S n
      else if v = r!"ASM" then parseAsm u n
      else parseDesigStmt u S n
    else parseDesigStmt u S n

/-- `ParseStmtList`, `parser/statement.go:33-54` -/
def parseStmts (terminator : Pred) : Nat → P κ (Stmts δ τ)
  | 0 => P.wait
  | n + 1 => do
    let s ← parseStmt n
    if ← P.is terminator then pure (.one s)
    else do
      let _ ← P.current (sym r!";")
      P.next
      if ← P.is terminator then pure (.one s)
      else do
        let rest ← parseStmts terminator n
        pure (.cons s rest)

/-- `ParseCompoundStmt(true)`, `parser/statement.go:8-31` -/
def parseCompound : Nat → P κ (Body δ τ)
  | 0 => P.wait
  | n + 1 => do
    let _ ← P.current (kw u r!"BEGIN")
    P.next
    let l ← parseStmts (kw u r!"END") n
    let _ ← P.current (kw u r!"END")
    P.next
    pure (.compound l)

/-- `ParseIfStmt`, `parser/statement_conditional.go:8-39` -/
def parseIf : Nat → P κ (Body δ τ)
  | 0 => P.wait
  | n + 1 => do
    let _ ← P.current (kw u r!"IF")
    P.next
    let c ← parseExpr u S.toEnv n
    let _ ← P.current (kw u r!"THEN")
    P.next
    let s1 ← parseStmt n
    if ← P.is (kw u r!"ELSE") then do
      P.next
      let s2 ← parseStmt n
      pure (.ifElse c s1 s2)
    else pure (.ifThen c s1)

/-- `ParseCaseStmt`, `parser/statement_conditional.go:41-77` -/
def parseCase : Nat → P κ (Body δ τ)
  | 0 => P.wait
  | n + 1 => do
    let _ ← P.current (kw u r!"CASE")
    P.next
    let e ← parseExpr u S.toEnv n
    let _ ← P.current (kw u r!"OF")
    P.next
    let sels ← parseSels n
    if ← P.is (kw u r!"ELSE") then do
      P.next
      let l ← parseStmts (kw u r!"END") n
      let _ ← P.current (kw u r!"END")
      P.next
      pure (.case e sels (.some l))
    else do
      let _ ← P.current (kw u r!"END")
      P.next
      pure (.case e sels .none)

/-- `ParseCaseSelectors`, `ParseCaseSelector`, `parser/statement_conditional.go:79-118` -/
def parseSels : Nat → P κ (Sels δ τ)
  | 0 => P.wait
  | n + 1 => do
    let ls ← parseCaseLabels u S n
    let _ ← P.current (sym r!":")
    P.next
    let s ← parseStmt n
    let _ ← P.current (sym r!";")
    P.next
    if ← P.is (Pred.some [kw u r!"ELSE", kw u r!"END"]) then pure (.one ls s)
    else do
      let rest ← parseSels n
      pure (.cons ls s rest)

/-- `ParseRepeatStmt`, `parser/statement_loop.go:8-30` -/
def parseRepeat : Nat → P κ (Body δ τ)
  | 0 => P.wait
  | n + 1 => do
    let _ ← P.current (kw u r!"REPEAT")
    P.next
    let l ← parseStmts (kw u r!"UNTIL") n
    let _ ← P.current (kw u r!"UNTIL")
    P.next
    let c ← parseExpr u S.toEnv n
    pure (.repeat l c)

/-- `ParseWhileStmt`, `parser/statement_loop.go:32-53` -/
def parseWhile : Nat → P κ (Body δ τ)
  | 0 => P.wait
  | n + 1 => do
    let _ ← P.current (kw u r!"WHILE")
    P.next
    let c ← parseExpr u S.toEnv n
    let _ ← P.current (kw u r!"DO")
    P.next
    let s ← parseStmt n
    pure (.while c s)

/-- `ParseForStmt`, `parser/statement_loop.go:55-101` -/
def parseFor : Nat → P κ (Body δ τ)
  | 0 => P.wait
  | n + 1 => do
    let _ ← P.current (kw u r!"FOR")
    P.next
    let q ← parseQualId u S.toEnv
    let _ ← P.current (sym r!":=")
    P.next
    let lo ← parseExpr u S.toEnv n
    let t ← P.cur
    if t.value u = r!"TO" ∨ t.value u = r!"DOWNTO" then do
      P.next
      let hi ← parseExpr u S.toEnv n
      let _ ← P.current (kw u r!"DO")
      P.next
      let s ← parseStmt n
      pure (.for q (t.value u == r!"DOWNTO") lo hi s)
    else P.fail

/-- `ParseWithStmt`, `parser/statement_with.go:8-29` -/
def parseWith : Nat → P κ (Body δ τ)
  | 0 => P.wait
  | n + 1 => do
    let _ ← P.current (kw u r!"WITH")
    P.next
    let qs ← parseQualIds u S n
    let _ ← P.current (kw u r!"DO")
    P.next
    let s ← parseStmt n
    pure (.with qs s)

/-- `ParseTryStmt`, `parser/statement_try.go:14-47` -/
def parseTry : Nat → P κ (Body δ τ)
  | 0 => P.wait
  | n + 1 => do
    let _ ← P.current (kw u r!"TRY")
    P.next
    let l ← parseStmts (tryEnd u) n
    if ← P.is (kw u r!"EXCEPT") then do
      P.next
      let b ← parseExcBlock n
      pure (.tryExcept l b)
    else if ← P.is (kw u r!"FINALLY") then do
      P.next
      let l2 ← parseStmts (kw u r!"END") n
      P.next
      pure (.tryFinally l l2)
    else P.fail

/-- `ParseExceptionBlock`, `parser/statement_try.go:49-94` -/
def parseExcBlock : Nat → P κ (ExcBlock δ τ)
  | 0 => P.wait
  | n + 1 => do
    if ← P.is (Pred.upperCase u r!"ON") then do
      let hs ← parseHandlers n
      if ← P.is (kw u r!"END") then do
        P.next
        pure (.handlers hs .none)
      else do
        let els ← parseExcElse n
        if ← P.is (sym r!";") then P.next
        let _ ← P.current (kw u r!"END")
        P.next
        pure (.handlers hs els)
    else do
      let l ← parseStmts (kw u r!"END") n
      let _ ← P.current (kw u r!"END")
      P.next
      pure (.plain l)

/-- `parser/statement_try.go:76-83` -/
def parseExcElse : Nat → P κ (OptStmts δ τ)
  | 0 => P.wait
  | n + 1 => do
    if ← P.is (kw u r!"ELSE") then do
      P.next
      let l ← parseStmts (kw u r!"END") n
      pure (.some l)
    else pure .none

/-- `ParseExceptionBlockHandlers`, `parser/statement_try.go:96-115` -/
def parseHandlers : Nat → P κ (Handlers δ τ)
  | 0 => P.wait
  | n + 1 => do
    let h ← parseHandler n
    if ← P.is (sym r!";") then P.next
    if ← P.is (Pred.upperCase u r!"ON") then do
      let rest ← parseHandlers n
      pure (.cons h rest)
    else pure (.one h)

/-- `ParseExceptionBlockHandler`, `parser/statement_try.go:117-170` -/
def parseHandler : Nat → P κ (Handler δ τ)
  | 0 => P.wait
  | n + 1 => do
    let _ ← P.current (Pred.upperCase u r!"ON")
    P.next
    let i ← parseHandlerIdent S
    let ty ← S.parseType n
    (match i with
    | some i => setHandler S i ty
    | none => pure ())
    let _ ← P.current (Pred.upperCase u r!"DO")
    P.next
    let s ← parseStmt n
    pure (.mk i ty s)
end

end

end TP
