import Verif.Model.Parser

/-!
# Model of `parser/expression.go`, `parser/unit.go`, `parser/ident.go` and of the nodes of `ast/expression.go`

Lists inside nodes (`RelOpSimpleExpressions` and so on) are types of their own, so that functions on trees are
structurally recursive.  `δ` is the type of declarations (`*astcore.Decl`).
-/

namespace TP

/-- `astcore.Ident`, `ast/astcore/ident.go:32-35`; the path of the location is not modelled. -/
structure Ident where
  name : Str
  start : Pos
  stop : Pos
  deriving DecidableEq, Repr

/-- `NewIdent`, `ast/astcore/ident.go:37-42` -/
def Ident.ofTok (t : Token) : Ident := ⟨t.raw, t.start, t.stop⟩

/-- `IdentRef`, `ast/astcore/ident_ref.go:6-9` -/
structure IdentRef (δ : Type) where
  ident : Ident
  ref : Option δ
  deriving DecidableEq, Repr

/-- `QualId`, `ast/unit.go:225-228` -/
structure QualId (δ : Type) where
  ns : Option (IdentRef δ)
  ident : IdentRef δ
  deriving DecidableEq, Repr

mutual
/-- `Expression`, `ast/expression.go:12-15` -/
inductive Expr (δ : Type)
  | mk (se : SExpr δ) (rest : RelTail δ)
/-- `RelOpSimpleExpressions`, `ast/expression.go:79-90` -/
inductive RelTail (δ : Type)
  | nil
  | cons (op : Str) (se : SExpr δ) (rest : RelTail δ)
/-- `SimpleExpression`, `ast/expression.go:106-110` -/
inductive SExpr (δ : Type)
  | mk (unary : Option Str) (t : Term δ) (rest : AddTail δ)
/-- `AddOpTerms`, `ast/expression.go:146-155` -/
inductive AddTail (δ : Type)
  | nil
  | cons (op : Str) (t : Term δ) (rest : AddTail δ)
/-- `Term`, `ast/expression.go:171-174` -/
inductive Term (δ : Type)
  | mk (f : Factor δ) (rest : MulTail δ)
/-- `MulOpFactors`, `ast/expression.go:223-232` -/
inductive MulTail (δ : Type)
  | nil
  | cons (op : Str) (f : Factor δ) (rest : MulTail δ)
/-- The implementations of `Factor`, `ast/expression.go:272-275`. -/
inductive Factor (δ : Type)
  /-- `DesignatorFactor`; no arguments is `ExprList == nil` -/
  | desig (d : Desig δ)
  | call (d : Desig δ) (args : Exprs δ)
  | addr (d : Desig δ)
  | value (v : Str)
  | str (v : Str)
  | num (v : Str)
  | nil
  | paren (e : Expr δ)
  | not (f : Factor δ)
  | set (es : SetElems δ)
  | cast (t : IdentRef δ) (e : Expr δ)
/-- `Designator`, `ast/expression.go:319-322` -/
inductive Desig (δ : Type)
  | mk (q : QualId δ) (items : Items δ)
/-- `DesignatorItems`, `ast/expression.go:357-409` -/
inductive Items (δ : Type)
  | nil
  | ident (i : Ident) (rest : Items δ)
  | index (es : Exprs δ) (rest : Items δ)
  | deref (rest : Items δ)
/-- `ExprList`, `ast/expression.go:42`; the parser never builds an empty one. -/
inductive Exprs (δ : Type)
  | one (e : Expr δ)
  | cons (e : Expr δ) (rest : Exprs δ)
/-- `SetElement`s of a `SetConstructor`, `ast/expression.go:494-511`; the parser never builds an empty one. -/
inductive SetElems (δ : Type)
  | one (e : SetElem δ)
  | cons (e : SetElem δ) (rest : SetElems δ)
/-- `SetElement`, `ast/expression.go:513-516` -/
inductive SetElem (δ : Type)
  | single (e : Expr δ)
  | range (lo hi : Expr δ)
end

/-- What `parser/unit.go:65-84` finds for a qualified name. -/
inductive Member (δ : Type)
  | found (d : δ)
  /-- an error is returned -/
  | error
  /-- `GetDeclMap()` is nil: panic -/
  | panic

/-- What the expression parser needs of the context (`κ` is its state). -/
structure Env (κ δ : Type) where
  /-- `p.context.Get(name)` -/
  get : κ → Str → Option δ
  /-- `decl.Node.(*ast.TypeDecl)` succeeds -/
  isType : δ → Bool
  /-- `decl.Node.(ast.Namespace)` succeeds -/
  isNamespace : δ → Bool
  /-- `decl.Node.(*ast.UsesClauseItem)` succeeds -/
  isUses : δ → Bool
  /-- the declaration `name` in the namespace `d`, `parser/unit.go:69-84` -/
  member : κ → δ → Str → Member δ
  /-- `rollback := p.RollbackPoint(); …; rollback()` with no declarations in between, as far as the context is
  concerned: the context is replaced by its clone -/
  rollback : κ → κ

/-- `RelOpPredicator`, `parser/expression.go:54-63` -/
def relOp (u : Uni) : Pred := Pred.some
  [sym r!">", sym r!"<", Pred.hasText u .symbol r!"<=", Pred.hasText u .symbol r!">=", sym r!"=",
   Pred.hasText u .symbol r!"<>", kw u r!"IN", kw u r!"IS"]

/-- `UnaryOpPredicator`, `parser/expression.go:98-101` -/
def unaryOp : Pred := Pred.some [sym r!"+", sym r!"-"]

/-- `AddOpPredicator`, `parser/expression.go:103-108` -/
def addOp (u : Uni) : Pred := Pred.some [sym r!"+", sym r!"-", kw u r!"OR", kw u r!"XOR"]

/-- `MulOpPredicator`, `parser/expression.go:135-143` -/
def mulOp (u : Uni) : Pred := Pred.some
  [sym r!"*", sym r!"/", kw u r!"DIV", kw u r!"MOD", kw u r!"AND", kw u r!"SHL", kw u r!"SHR"]

/-- `IsManifestConstant`, `ast/manifest_constants.go:9-16` -/
def isManifest (u : Uni) (w : Str) : Bool := [r!"FALSE", r!"TRUE"].contains (u.toUpper w)

section
variable {κ δ : Type} (u : Uni) (E : Env κ δ)

/-- `p.context.Get(name)` -/
def getDecl (name : Str) : P κ (Option δ) := fun s => .ok (E.get s.cx name) s

/-- `ParseQualId`, `parser/unit.go:51-94`, with `IsNamespaceIdentifier`, `IsUnitIdentifier` (lines 8-28) and
`NewIdentRef` (`parser/ident.go:12-14`). -/
def parseQualId : P κ (QualId δ) := do
  let name1 ← P.current (Pred.some [Pred.typ .ident])
  let d? ← getDecl E (name1.value u)
  match d? with
  | some d =>
    if E.isNamespace d || E.isUses d then do
      let _ ← P.nextIs (sym r!".")
      let name2 ← P.nextIs (Pred.typ .ident)
      fun s =>
        match E.member s.cx d (name2.value u) with
        | .error => .err
        | .panic => .panic
        | .found m => (do
          P.next
          pure ⟨some ⟨Ident.ofTok name1, some d⟩, ⟨Ident.ofTok name2, some m⟩⟩ : P κ (QualId δ)) s
    else do
      P.next
      let r ← getDecl E name1.raw
      pure ⟨none, ⟨Ident.ofTok name1, r⟩⟩
  | none => do
    P.next
    let r ← getDecl E name1.raw
    pure ⟨none, ⟨Ident.ofTok name1, r⟩⟩

/-- replacing the state: `rollback()` of `parser/base.go:33-37`; `s0` is the state in which `RollbackPoint` was
called -/
def rollbackTo (s0 : PS κ) : P κ Unit := fun _ => .ok () { s0 with cx := E.rollback s0.cx }

/-- the state when `RollbackPoint` is called, `parser/base.go:29-32` (`curr.Clone()` panics for `nil`) -/
def rollbackPoint : P κ (PS κ) := fun s =>
  match P.cur s with
  | .ok _ _ => .ok s s
  | .err => .err
  | .panic => .panic
  | .wait => .wait

mutual
/-- `ParseExpression`, `parser/expression.go:27-52` -/
def parseExpr : Nat → P κ (Expr δ)
  | 0 => P.wait
  | n + 1 => do
    let se ← parseSExpr n
    let rest ← parseRelTail n
    pure (.mk se rest)

/-- the loop `parser/expression.go:35-50` -/
def parseRelTail : Nat → P κ (RelTail δ)
  | 0 => P.wait
  | n + 1 => do
    if ← P.is (relOp u) then do
      let op ← P.cur
      P.next
      let se ← parseSExpr n
      let rest ← parseRelTail n
      pure (.cons (op.value u) se rest)
    else pure .nil

/-- `ParseSimpleExpression`, `parser/expression.go:65-96` -/
def parseSExpr : Nat → P κ (SExpr δ)
  | 0 => P.wait
  | n + 1 => do
    if ← P.is unaryOp then do
      let op ← P.cur
      P.next
      let t ← parseTerm n
      let rest ← parseAddTail n
      pure (.mk (some (op.value u)) t rest)
    else do
      let t ← parseTerm n
      let rest ← parseAddTail n
      pure (.mk none t rest)

/-- the loop `parser/expression.go:79-94` -/
def parseAddTail : Nat → P κ (AddTail δ)
  | 0 => P.wait
  | n + 1 => do
    if ← P.is (addOp u) then do
      let op ← P.cur
      P.next
      let t ← parseTerm n
      let rest ← parseAddTail n
      pure (.cons (op.value u) t rest)
    else pure .nil

/-- `ParseTerm`, `parser/expression.go:110-133` -/
def parseTerm : Nat → P κ (Term δ)
  | 0 => P.wait
  | n + 1 => do
    let f ← parseFactor n
    let rest ← parseMulTail n
    pure (.mk f rest)

/-- the loop `parser/expression.go:116-131` -/
def parseMulTail : Nat → P κ (MulTail δ)
  | 0 => P.wait
  | n + 1 => do
    if ← P.is (mulOp u) then do
      let op ← P.cur
      P.next
      let f ← parseFactor n
      let rest ← parseMulTail n
      pure (.cons (op.value u) f rest)
    else pure .nil

/-- `ParseFactor`, `parser/expression.go:145-240`, with `ParseManifestConstant`, `ParseStringFactor`,
`ParseNumberFactor` (lines 242-267) called with `skipTypeCheck`. -/
def parseFactor : Nat → P κ (Factor δ)
  | 0 => P.wait
  | n + 1 => do
    let t0 ← P.cur
    let v := t0.value u
    if t0.typ = .symbol then
      if v = r!"@" then do
        P.next
        let d ← parseDesig n
        pure (.addr d)
      else if v = r!"[" then do
        let es ← parseSetCons n
        P.next
        pure (.set es)
      else if v = r!"(" then do
        P.next
        let e ← parseExpr n
        let _ ← P.current (sym r!")")
        P.next
        pure (.paren e)
      else P.fail
    else if t0.typ = .reserved then
      if v = r!"NIL" then do
        P.next
        pure .nil
      else if v = r!"NOT" then do
        P.next
        let f ← parseFactor n
        pure (.not f)
      else P.fail
    else if isManifest u v then do
      P.next
      pure (.value v)
    else if t0.typ = .charString then do
      P.next
      pure (.str v)
    else if t0.typ = .numInt ∨ t0.typ = .numReal then do
      P.next
      pure (.num v)
    else if t0.typ = .ident then do
      match ← getDecl E v with
      | some d =>
        if E.isType d then do
          let s0 ← rollbackPoint
          P.next
          if ← P.is (sym r!"(") then do
            P.next
            let e ← parseExpr n
            let _ ← P.current (sym r!")")
            P.next
            pure (.cast ⟨Ident.ofTok t0, some d⟩ e)
          else do
            rollbackTo E s0
            parseDesigFactor n
        else parseDesigFactor n
      | none => parseDesigFactor n
    else P.fail

/-- `parser/expression.go:220-236` -/
def parseDesigFactor : Nat → P κ (Factor δ)
  | 0 => P.wait
  | n + 1 => do
    let d ← parseDesig n
    if ← P.is (sym r!"(") then do
      P.next
      let es ← parseExprs (sym r!")") n
      P.next
      pure (.call d es)
    else pure (.desig d)

/-- `ParseDesignator`, `parser/expression.go:269-310` -/
def parseDesig : Nat → P κ (Desig δ)
  | 0 => P.wait
  | n + 1 => do
    let _ ← P.current (Pred.some [Pred.typ .ident])
    let q ← parseQualId u E
    let items ← parseItems n
    pure (.mk q items)

/-- the loop `parser/expression.go:281-308`.  A `nil` token ends it (line 282). -/
def parseItems : Nat → P κ (Items δ)
  | 0 => P.wait
  | n + 1 => do
    match ← P.cur? with
    | none => pure .nil
    | some t =>
      if t.typ = .symbol then
        if t.value u = r!"." then do
          let t ← P.nextIs (Pred.typ .ident)
          P.next
          let rest ← parseItems n
          pure (.ident (Ident.ofTok t) rest)
        else if t.value u = r!"[" then do
          P.next
          let es ← parseExprs (sym r!"]") n
          P.next
          let rest ← parseItems n
          pure (.index es rest)
        else if t.value u = r!"^" then do
          P.next
          let rest ← parseItems n
          pure (.deref rest)
        else pure .nil
      else pure .nil

/-- `ParseExprList`, `parser/expression.go:8-25` -/
def parseExprs (terminator : Pred) : Nat → P κ (Exprs δ)
  | 0 => P.wait
  | n + 1 => do
    let e ← parseExpr n
    if ← P.is terminator then pure (.one e)
    else do
      let _ ← P.current (sym r!",")
      P.next
      let rest ← parseExprs terminator n
      pure (.cons e rest)

/-- `ParseSetConstructor`, `parser/expression.go:312-329` -/
def parseSetCons : Nat → P κ (SetElems δ)
  | 0 => P.wait
  | n + 1 => do
    let _ ← P.current (sym r!"[")
    P.next
    parseSetElems n

/-- the call of `Until` in `parser/expression.go:318-327` -/
def parseSetElems : Nat → P κ (SetElems δ)
  | 0 => P.wait
  | n + 1 => do
    let e ← parseSetElem n
    match ← P.cur? with
    | none => P.fail
    | some t =>
      if sym r!"]" t then pure (.one e)
      else if sym r!"," t then do
        P.next
        let rest ← parseSetElems n
        pure (.cons e rest)
      else P.fail

/-- `ParseSetElement`, `parser/expression.go:331-347` -/
def parseSetElem : Nat → P κ (SetElem δ)
  | 0 => P.wait
  | n + 1 => do
    let lo ← parseExpr n
    if ← P.is (Pred.hasText u .symbol r!"..") then do
      P.next
      let hi ← parseExpr n
      pure (.range lo hi)
    else pure (.single lo)
end

end

end TP
