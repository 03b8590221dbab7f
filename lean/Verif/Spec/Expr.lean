import Verif.Model.Expr

/-!
# What an expression tree stands for

The grammar of the comments in `ast/expression.go`, read as functions from trees to leaves (`flat`), and the
conditions on the names in a tree (`Fits`).  Nothing here refers to the parser functions.
-/

namespace TP.Spec
open TP

/-- A terminal symbol as far as the tree determines it. -/
inductive Leaf
  /-- the identifier token at a given place -/
  | ident (i : Ident)
  /-- `TRUE` or `FALSE`: any word that is not reserved -/
  | word (v : Str)
  | sym (s : Str)
  /-- a reserved word in any spelling -/
  | kw (s : Str)
  | num (v : Str)
  | str (v : Str)
  /-- any token -/
  | any
  /-- the token at a given place, of any kind -/
  | at (i : Ident)
  /-- a token with this value (`Token.Value`), of any kind -/
  | val (s : Str)
  /-- a token with this value in capitals, of any kind -/
  | upper (s : Str)
  deriving DecidableEq

/-- The token is an instance of the leaf. -/
def Leaf.Is (u : Uni) : Leaf → Token → Prop
  | .ident i, t => t.typ = .ident ∧ i = ⟨t.raw, t.start, t.stop⟩
  | .word v, t => t.typ ≠ .symbol ∧ t.typ ≠ .reserved ∧ t.raw = v
  | .sym s, t => t.typ = .symbol ∧ t.raw = s
  | .kw s, t => t.typ = .reserved ∧ u.toUpper t.raw = s
  | .num v, t => (t.typ = .numInt ∨ t.typ = .numReal) ∧ t.raw = v
  | .str v, t => t.typ = .charString ∧ t.raw = v
  | .any, _ => True
  | .at i, t => i = ⟨t.raw, t.start, t.stop⟩
  | .val s, t => t.value u = s
  | .upper s, t => u.toUpper (t.value u) = s

/-- The tokens are instances of the leaves, one by one. -/
def Leaves (u : Uni) : List Leaf → List Token → Prop
  | [], [] => True
  | l :: ls, t :: ts => l.Is u t ∧ Leaves u ls ts
  | _, _ => False

def relSyms : List Str := [r!">", r!"<", r!"<=", r!">=", r!"=", r!"<>"]
def relWords : List Str := [r!"IN", r!"IS"]
def addSyms : List Str := [r!"+", r!"-"]
def addWords : List Str := [r!"OR", r!"XOR"]
def mulSyms : List Str := [r!"*", r!"/"]
def mulWords : List Str := [r!"DIV", r!"MOD", r!"AND", r!"SHL", r!"SHR"]

/-- an operator written with symbols or with a reserved word -/
def opLeaf (op : Str) : Leaf :=
  if relWords.contains op || addWords.contains op || mulWords.contains op then .kw op else .sym op

variable {δ : Type}

/-- `[NamespaceId '.'] Ident` -/
def flatQual (q : QualId δ) : List Leaf :=
  match q.ns with
  | none => [.ident q.ident.ident]
  | some n => [.ident n.ident, .sym r!".", .ident q.ident.ident]

mutual
/-- `SimpleExpression [RelOp SimpleExpression]...` -/
def flatExpr : Expr δ → List Leaf
  | .mk se rest => flatSExpr se ++ flatRel rest
def flatRel : RelTail δ → List Leaf
  | .nil => []
  | .cons op se rest => opLeaf op :: (flatSExpr se ++ flatRel rest)
/-- `['+' | '-'] Term [AddOp Term]...` -/
def flatSExpr : SExpr δ → List Leaf
  | .mk none t rest => flatTerm t ++ flatAdd rest
  | .mk (some op) t rest => .sym op :: (flatTerm t ++ flatAdd rest)
def flatAdd : AddTail δ → List Leaf
  | .nil => []
  | .cons op t rest => opLeaf op :: (flatTerm t ++ flatAdd rest)
/-- `Factor [MulOp Factor]...` -/
def flatTerm : Term δ → List Leaf
  | .mk f rest => flatFactor f ++ flatMul rest
def flatMul : MulTail δ → List Leaf
  | .nil => []
  | .cons op f rest => opLeaf op :: (flatFactor f ++ flatMul rest)
/-- the alternatives of `Factor` -/
def flatFactor : Factor δ → List Leaf
  | .desig d => flatDesig d
  | .call d args => flatDesig d ++ .sym r!"(" :: (flatExprs args ++ [.sym r!")"])
  | .addr d => .sym r!"@" :: flatDesig d
  | .value v => [.word v]
  | .str v => [.str v]
  | .num v => [.num v]
  | .nil => [.kw r!"NIL"]
  | .paren e => .sym r!"(" :: (flatExpr e ++ [.sym r!")"])
  | .not f => .kw r!"NOT" :: flatFactor f
  | .set es => .sym r!"[" :: (flatElems es ++ [.sym r!"]"])
  | .cast t e => .ident t.ident :: .sym r!"(" :: (flatExpr e ++ [.sym r!")"])
/-- `QualId ['.' Ident | '[' ExprList ']' | '^']...` -/
def flatDesig : Desig δ → List Leaf
  | .mk q items => flatQual q ++ flatItems items
def flatItems : Items δ → List Leaf
  | .nil => []
  | .ident i rest => .sym r!"." :: .ident i :: flatItems rest
  | .index es rest => .sym r!"[" :: (flatExprs es ++ .sym r!"]" :: flatItems rest)
  | .deref rest => .sym r!"^" :: flatItems rest
/-- `Expression ','...` -/
def flatExprs : Exprs δ → List Leaf
  | .one e => flatExpr e
  | .cons e rest => flatExpr e ++ .sym r!"," :: flatExprs rest
def flatElems : SetElems δ → List Leaf
  | .one e => flatElem e
  | .cons e rest => flatElem e ++ .sym r!"," :: flatElems rest
/-- `Expression ['..' Expression]` -/
def flatElem : SetElem δ → List Leaf
  | .single e => flatExpr e
  | .range lo hi => flatExpr lo ++ .sym r!".." :: flatExpr hi
end

/-! ## Names that fit the context -/

variable {κ : Type} (u : Uni) (E : Env κ δ) (k : κ)

/-- the name denotes a unit or program -/
def Qualifies (name : Str) : Prop := ∃ d, E.get k name = some d ∧ (E.isNamespace d || E.isUses d) = true

/-- the name denotes a type -/
def IsTypeName (name : Str) : Prop := ∃ d, E.get k name = some d ∧ E.isType d = true

/-- `TRUE` or `FALSE` in any spelling -/
def Manifest (v : Str) : Prop := u.toUpper v = r!"TRUE" ∨ u.toUpper v = r!"FALSE"

/-- A qualified identifier refers to the declarations visible under its names. -/
def FitsQual (q : QualId δ) : Prop :=
  match q.ns with
  | none => ¬ Qualifies E k q.ident.ident.name ∧ q.ident.ref = E.get k q.ident.ident.name
  | some n => ∃ d m, E.get k n.ident.name = some d ∧ (E.isNamespace d || E.isUses d) = true ∧ n.ref = some d ∧
      E.member k d q.ident.ident.name = .found m ∧ q.ident.ref = some m

/-- the first identifier -/
def headName (d : Desig δ) : Str :=
  match d with
  | .mk q _ => match q.ns with
    | none => q.ident.ident.name
    | some n => n.ident.name

/-- the designator is a single identifier -/
def IsBare (d : Desig δ) : Prop :=
  match d with
  | .mk q items => q.ns = none ∧ items = .nil

mutual
def FitsExpr : Expr δ → Prop
  | .mk se rest => FitsSExpr se ∧ FitsRel rest
def FitsRel : RelTail δ → Prop
  | .nil => True
  | .cons op se rest => (op ∈ relSyms ∨ op ∈ relWords) ∧ FitsSExpr se ∧ FitsRel rest
def FitsSExpr : SExpr δ → Prop
  | .mk un t rest => (∀ op, un = some op → op ∈ addSyms) ∧ FitsTerm t ∧ FitsAdd rest
def FitsAdd : AddTail δ → Prop
  | .nil => True
  | .cons op t rest => (op ∈ addSyms ∨ op ∈ addWords) ∧ FitsTerm t ∧ FitsAdd rest
def FitsTerm : Term δ → Prop
  | .mk f rest => FitsFactor f ∧ FitsMul rest
def FitsMul : MulTail δ → Prop
  | .nil => True
  | .cons op f rest => (op ∈ mulSyms ∨ op ∈ mulWords) ∧ FitsFactor f ∧ FitsMul rest
def FitsFactor : Factor δ → Prop
  | .desig d => FitsDesig d ∧ ¬ Manifest u (headName d)
  -- a type name followed by a parenthesis is a type cast
  | .call d args => FitsDesig d ∧ ¬ Manifest u (headName d) ∧ ¬ (IsBare d ∧ IsTypeName E k (headName d)) ∧
      FitsExprs args
  | .addr d => FitsDesig d
  | .value v => Manifest u v
  | .str v => ¬ Manifest u v
  | .num v => ¬ Manifest u v
  | .nil => True
  | .paren e => FitsExpr e
  | .not f => FitsFactor f
  | .set es => FitsElems es
  | .cast t e => (∃ d, E.get k t.ident.name = some d ∧ E.isType d = true ∧ t.ref = some d) ∧
      ¬ Manifest u t.ident.name ∧ FitsExpr e
def FitsDesig : Desig δ → Prop
  | .mk q items => FitsQual E k q ∧ FitsItems items
def FitsItems : Items δ → Prop
  | .nil => True
  | .ident _ rest => FitsItems rest
  | .index es rest => FitsExprs es ∧ FitsItems rest
  | .deref rest => FitsItems rest
def FitsExprs : Exprs δ → Prop
  | .one e => FitsExpr e
  | .cons e rest => FitsExpr e ∧ FitsExprs rest
def FitsElems : SetElems δ → Prop
  | .one e => FitsElem e
  | .cons e rest => FitsElem e ∧ FitsElems rest
def FitsElem : SetElem δ → Prop
  | .single e => FitsExpr e
  | .range lo hi => FitsExpr lo ∧ FitsExpr hi
end

/-! ## Tokens that cannot continue an expression -/

/-- symbol with this text -/
def IsSym (s : Str) (t : Token) : Prop := t.typ = .symbol ∧ t.raw = s
/-- reserved word -/
def IsKw (s : Str) (t : Token) : Prop := t.typ = .reserved ∧ u.toUpper t.raw = s

def IsOp (syms words : List Str) (t : Token) : Prop := (∃ s ∈ syms, IsSym s t) ∨ (∃ s ∈ words, IsKw u s t)

/-- cannot continue a designator or a call -/
def StopsFactor (t : Token) : Prop := ¬ IsSym r!"." t ∧ ¬ IsSym r!"[" t ∧ ¬ IsSym r!"^" t ∧ ¬ IsSym r!"(" t
def StopsTerm (t : Token) : Prop := StopsFactor t ∧ ¬ IsOp u mulSyms mulWords t
def StopsSExpr (t : Token) : Prop := StopsTerm u t ∧ ¬ IsOp u addSyms addWords t
def StopsExpr (t : Token) : Prop := StopsSExpr u t ∧ ¬ IsOp u relSyms relWords t

/-! ## Environments -/

/-- the context has been replaced by its clone some number of times -/
inductive Rolls (E : Env κ δ) : κ → κ → Prop
  | refl (k : κ) : Rolls E k k
  | step {k k' : κ} : Rolls E (E.rollback k) k' → Rolls E k k'

/-- A context replaced by its clone answers in the same way (for the contexts the parser uses: C45,
`Verif/Lemmas/WorldEnv.lean`). -/
structure Lawful (E : Env κ δ) (k0 : κ) : Prop where
  get : ∀ k, Rolls E k0 k → ∀ name, E.get k name = E.get k0 name
  member : ∀ k, Rolls E k0 k → ∀ d name, E.member k d name = E.member k0 d name

end TP.Spec
