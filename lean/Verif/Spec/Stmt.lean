import Verif.Model.Stmt
import Verif.Spec.Expr

/-!
# What a statement tree stands for

The grammar of the comments in `ast/statement.go`, as far as `parser/statement*.go` follows it, read as functions
from trees to sequences of pieces.  Two things are not in the tree: whether an optional semicolon was written, and
the text of an assembler block.  Nothing here refers to the parser functions.
-/

namespace TP.Spec
open TP

/-- Part of a flattened statement. -/
inductive Piece
  | tok (l : Leaf)
  /-- a semicolon that may be missing -/
  | optSemi
  /-- the tokens between `ASM` and its `END`: at least one token, none of them after the first being `END` -/
  | asmBody
  /-- the tokens of a type, by a grammar of its own -/
  | type (p : List Token → Prop)

/-- The tokens are an instance of the piece. -/
def Piece.Is (u : Uni) : Piece → List Token → Prop
  | .tok l, ts => ∃ t, ts = [t] ∧ l.Is u t
  | .optSemi, ts => ts = [] ∨ ∃ t, ts = [t] ∧ IsSym r!";" t
  | .asmBody, ts => ∃ t body, ts = t :: body ∧ ∀ x ∈ body, ¬ IsKw u r!"END" x
  | .type p, ts => p ts

/-- The tokens are instances of the pieces, in order. -/
def Pieces (u : Uni) : List Piece → List Token → Prop
  | [], ts => ts = []
  | p :: ps, ts => ∃ a b, ts = a ++ b ∧ p.Is u a ∧ Pieces u ps b

/-- leaves as pieces -/
def toks (ls : List Leaf) : List Piece := ls.map .tok
def sy (s : Str) : Piece := .tok (.sym s)
def kwd (s : Str) : Piece := .tok (.kw s)

variable {δ τ : Type}

def flatCaseLabel : CaseLabel δ → List Leaf
  | .single e => flatExpr e
  | .range lo hi => flatExpr lo ++ .sym r!".." :: flatExpr hi

def flatCaseLabels : CaseLabels δ → List Leaf
  | .one l => flatCaseLabel l
  | .cons l rest => flatCaseLabel l ++ .sym r!"," :: flatCaseLabels rest

def flatQualIds : QualIds δ → List Leaf
  | .one q => flatQual q
  | .cons q rest => flatQual q ++ .sym r!"," :: flatQualIds rest

mutual
/-- the statement ends with a `RAISE` without operands -/
def bareRaise : Stmt δ τ → Bool
  | .mk _ b => bareRaiseB b
def bareRaiseB : Body δ τ → Bool
  | .raise none none => true
  | .ifThen _ s => bareRaise s
  | .ifElse _ _ s => bareRaise s
  | .while _ s => bareRaise s
  | .for _ _ _ _ s => bareRaise s
  | .with _ s => bareRaise s
  | _ => false
end

mutual
/-- the statement ends with an `IF` without `ELSE` -/
def openIf : Stmt δ τ → Bool
  | .mk _ b => openIfB b
def openIfB : Body δ τ → Bool
  | .ifThen _ _ => true
  | .ifElse _ _ s => openIf s
  | .while _ s => openIf s
  | .for _ _ _ _ s => openIf s
  | .with _ s => openIf s
  | _ => false
end

/-- a semicolon before the end of a list; after a bare `RAISE` it is required -/
def lastSemi (s : Stmt δ τ) : Piece := if bareRaise s then sy r!";" else .optSemi

/-- the semicolon after an exception handler; before `ELSE` (`e`) it is required after an `IF` without `ELSE` -/
def handlerSemi (e : Bool) (s : Stmt δ τ) : Piece :=
  if bareRaise s || (e && openIf s) then sy r!";" else .optSemi

variable (fty : τ → List Piece)

/-- `[LabelId ':']` -/
def flatLabel : Option Ident → List Piece
  | none => []
  | some i => [.tok (.at i), sy r!":"]

def flatRaise (obj addr : Option (Expr δ)) : List Piece :=
  kwd r!"RAISE" :: ((match obj with | none => [] | some e => toks (flatExpr e)) ++
    (match addr with | none => [] | some e => .tok (.upper r!"AT") :: toks (flatExpr e)))

mutual
/-- `[LabelId ':'] StatementBody` -/
def flatStmt : Stmt δ τ → List Piece
  | .mk l b => flatLabel l ++ flatBody b
def flatBody : Body δ τ → List Piece
  | .assign d e => toks (flatDesig d) ++ .tok (.val r!":=") :: toks (flatExpr e)
  | .call d => toks (flatDesig d)
  | .callArgs d args => toks (flatDesig d) ++ sy r!"(" :: (toks (flatExprs args) ++ [sy r!")"])
  | .inherited => [kwd r!"INHERITED"]
  | .goto i _ => [kwd r!"GOTO", .tok (.ident i)]
  | .compound l => kwd r!"BEGIN" :: (flatStmts l ++ [kwd r!"END"])
  | .ifThen c s => kwd r!"IF" :: (toks (flatExpr c) ++ kwd r!"THEN" :: flatStmt s)
  | .ifElse c s1 s2 => kwd r!"IF" :: (toks (flatExpr c) ++ kwd r!"THEN" :: (flatStmt s1 ++ kwd r!"ELSE" :: flatStmt s2))
  | .case e sels els => kwd r!"CASE" :: (toks (flatExpr e) ++ kwd r!"OF" :: (flatSels sels ++ (flatElse els ++ [kwd r!"END"])))
  | .repeat l c => kwd r!"REPEAT" :: (flatStmts l ++ kwd r!"UNTIL" :: toks (flatExpr c))
  | .while c s => kwd r!"WHILE" :: (toks (flatExpr c) ++ kwd r!"DO" :: flatStmt s)
  | .for q down lo hi s => kwd r!"FOR" :: (toks (flatQual q) ++ sy r!":=" :: (toks (flatExpr lo) ++
      .tok (.val (if down then r!"DOWNTO" else r!"TO")) :: (toks (flatExpr hi) ++ kwd r!"DO" :: flatStmt s)))
  | .with qs s => kwd r!"WITH" :: (toks (flatQualIds qs) ++ kwd r!"DO" :: flatStmt s)
  | .tryExcept l b => kwd r!"TRY" :: (flatStmts l ++ kwd r!"EXCEPT" :: flatExc b)
  | .tryFinally l1 l2 => kwd r!"TRY" :: (flatStmts l1 ++ kwd r!"FINALLY" :: (flatStmts l2 ++ [kwd r!"END"]))
  | .raise obj addr => flatRaise obj addr
  | .asm => [kwd r!"ASM", .asmBody, kwd r!"END"]
/-- `Statement ';'...`, the last semicolon may be missing -/
def flatStmts : Stmts δ τ → List Piece
  | .one s => flatStmt s ++ [lastSemi s]
  | .cons s rest => flatStmt s ++ sy r!";" :: flatStmts rest
/-- `[ELSE StmtList]` -/
def flatElse : OptStmts δ τ → List Piece
  | .none => []
  | .some l => kwd r!"ELSE" :: flatStmts l
/-- `CaseLabel ','... ':' Statement ';'` -/
def flatSels : Sels δ τ → List Piece
  | .one ls s => toks (flatCaseLabels ls) ++ sy r!":" :: (flatStmt s ++ [sy r!";"])
  | .cons ls s rest => toks (flatCaseLabels ls) ++ sy r!":" :: (flatStmt s ++ sy r!";" :: flatSels rest)
def flatExc : ExcBlock δ τ → List Piece
  | .plain l => flatStmts l ++ [kwd r!"END"]
  | .handlers hs .none => flatHandlers false hs ++ [.optSemi, kwd r!"END"]
  | .handlers hs (.some l) => flatHandlers true hs ++ kwd r!"ELSE" :: (flatStmts l ++ [kwd r!"END"])
def flatHandlers (e : Bool) : Handlers δ τ → List Piece
  | .one h => flatHandler e h
  | .cons h rest => flatHandler false h ++ flatHandlers e rest
/-- `ON [Ident ':'] Type DO Statement [';']` -/
def flatHandler (e : Bool) : Handler δ τ → List Piece
  | .mk i ty s => .tok (.upper r!"ON") :: (flatLabel i ++ (fty ty ++ .tok (.upper r!"DO") :: (flatStmt s ++ [handlerSemi e s])))
end

/-! ## Derivations

`DStmt k st ts k'`: the tokens `ts`, read in the context `k`, are the statement `st`, and the context is `k'` afterwards
(exception handlers declare a name).  One clause for each rule of the grammar.  With `L` the names have to fit the
context; otherwise the derivation is about tokens only. -/

section
variable {κ : Type} (u : Uni) (S : SEnv κ δ τ) (L : Prop) (DTy : κ → τ → List Token → κ → Prop)

def DExpr (k : κ) (e : Expr δ) (ts : List Token) : Prop := Leaves u (flatExpr e) ts ∧ (L → FitsExpr u S.toEnv k e)
def DExprs (k : κ) (e : Exprs δ) (ts : List Token) : Prop := Leaves u (flatExprs e) ts ∧ (L → FitsExprs u S.toEnv k e)
def DDesig (k : κ) (d : Desig δ) (ts : List Token) : Prop := Leaves u (flatDesig d) ts ∧ (L → FitsDesig u S.toEnv k d)
def DQual (k : κ) (q : QualId δ) (ts : List Token) : Prop := Leaves u (flatQual q) ts ∧ (L → FitsQual S.toEnv k q)

def DQualIds (k : κ) : QualIds δ → List Token → Prop
  | .one q, ts => DQual u S L k q ts
  | .cons q rest, ts => ∃ x t y, ts = x ++ t :: y ∧ DQual u S L k q x ∧ IsSym r!"," t ∧ DQualIds k rest y

def DCaseLabel (k : κ) : CaseLabel δ → List Token → Prop
  | .single e, ts => DExpr u S L k e ts
  | .range lo hi, ts => ∃ x t y, ts = x ++ t :: y ∧ DExpr u S L k lo x ∧ IsSym r!".." t ∧ DExpr u S L k hi y

def DCaseLabels (k : κ) : CaseLabels δ → List Token → Prop
  | .one l, ts => DCaseLabel u S L k l ts
  | .cons l rest, ts => ∃ x t y, ts = x ++ t :: y ∧ DCaseLabel u S L k l x ∧ IsSym r!"," t ∧ DCaseLabels k rest y

/-- the name denotes a label -/
def IsLabelName (k : κ) (name : Str) : Prop := ∃ d, S.get k name = some d ∧ S.isLabel d = true

/-- the word is written in any spelling, and not necessarily recognised as a reserved word -/
def IsUp (s : Str) (t : Token) : Prop := u.toUpper (t.value u) = s

/-- `RAISE [Object] [AT Address]`; without operands a semicolon has to follow, and an object does not begin with a
word `AT` -/
def DRaise (k : κ) (obj addr : Option (Expr δ)) (ts : List Token) : Prop :=
  ∃ t x y, ts = t :: (x ++ y) ∧ IsKw u r!"RAISE" t ∧
    (match obj with
     | none => x = []
     | some e => DExpr u S L k e x ∧ ∀ t, x.head? = some t → ¬ IsUp u r!"AT" t) ∧
    (match addr with
     | none => y = []
     | some e => ∃ t z, y = t :: z ∧ IsUp u r!"AT" t ∧ DExpr u S L k e z)

mutual
def DStmt (k : κ) : Stmt δ τ → List Token → κ → Prop
  | .mk none b, ts, k' => DBody k b ts k' ∧ (L → ∀ t, ts.head? = some t → ¬ IsLabelName S k (t.value u))
  | .mk (some i) b, ts, k' => ∃ t c x, ts = t :: c :: x ∧ i = ⟨t.raw, t.start, t.stop⟩ ∧ IsSym r!":" c ∧
      (L → IsLabelName S k (t.value u)) ∧ DBody k b x k'
def DBody (k : κ) : Body δ τ → List Token → κ → Prop
  | .assign d e, ts, k' => k' = k ∧ ∃ x t y, ts = x ++ t :: y ∧ DDesig u S L k d x ∧ t.value u = r!":=" ∧ DExpr u S L k e y
  | .call d, ts, k' => k' = k ∧ DDesig u S L k d ts
  | .callArgs d args, ts, k' => k' = k ∧ ∃ x t y c, ts = x ++ t :: (y ++ [c]) ∧ DDesig u S L k d x ∧ IsSym r!"(" t ∧
      DExprs u S L k args y ∧ IsSym r!")" c
  | .inherited, ts, k' => k' = k ∧ ∃ t, ts = [t] ∧ IsKw u r!"INHERITED" t
  | .goto i ref, ts, k' => k' = k ∧ ∃ t l, ts = [t, l] ∧ IsKw u r!"GOTO" t ∧ l.typ = .ident ∧ i = ⟨l.raw, l.start, l.stop⟩ ∧
      (L → ref = S.get k l.raw)
  | .compound l, ts, k' => ∃ t x c, ts = t :: (x ++ [c]) ∧ IsKw u r!"BEGIN" t ∧ DStmts k l x k' ∧ IsKw u r!"END" c
  | .ifThen c s, ts, k' => ∃ t x h y, ts = t :: (x ++ h :: y) ∧ IsKw u r!"IF" t ∧ DExpr u S L k c x ∧ IsKw u r!"THEN" h ∧
      DStmt k s y k'
  | .ifElse c s1 s2, ts, k' => ∃ t x h y e z k1, ts = t :: (x ++ h :: (y ++ e :: z)) ∧ IsKw u r!"IF" t ∧ DExpr u S L k c x ∧
      IsKw u r!"THEN" h ∧ DStmt k s1 y k1 ∧ openIf s1 = false ∧ bareRaise s1 = false ∧ IsKw u r!"ELSE" e ∧ DStmt k1 s2 z k'
  | .case e sels els, ts, k' => ∃ t x h y z c k1, ts = t :: (x ++ h :: (y ++ (z ++ [c]))) ∧ IsKw u r!"CASE" t ∧
      DExpr u S L k e x ∧ IsKw u r!"OF" h ∧ DSels k sels y k1 ∧ DElse k1 els z k' ∧ IsKw u r!"END" c
  | .repeat l c, ts, k' => ∃ t x h y, ts = t :: (x ++ h :: y) ∧ IsKw u r!"REPEAT" t ∧ DStmts k l x k' ∧ IsKw u r!"UNTIL" h ∧
      DExpr u S L k' c y
  | .while c s, ts, k' => ∃ t x h y, ts = t :: (x ++ h :: y) ∧ IsKw u r!"WHILE" t ∧ DExpr u S L k c x ∧ IsKw u r!"DO" h ∧
      DStmt k s y k'
  | .for q down lo hi s, ts, k' => ∃ t x a y o z h w, ts = t :: (x ++ a :: (y ++ o :: (z ++ h :: w))) ∧ IsKw u r!"FOR" t ∧
      DQual u S L k q x ∧ IsSym r!":=" a ∧ DExpr u S L k lo y ∧ o.value u = (if down then r!"DOWNTO" else r!"TO") ∧
      DExpr u S L k hi z ∧ IsKw u r!"DO" h ∧ DStmt k s w k'
  | .with qs s, ts, k' => ∃ t x h y, ts = t :: (x ++ h :: y) ∧ IsKw u r!"WITH" t ∧ DQualIds u S L k qs x ∧ IsKw u r!"DO" h ∧
      DStmt k s y k'
  | .tryExcept l b, ts, k' => ∃ t x h y k1, ts = t :: (x ++ h :: y) ∧ IsKw u r!"TRY" t ∧ DStmts k l x k1 ∧
      IsKw u r!"EXCEPT" h ∧ DExc k1 b y k'
  | .tryFinally l1 l2, ts, k' => ∃ t x h y c k1, ts = t :: (x ++ h :: (y ++ [c])) ∧ IsKw u r!"TRY" t ∧ DStmts k l1 x k1 ∧
      IsKw u r!"FINALLY" h ∧ DStmts k1 l2 y k' ∧ IsKw u r!"END" c
  | .raise obj addr, ts, k' => k' = k ∧ DRaise u S L k obj addr ts
  | .asm, ts, k' => k' = k ∧ ∃ t f body c, ts = t :: f :: (body ++ [c]) ∧ IsKw u r!"ASM" t ∧
      (∀ x ∈ body, ¬ IsKw u r!"END" x) ∧ IsKw u r!"END" c
def DStmts (k : κ) : Stmts δ τ → List Token → κ → Prop
  | .one s, ts, k' => (bareRaise s = false ∧ DStmt k s ts k') ∨ ∃ x t, ts = x ++ [t] ∧ DStmt k s x k' ∧ IsSym r!";" t
  | .cons s rest, ts, k' => ∃ x t y k1, ts = x ++ t :: y ∧ DStmt k s x k1 ∧ IsSym r!";" t ∧ DStmts k1 rest y k'
def DElse (k : κ) : OptStmts δ τ → List Token → κ → Prop
  | .none, ts, k' => ts = [] ∧ k' = k
  | .some l, ts, k' => ∃ t x, ts = t :: x ∧ IsKw u r!"ELSE" t ∧ DStmts k l x k'
def DSels (k : κ) : Sels δ τ → List Token → κ → Prop
  | .one ls s, ts, k' => ∃ x t y c, ts = x ++ t :: (y ++ [c]) ∧ DCaseLabels u S L k ls x ∧ IsSym r!":" t ∧ DStmt k s y k' ∧
      IsSym r!";" c
  | .cons ls s rest, ts, k' => ∃ x t y c z k1, ts = x ++ t :: (y ++ c :: z) ∧ DCaseLabels u S L k ls x ∧ IsSym r!":" t ∧
      DStmt k s y k1 ∧ IsSym r!";" c ∧ DSels k1 rest z k'
def DExc (k : κ) : ExcBlock δ τ → List Token → κ → Prop
  | .plain l, ts, k' => ∃ x c, ts = x ++ [c] ∧ DStmts k l x k' ∧ IsKw u r!"END" c ∧
      ∀ t, x.head? = some t → ¬ IsUp u r!"ON" t
  | .handlers hs .none, ts, k' => ∃ x y c, ts = x ++ (y ++ [c]) ∧ DHandlers k false hs x k' ∧
      -- a second semicolon after the last handler
      (y = [] ∨ ∃ t x' t', y = [t] ∧ IsSym r!";" t ∧ x = x' ++ [t'] ∧ IsSym r!";" t') ∧ IsKw u r!"END" c
  | .handlers hs (.some l), ts, k' => ∃ x t y c k1, ts = x ++ t :: (y ++ [c]) ∧ DHandlers k true hs x k1 ∧
      IsKw u r!"ELSE" t ∧ DStmts k1 l y k' ∧ IsKw u r!"END" c
def DHandlers (k : κ) (e : Bool) : Handlers δ τ → List Token → κ → Prop
  | .one h, ts, k' => DHandler k e h ts k'
  | .cons h rest, ts, k' => ∃ x y k1, ts = x ++ y ∧ DHandler k false h x k1 ∧ DHandlers k1 e rest y k'
def DHandler (k : κ) (e : Bool) : Handler δ τ → List Token → κ → Prop
  | .mk none ty s, ts, k' => ∃ t x d y z k1, ts = t :: (x ++ d :: (y ++ z)) ∧ IsUp u r!"ON" t ∧ DTy k ty x k1 ∧
      (L → ∀ t, (x ++ [d]).head? = some t → IsTypeName S.toEnv k t.raw) ∧ IsUp u r!"DO" d ∧ DStmt k1 s y k' ∧
      ((z = [] ∧ bareRaise s = false ∧ (e && openIf s) = false) ∨ ∃ t, z = [t] ∧ IsSym r!";" t)
  | .mk (some i) ty s, ts, k' => ∃ t n c x d y z k1 k2, ts = t :: n :: c :: (x ++ d :: (y ++ z)) ∧ IsUp u r!"ON" t ∧
      i = ⟨n.raw, n.start, n.stop⟩ ∧ (L → ¬ IsTypeName S.toEnv k n.raw) ∧ IsSym r!":" c ∧ DTy k ty x k1 ∧
      (L → S.setHandler k1 i ty = .ok k2) ∧ IsUp u r!"DO" d ∧ DStmt k2 s y k' ∧
      ((z = [] ∧ bareRaise s = false ∧ (e && openIf s) = false) ∨ ∃ t, z = [t] ∧ IsSym r!";" t)
end

end

/-! ## Tokens that cannot continue a statement -/

/-- cannot continue an expression, an assignment or a `RAISE` statement -/
def PlainStop (u : Uni) (t : Token) : Prop := StopsExpr u t ∧ t.value u ≠ r!":=" ∧ ¬ IsUp u r!"AT" t

/-- Cannot continue this statement; a semicolon if the statement requires one. -/
def StopsStmt (u : Uni) (st : Stmt δ τ) (t : Token) : Prop :=
  PlainStop u t ∧ (openIf st = true → ¬ IsKw u r!"ELSE" t) ∧ (bareRaise st = true → IsSym r!";" t)

end TP.Spec
