import Verif.Model.Token

/-!
# Model of the token processors and the tokenizer of package `token`

A processor returns `none` when it has not returned within the given fuel, otherwise the new cursor and the
token (or no token, Go's `nil`).
-/

namespace TP

/-- A Go `for` loop: `body` either continues with a new state (`inl`) or leaves the loop with a result
(`inr`).  `none`: the loop has not been left within `fuel` rounds. -/
def goLoop {σ β : Type} (body : σ → σ ⊕ β) : Nat → σ → Option β
  | 0, _ => none
  | n + 1, s =>
    match body s with
    | .inl s' => goLoop body n s'
    | .inr b => some b

/-- Result of a processor: `none` = not returned yet. -/
abbrev ProcRes := Option (Cursor × Option Token)

/-- `NewToken(typ, c.Text, start, c.Position.Clone())`, `token/token.go:17-19` -/
def mkTok (typ : TType) (c : Cursor) (start : Pos) : Token := ⟨typ, c.text, start, c.pos⟩

/-- `ProcessEof`, `token/eof.go:7-13` -/
def procEof (c : Cursor) : ProcRes :=
  if c.current = NUL then some (c, some (mkTok .eof c c.pos)) else some (c, none)

/-- loop of `token/comment.go:11-15` -/
def braceBody (c : Cursor) : Cursor ⊕ Cursor :=
  let (c', r) := c.next
  if r = '}' ∨ r = NUL then .inr c' else .inl c'

/-- loop of `token/comment.go:21-25` -/
def slashBody (c : Cursor) : Cursor ⊕ Cursor :=
  let (c', r) := c.next
  if r = '\n' ∨ r = NUL then .inr c' else .inl c'

/-- loop of `token/comment.go:33-42` -/
def parenBody (c : Cursor) : Cursor ⊕ Cursor :=
  let (c', r) := c.next
  if r = '*' ∧ c'.seek 1 = ')' then .inr c'.next.1
  else if r = NUL then .inr c'
  else .inl c'

/-- `ProcessComment`, `token/comment.go:7-49` -/
def procComment (fuel : Nat) (c : Cursor) : ProcRes :=
  if c.current = '{' then
    match goLoop braceBody fuel c with
    | none => none
    | some c' => let c'' := c'.next.1; some (c'', some (mkTok .comment c'' c.pos))
  else if c.current = '/' then
    if c.seek 1 = '/' then
      match goLoop slashBody fuel c with
      | none => none
      | some c' => some (c', some (mkTok .comment c' c.pos))
    else some (c, none)
  else if c.current = '(' then
    if c.seek 1 = '*' then
      match goLoop parenBody fuel c with
      | none => none
      | some c' => let c'' := c'.next.1; some (c'', some (mkTok .comment c'' c.pos))
    else some (c, none)
  else some (c, none)

/-- loop of `token/string.go:12-18`; the state is the cursor and `last`. -/
def stringBody (s : Cursor × Char) : (Cursor × Char) ⊕ Cursor :=
  let (c', r) := s.1.next
  if s.2 ≠ '\\' ∧ r = '\'' then .inr c' else .inl (c', r)

/-- `ProcessString`, `token/string.go:7-23` -/
def procString (fuel : Nat) (c : Cursor) : ProcRes :=
  if c.current = '\'' then
    match goLoop stringBody fuel (c, NUL) with
    | none => none
    | some c' => let c'' := c'.next.1; some (c'', some (mkTok .charString c'' c.pos))
  else some (c, none)

/-- loop of `token/numeral.go:11-29`; the state is the cursor and `tokenType`. -/
def numeralBody (s : Cursor × TType) : (Cursor × TType) ⊕ (Cursor × TType) :=
  let (c', r) := s.1.next
  if isDigit r then .inl (c', s.2)
  else if r = NUL then .inr (c', s.2)
  else if r = '.' then
    if c'.seek 1 = '.' then .inr (c', s.2)
    else if s.2 = .numReal then .inr (c', s.2)
    else .inl (c', .numReal)
  else .inr (c', s.2)

/-- `ProcessNumeral`, `token/numeral.go:7-33` -/
def procNumeral (fuel : Nat) (c : Cursor) : ProcRes :=
  if isDigit c.current || (isUnaryOp c.current && isDigit (c.seek 1)) then
    match goLoop numeralBody fuel (c, .numInt) with
    | none => none
    | some (c', ty) => some (c', some (mkTok ty c' c.pos))
  else some (c, none)

/-- `SingleSpecialSymbols`, `token/special_symbols.go:5-29` -/
def singleSymbols : List Char :=
  ['#', '$', '&', '\'', '(', ')', '*', '+', ',', '-', '.', '/', ':', ';', '<', '=', '>', '@', '[', ']', '^',
   '{', '}']

/-- `ProcessSingleSpecialSymbol`, `token/special_symbols.go:33-40` -/
def procSingle (c : Cursor) : ProcRes :=
  if singleSymbols.contains c.current then
    let c' := c.next.1
    some (c', some (mkTok .symbol c' c.pos))
  else some (c, none)

/-- `TwoRunesSpecialSymbols`, `token/special_symbols.go:42-53` -/
def doubleSymbols : List (Char × Char) :=
  [('(', '.'), ('.', ')'), ('.', '.'), (':', '='), ('<', '='), ('>', '='), ('<', '>')]

/-- `ProcessDoubleSpecialSymbol`, `token/special_symbols.go:55-65`.  The Go map is iterated in random order:
the order is the parameter `order`. -/
def procDouble (order : List (Char × Char)) (c : Cursor) : ProcRes :=
  match order with
  | [] => some (c, none)
  | rs :: rest =>
    if c.current = rs.1 ∧ c.seek 1 = rs.2 then
      let c' := c.next.1
      let c'' := c'.next.1
      some (c'', some (mkTok .symbol c'' c.pos))
    else procDouble rest c

/-- loop of `token/word.go:10-11` -/
def wordBody (u : Uni) (c : Cursor) : Cursor ⊕ Cursor :=
  let (c', r) := c.next
  if isWord u r then .inl c' else .inr c'

/-- `ProcessWord`, `token/word.go:7-22` -/
def procWord (u : Uni) (fuel : Nat) (c : Cursor) : ProcRes :=
  if isWordHead u c.current then
    match goLoop (wordBody u) fuel c with
    | none => none
    | some c' =>
      let t := mkTok .ident c' c.pos
      let s := t.value u
      if isReservedWord u s then some (c', some { t with typ := .reserved })
      else some (c', some { t with typ := .ident })
  else some (c, none)

/-- loop of `token/space.go:12-13` -/
def spaceBody (u : Uni) (c : Cursor) : Cursor ⊕ Cursor :=
  let (c', r) := c.next
  if u.isSpace r then .inl c' else .inr c'

/-- `ProcessSpace`, `token/space.go:9-17` -/
def procSpace (u : Uni) (fuel : Nat) (c : Cursor) : ProcRes :=
  if u.isSpace c.current then
    match goLoop (spaceBody u) fuel c with
    | none => none
    | some c' => some (c', some (mkTok .space c' c.pos))
  else some (c, none)

/-- The loop over `processors`, `token/tokenizer.go:48-50`: the first processor that returns a token. -/
def runProcs : List (Cursor → ProcRes) → Cursor → ProcRes
  | [], c => some (c, none)
  | p :: ps, c =>
    match p c with
    | none => none
    | some (c', some t) => some (c', some t)
    | some (c', none) => runProcs ps c'

/-- `processors`, `token/tokenizer.go:36-45`. -/
def processors (u : Uni) (order : List (Char × Char)) (fuel : Nat) : List (Cursor → ProcRes) :=
  [procEof, procComment fuel, procString fuel, procNumeral fuel, procDouble order, procSingle,
   procWord u fuel, procSpace u fuel]

/-- The two flags of `token/tokenizer.go:14-18`. -/
structure Flags where
  loadSpace : Bool
  loadComment : Bool
  deriving DecidableEq, Repr

/-- `GetNext`, `token/tokenizer.go:47-61`.  The recursive call of lines 52 and 54 uses up fuel. -/
def getNext (u : Uni) (order : List (Char × Char)) (fl : Flags) : Nat → Cursor → ProcRes
  | 0, _ => none
  | n + 1, c =>
    match runProcs (processors u order n) c with
    | none => none
    | some (c', none) => some (c', none)
    | some (c', some t) =>
      if !fl.loadSpace && t.typ == .space then getNext u order fl n c'
      else if !fl.loadComment && t.typ == .comment then getNext u order fl n c'
      else some (c', some t)

end TP
