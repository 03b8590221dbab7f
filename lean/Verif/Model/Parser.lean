import Verif.Model.Tokenizer

/-!
# Model of `parser/base.go`: the state of a parser and its elementary operations

The parser reads tokens one at a time with `GetNext` and never looks at the text itself.  What `GetNext` delivers is
a list of tokens followed by one of three ends: end-of-file tokens for ever, `nil` for ever (a rune no processor
recognises), or a call that does not return (unterminated string).  `Verif/Lemmas/Stream.lean` shows that every
text gives such a stream.  The clone of the tokenizer in `RollbackPoint` is then a copy of the rest of the stream.
-/

namespace TP

/-- How the token stream ends. -/
inductive Tail
  /-- `GetNext` returns the end-of-file token at this position of the text whenever it is called -/
  | eof (text : Str) (p : Pos)
  /-- `GetNext` returns `nil` whenever it is called -/
  | nil
  /-- `GetNext` does not return -/
  | hang

/-- the token of `ProcessEof`, `token/eof.go:10-11` -/
def eofTok (text : Str) (p : Pos) : Token := ⟨.eof, text, p, p⟩

/-- The fields `tokenizer`, `curr` and `context` of `Parser`, `parser/base.go:11-16`.  `ts` starts with the current
token; if it is empty the current token is given by `tail`. -/
structure PS (κ : Type) where
  ts : List Token
  tail : Tail
  cx : κ

/-- Result of a parser function.  No function continues after an error, so the state is dropped. -/
inductive R (σ α : Type)
  | ok (a : α) (s : σ)
  /-- an error value is returned -/
  | err
  /-- run-time panic -/
  | panic
  /-- not returned (within the given fuel) -/
  | wait

/-- A method of `Parser`. -/
abbrev P (κ α : Type) := PS κ → R (PS κ) α

namespace P
variable {κ α β : Type}

protected def pure (a : α) : P κ α := fun s => .ok a s

protected def bind (p : P κ α) (f : α → P κ β) : P κ β := fun s =>
  match p s with
  | .ok a s' => f a s'
  | .err => .err
  | .panic => .panic
  | .wait => .wait

instance : Monad (P κ) where
  pure := P.pure
  bind := P.bind

/-- `return nil, err` -/
def fail : P κ α := fun _ => .err
/-- not returned -/
def wait : P κ α := fun _ => .wait
/-- run-time panic -/
def panic : P κ α := fun _ => .panic

/-- `CurrentToken`, `parser/base.go:45-47`; `none` is `nil`. -/
def cur? : P κ (Option Token) := fun s =>
  match s.ts, s.tail with
  | t :: _, _ => .ok (some t) s
  | [], .eof x p => .ok (some (eofTok x p)) s
  | [], .nil => .ok none s
  | [], .hang => .wait

/-- `CurrentToken` where a method of the token is called next: `nil` panics. -/
def cur : P κ Token := fun s =>
  match s.ts, s.tail with
  | t :: _, _ => .ok t s
  | [], .eof x p => .ok (eofTok x p) s
  | [], .nil => .panic
  | [], .hang => .wait

/-- `NextToken`, `parser/base.go:40-43` (the returned token is read with `cur`) -/
def next : P κ Unit := fun s =>
  match s.ts, s.tail with
  | _ :: t :: ts, _ => .ok () { s with ts := t :: ts }
  | [_], .hang => .wait
  | [_], _ => .ok () { s with ts := [] }
  | [], .hang => .wait
  | [], _ => .ok () s

/-- `p.CurrentToken().Is(pred)`, `token/token.go:64-66` -/
def is (pred : Pred) : P κ Bool := do
  let t ← cur
  pure (pred t)

/-- `Current`, `parser/base.go:57-62` with `Validate`, lines 64-74: `nil` gives an error. -/
def current (pred : Pred) : P κ Token := do
  match ← cur? with
  | none => fail
  | some t => if pred t then pure t else fail

/-- `Next`, `parser/base.go:49-55` -/
def nextIs (pred : Pred) : P κ Token := do
  next
  current pred

/-- `Until`, `parser/base.go:84-107`.  The function `fn` returns `false` for `QuitUntil`; what it collects is kept
by the caller in Go and is the list of results here.  `none` as separator is `nil`. -/
def untilP (terminator : Pred) (separator : Option Pred) (fn : P κ (Option α)) : Nat → P κ (List α)
  | 0 => wait
  | n + 1 => do
    match ← fn with
    | none => pure []
    | some a =>
      match ← cur? with
      | none => fail
      | some t =>
        if terminator t then pure [a]
        else
          match separator with
          | some sep =>
            if sep t then do
              next
              let as ← P.untilP terminator separator fn n
              pure (a :: as)
            else fail
          | none => do
            let as ← P.untilP terminator separator fn n
            pure (a :: as)

end P

/-- `token.Symbol(...)`, `token/predicate.go:79-89` -/
abbrev sym (s : Str) : Pred := Pred.symbol s

/-- `token.ReservedWord.HasKeyword(kw)`, `token/type.go:61-69`, for a reserved word `kw` (otherwise building the
predicate panics; every use in `parser/*.go` names a reserved word, see `keywords_reserved`). -/
def kw (u : Uni) (s : Str) : Pred := fun t => t.typ == .reserved && t.value u == s

/-- the arguments of `HasKeyword` in `parser/*.go` -/
def keywordsUsed : List Str :=
  [r!"IN", r!"IS", r!"OR", r!"XOR", r!"DIV", r!"MOD", r!"AND", r!"SHL", r!"SHR", r!"BEGIN", r!"END", r!"IF", r!"THEN",
   r!"ELSE", r!"CASE", r!"OF", r!"REPEAT", r!"UNTIL", r!"WHILE", r!"DO", r!"FOR", r!"WITH", r!"TRY", r!"EXCEPT",
   r!"FINALLY", r!"RAISE", r!"ASM", r!"GOTO", r!"INHERITED", r!"EXPORTS", r!"LABEL", r!"CONST", r!"TYPE", r!"VAR",
   r!"THREADVAR", r!"ARRAY", r!"SET", r!"RECORD", r!"FILE", r!"PACKED", r!"OBJECT", r!"CLASS", r!"FUNCTION",
   r!"PROCEDURE", r!"CONSTRUCTOR", r!"DESTRUCTOR", r!"PROPERTY", r!"UNIT", r!"INTERFACE", r!"USES", r!"IMPLEMENTATION",
   r!"INITIALIZATION", r!"FINALIZATION", r!"PROGRAM"]

theorem keywords_reserved : ∀ k ∈ keywordsUsed, k ∈ reservedWords := by decide

theorem kw_eq_hasKeyword (u : Uni) (s : Str) (h : isReservedWord u s = true) :
    Pred.hasKeyword u .reserved s = some (kw u s) := by
  simp [Pred.hasKeyword, h]; rfl

end TP
