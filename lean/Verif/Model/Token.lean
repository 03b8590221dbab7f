import Verif.Model.Runes

/-!
# Model of `token.go`, `type.go`, `predicate.go`, `reserved_words.go` of package `token`
-/

namespace TP

/-- `token/type.go:9-23` -/
inductive TType
  | eof | space | comment | symbol | ident | qualIdent | reserved | numInt | numReal | label | charString
  deriving DecidableEq, Repr

/-- `token/token.go:10-15` -/
structure Token where
  typ : TType
  text : Str
  start : Pos
  stop : Pos
  deriving DecidableEq, Repr

/-- `reservedWords`, `token/reserved_words.go:13-79` -/
def reservedWords : List Str :=
  [r!"AND", r!"ARRAY", r!"AS", r!"ASM", r!"BEGIN", r!"CASE", r!"CLASS", r!"CONST", r!"CONSTRUCTOR",
   r!"DESTRUCTOR", r!"DISPINTERFACE", r!"DIV", r!"DO", r!"DOWNTO", r!"ELSE", r!"END", r!"EXCEPT",
   r!"EXPORTS", r!"FILE", r!"FINALIZATION", r!"FINALLY", r!"FOR", r!"FUNCTION", r!"GOTO", r!"IF",
   r!"IMPLEMENTATION", r!"IN", r!"INHERITED", r!"INITIALIZATION", r!"INLINE", r!"INTERFACE", r!"IS",
   r!"LABEL", r!"LIBRARY", r!"MOD", r!"NIL", r!"NOT", r!"OBJECT", r!"OF", r!"OR", r!"OUT", r!"PACKED",
   r!"PROCEDURE", r!"PROGRAM", r!"PROPERTY", r!"RAISE", r!"RECORD", r!"REPEAT", r!"RESOURCESTRING",
   r!"SET", r!"SHL", r!"SHR", r!"STRING", r!"THEN", r!"THREADVAR", r!"TO", r!"TRY", r!"TYPE", r!"UNIT",
   r!"UNTIL", r!"USES", r!"VAR", r!"WHILE", r!"WITH", r!"XOR"]

/-- `isReservedWord`, `token/reserved_words.go:9-11`.  `ext.Strings.Include` is modelled by `List.contains` (see `Model/Ext.lean`). -/
def isReservedWord (u : Uni) (w : Str) : Bool := reservedWords.contains (u.toUpper w)

namespace Token

/-- `Raw`/`RawString`, `token/token.go:30-36`: the slice `text[start:stop]`. -/
def raw (t : Token) : Str := (t.text.take t.stop.index).drop t.start.index

/-- `Value`, `token/token.go:38-46` -/
def value (u : Uni) (t : Token) : Str :=
  match t.typ with
  | .reserved => u.toUpper t.raw
  | _ => t.raw

/-- `Len`, `token/token.go:48-50` -/
def len (t : Token) : Int := (t.stop.index : Int) - t.start.index

end Token

/-- A predicate on tokens: `Predicate` of `token/predicate.go:10-13` (the display name is not modelled). -/
abbrev Pred := Token → Bool

namespace Pred
/-- `Predicators.Some`, `token/predicate.go:25-32` -/
def some (ps : List Pred) : Pred := fun t => ps.any (fun p => p t)
/-- `Predicators.Every`, `token/predicate.go:34-41` -/
def every (ps : List Pred) : Pred := fun t => ps.all (fun p => p t)
/-- `Not`, `token/predicate.go:114-119` -/
def not (p : Pred) : Pred := fun t => !p t
/-- `Type.Predicate`, `token/type.go:49-51`, and `TokenType`, `token/predicate.go:72-77` -/
def typ (ty : TType) : Pred := fun t => t.typ == ty
/-- `Symbol`, `token/predicate.go:79-89` -/
def symbol (rs : Str) : Pred := fun t => if t.typ ≠ .symbol then false else runesEqual t.raw rs
/-- `Value`, `token/predicate.go:91-96` -/
def value (u : Uni) (v : Str) : Pred := fun t => t.value u == v
/-- `UpperCase`, `token/predicate.go:98-103` -/
def upperCase (u : Uni) (v : Str) : Pred := fun t => u.toUpper (t.value u) == v
/-- `Type.HasText`, `token/type.go:53-58` -/
def hasText (u : Uni) (ty : TType) (s : Str) : Pred := fun t => t.typ == ty && t.value u == s
/-- `Type.HasKeyword`, `token/type.go:61-69`; `none` is the panic of lines 62-64. -/
def hasKeyword (u : Uni) (ty : TType) (kw : Str) : Option Pred :=
  if ty == .reserved && !isReservedWord u kw then Option.none
  else Option.some (fun t => t.typ == ty && t.value u == kw)
end Pred

end TP
