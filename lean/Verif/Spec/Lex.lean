import Verif.Model.Token

/-!
# Lexical specification

What the first token of a text is, written on the remaining text only (no cursor, no loops).
`lexOne` gives the kind and the length of the first lexeme.
-/

namespace TP.Spec
open TP

inductive Lexeme
  /-- end of the text (or a NUL rune) -/
  | eof
  /-- the first rune starts no token -/
  | stuck
  /-- an unterminated string literal -/
  | unterminated
  /-- a token of the given kind made of the first `n` runes -/
  | tok (ty : TType) (n : Nat)
  deriving DecidableEq, Repr

/-- the decimal digits -/
def digit (r : Char) : Bool := '0' ≤ r && r ≤ '9'
/-- what a word may begin with: a letter or an underscore -/
def wordHead (u : Uni) (r : Char) : Bool := u.isLetter r || r == '_'
/-- what a word may consist of: letters, underscores and digits -/
def wordRune (u : Uni) (r : Char) : Bool := digit r || wordHead u r

/-- the reserved words of the language (by length) -/
def keywords : List Str :=
  [r!"AS", r!"DO", r!"IF", r!"IN", r!"IS", r!"OF", r!"OR", r!"TO", r!"AND", r!"ASM", r!"DIV", r!"END",
   r!"FOR", r!"MOD", r!"NIL", r!"NOT", r!"OUT", r!"SET", r!"SHL", r!"SHR", r!"TRY", r!"VAR", r!"XOR",
   r!"CASE", r!"ELSE", r!"FILE", r!"GOTO", r!"THEN", r!"TYPE", r!"UNIT", r!"USES", r!"WITH", r!"ARRAY",
   r!"BEGIN", r!"CLASS", r!"CONST", r!"LABEL", r!"RAISE", r!"UNTIL", r!"WHILE", r!"DOWNTO", r!"EXCEPT",
   r!"INLINE", r!"OBJECT", r!"PACKED", r!"RECORD", r!"REPEAT", r!"STRING", r!"EXPORTS", r!"FINALLY",
   r!"LIBRARY", r!"PROGRAM", r!"FUNCTION", r!"PROPERTY", r!"INHERITED", r!"INTERFACE", r!"PROCEDURE",
   r!"THREADVAR", r!"DESTRUCTOR", r!"CONSTRUCTOR", r!"FINALIZATION", r!"DISPINTERFACE", r!"IMPLEMENTATION",
   r!"INITIALIZATION", r!"RESOURCESTRING"]

/-- number of runes in front of the first rune satisfying `stop` (or the end) -/
def lenUntil (stop : Char → Bool) (s : Str) : Nat := (s.takeWhile (fun c => !stop c)).length

/-- Number of runes up to and including the first `*)`, or up to and including the first NUL,
or the whole text. -/
def starLen : Str → Nat
  | [] => 0
  | x :: t => if x = '*' ∧ t.head? = some ')' then 2 else if x = NUL then 1 else 1 + starLen t

/-- Number of runes up to and including the first quote that is not preceded by a backslash. -/
def quoteLen : Char → Str → Option Nat
  | _, [] => none
  | last, x :: t => if last ≠ '\\' ∧ x = '\'' then some 1 else (quoteLen x t).map (· + 1)

/-- the digits at the front -/
def digits (s : Str) : Str := s.takeWhile digit
def afterDigits (s : Str) : Str := s.dropWhile digit

/-- Kind and length of what follows the first rune of a numeral. -/
def numTail (s : Str) : TType × Nat :=
  match afterDigits s with
  | '.' :: '.' :: _ => (.numInt, (digits s).length)
  | '.' :: t => (.numReal, (digits s).length + 1 + (digits t).length)
  | _ => (.numInt, (digits s).length)

def symbolRunes : List Char := r!"#$&'()*+,-./:;<=>@[]^{}"
def symbolPairs : List (Char × Char) :=
  [('(', '.'), ('.', ')'), ('.', '.'), (':', '='), ('<', '='), ('>', '='), ('<', '>')]

/-- does the text start with two runes forming a pair of the table -/
def startsWithPair (table : List (Char × Char)) : Str → Bool
  | a :: b :: _ => table.contains (a, b)
  | _ => false

/-- does the text start with two runes forming a symbol -/
def startsPair (s : Str) : Bool := startsWithPair symbolPairs s

def startsDigit : Str → Bool
  | b :: _ => digit b
  | [] => false

/-- a digit, or a minus sign and a digit -/
def startsNumeral : Str → Bool
  | a :: t => digit a || (a == '-' && startsDigit t)
  | [] => false

def lexOne (u : Uni) (s : Str) : Lexeme :=
  match s with
  | [] => .eof
  | a :: t =>
    if a = NUL then .eof
    else if a = '{' then .tok .comment (min (lenUntil (fun c => c == '}' || c == NUL) t + 2) s.length)
    else if a = '/' ∧ t.head? = some '/' then .tok .comment (1 + lenUntil (fun c => c == '\n' || c == NUL) t)
    else if a = '(' ∧ t.head? = some '*' then .tok .comment (1 + starLen t)
    else if a = '\'' then
      match quoteLen NUL t with
      | none => .unterminated
      | some n => .tok .charString (1 + n)
    else if startsNumeral s then .tok (numTail t).1 (1 + (numTail t).2)
    else if startsPair s then .tok .symbol 2
    else if symbolRunes.contains a then .tok .symbol 1
    else if wordHead u a then
      let w := a :: t.takeWhile (wordRune u)
      .tok (if keywords.contains (u.toUpper w) then .reserved else .ident) w.length
    else if u.isSpace a then .tok .space (1 + (t.takeWhile u.isSpace).length)
    else .stuck

/-- is a lexeme of this kind skipped under the flags? (`sp`: spaces are kept, `co`: comments are kept) -/
def skipped (sp co : Bool) (ty : TType) : Bool := (ty == .space && !sp) || (ty == .comment && !co)

end TP.Spec
