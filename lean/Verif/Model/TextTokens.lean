import Verif.Model.Run
import Verif.Model.Parser

/-!
# All tokens of a text

What the parser gets if it calls `NextToken` (`parser/base.go:40-43`) again and again: the tokens, and what comes after
the last one.
-/

namespace TP

/-- `GetNext` until it gives the end of the text or nil; at most `n` calls with the given fuel.  `none`: not finished. -/
def lexFrom (u : Uni) (order : List (Char × Char)) (fuel : Nat) : Nat → Cursor → Option (List Token × Tail)
  | 0, _ => none
  | n + 1, c =>
    match getNext u order ⟨false, false⟩ fuel c with
    | none => none
    | some (_, none) => some ([], .nil)
    | some (c', some t) =>
      if t.typ = .eof then some ([], .eof t.text t.stop)
      else
        match lexFrom u order fuel n c' with
        | none => none
        | some (ts, tl) => some (t :: ts, tl)

/-- the tokens of a text, if the given fuel suffices -/
def lex (u : Uni) (text : Str) (n : Nat) : Option (List Token × Tail) :=
  lexFrom u doubleSymbols n n (Cursor.new text)

end TP
