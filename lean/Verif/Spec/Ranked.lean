import Verif.Spec.Panic

/-!
# Closed assembler blocks, and type declarations that are not circular

Read off the tokens: which names the searches through types may follow from the type that begins at a token.
-/

namespace TP.Spec
open TP

variable (u : Uni)

/-- Every word `ASM` is followed, after one more token, by an `END`. -/
def AsmClosed (ts : List Token) : Prop :=
  ∀ a rest, a :: rest <:+ ts → IsKw u r!"ASM" a → ∃ x ∈ rest.tail, IsKw u r!"END" x

theorem asmClosed_tail {t : Token} {ts : List Token} (h : AsmClosed u (t :: ts)) : AsmClosed u ts :=
  fun a rest hs ha => h a rest (hs.trans (List.suffix_cons t ts)) ha

/-- the names of a heritage: of the tokens at hand, and after every comma -/
def heirs : List Token → List Str
  | t :: c :: ts => if c.raw = r!"," then t.raw :: heirs ts else [t.raw]
  | [t] => [t.raw]
  | [] => [[]]

/-- The names that the searches may follow from the type that begins here.  Words before the name of a type (`set of`,
`file of`, `packed`, `type`) are in the list too, they are not names of types. -/
def follows : List Token → List Str
  | [] => [[]]
  | t :: ts =>
    t.raw :: (if u.toUpper t.raw ∈ [r!"TYPE", r!"PACKED", r!"SET", r!"FILE", r!"OF"] then follows ts
      else if u.toUpper t.raw = r!"CLASS" ∧ ts.head?.map Token.raw = some r!"(" then heirs ts.tail else [])

/-- Wherever the tokens look like the declaration of a type, `x = …` after `TYPE` or a semicolon, the names in it that
the searches may follow have a smaller rank than `x`.  The case of letters does not matter. -/
def Ranked (rank : Str → Nat) (ts : List Token) : Prop :=
  ∀ prev x eq rest, (prev :: x :: eq :: rest) <:+ ts → IsKw u r!"TYPE" prev ∨ IsSym r!";" prev → x.typ = .ident →
    IsSym r!"=" eq → ∀ name ∈ follows u rest, rank (u.toLower name) < rank (u.toLower x.raw)

variable (files : Str → FileR) (rank : Str → Nat)

/-- A file of at most `m` tokens: the tokenizer comes to an end, all assembler blocks are closed, and types lead to types of
smaller rank. -/
def TameFile (m : Nat) (p : Str) : Prop := ∀ ts tl, files p = .tokens ts tl →
  tl ≠ .hang ∧ AsmClosed u ts ∧ Ranked u rank ts ∧ ts.length ≤ m

/-- the file of a program, and the files of its uses clause -/
def TameProgram (sep : Char) (m : Nat) (path : Str) : Prop := TameFile u files rank m path ∧
  ∀ ts tl es x y, files path = .tokens ts tl → x <:+ ts → (kwR u r!"USES" ▹ gUsesEntries u es) x y →
    ∀ p ∈ usedFiles sep es, TameFile u files rank m p

end TP.Spec
