import Verif.Spec.Spell
import Verif.Lemmas.Stream
import Mathlib.Data.List.Forall2

/-!
# Texts that differ only in layout, comments and the case of words

Positions and the texts of comments are not mentioned here: only kinds and texts of tokens.
-/

namespace TP.Spec
open TP

/-- The tokens are of the same kind and have the same text; in words the case of ASCII letters may be different. -/
def SameToken (a b : Token) : Prop :=
  a.typ = b.typ ∧ (a.raw = b.raw ∨ ((a.typ = .ident ∨ a.typ = .reserved) ∧ a.raw.map asciiUp = b.raw.map asciiUp))

/-- The streams end in the same way. -/
def SameTail : Tail → Tail → Prop
  | .eof _ _, .eof _ _ => True
  | .nil, .nil => True
  | .hang, .hang => True
  | _, _ => False

/-- Both files are missing, or unreadable, or have texts of the same tokens. -/
inductive SameFile (u : Uni) : FileR → FileR → Prop
  | missing : SameFile u .missing .missing
  | unreadable : SameFile u .unreadable .unreadable
  | tokens {o o' : List (Char × Char)} {x y : Str} {ts ts' : List Token} {tl tl' : Tail} (ho : IsOrder o) (ho' : IsOrder o')
      (hx : Delivers u o (Cursor.new x) ts tl) (hy : Delivers u o' (Cursor.new y) ts' tl')
      (hts : List.Forall₂ SameToken ts ts') (htl : SameTail tl tl') : SameFile u (.tokens ts tl) (.tokens ts' tl')

/-- Both files are missing, or unreadable, or have texts that differ only in the case of ASCII letters outside of string
literals. -/
inductive SameCase (u : Uni) : FileR → FileR → Prop
  | missing : SameCase u .missing .missing
  | unreadable : SameCase u .unreadable .unreadable
  | tokens {o o' : List (Char × Char)} {x y : Str} {ts ts' : List Token} {tl tl' : Tail} (ho : IsOrder o) (ho' : IsOrder o')
      (hx : Delivers u o (Cursor.new x) ts tl) (hy : Delivers u o' (Cursor.new y) ts' tl')
      (h : x.map asciiUp = y.map asciiUp)
      (hl : (ts.filter fun t => t.typ == .charString).map Token.raw = (ts'.filter fun t => t.typ == .charString).map Token.raw) :
      SameCase u (.tokens ts tl) (.tokens ts' tl')

/-- what a call returned, with the tree seen through `f` -/
def seen {σ α β : Type} (f : α → β) : R σ α → R Unit β
  | .ok a _ => .ok (f a) ()
  | .err => .err
  | .panic => .panic
  | .wait => .wait

/-- The two random orders are the same on maps with the same keys. -/
def SameOrder (u : Uni) (it it' : List UParser → List Str) : Prop :=
  ∀ m m', (UnitParsers.unitNames u m).keys = (UnitParsers.unitNames u m').keys → it m = it' m'

end TP.Spec
