import Verif.Basic.Uni

/-!
# Model of package `runes`
-/

namespace TP

/-- `runes/position.go:5-9` -/
structure Pos where
  line : Nat
  col : Nat
  index : Nat
  deriving DecidableEq, Repr

/-- `NewPosition`, `runes/position.go:11-17` -/
def Pos.new : Pos := ⟨1, 1, 0⟩
/-- `inc`, `runes/position.go:19-21` -/
def Pos.inc (p : Pos) : Pos := { p with index := p.index + 1 }
/-- `nextLine`, `runes/position.go:23-26` -/
def Pos.nextLine (p : Pos) : Pos := { p with line := p.line + 1, col := 0 }
/-- `next`, `runes/position.go:28-30` -/
def Pos.next (p : Pos) : Pos := { p with col := p.col + 1 }

/-- `runes/cursor.go:3-8`.  `Len` is `text.length`: it is set once from the text (line 15) and neither is
changed afterwards. -/
structure Cursor where
  text : Str
  pos : Pos
  wasLF : Bool
  deriving DecidableEq, Repr

namespace Cursor

/-- `NewCursor`, `runes/cursor.go:12-18` -/
def new (text : Str) : Cursor := ⟨text, Pos.new, false⟩

/-- `Clone`, `runes/cursor.go:20-26`: `wasLF` is not copied. -/
def clone (c : Cursor) : Cursor := ⟨c.text, c.pos, false⟩

/-- `Seek`, `runes/cursor.go:32-37` -/
def seek (c : Cursor) (n : Nat) : Char :=
  match c.text[c.pos.index + n]? with
  | some r => r
  | none => NUL

/-- `Current`, `runes/cursor.go:28-30` -/
def current (c : Cursor) : Char := c.seek 0

/-- `Next`, `runes/cursor.go:39-55` -/
def next (c : Cursor) : Cursor × Char :=
  let c := if c.wasLF then { c with pos := c.pos.nextLine, wasLF := false } else c
  if c.pos.index < c.text.length then
    let c := { c with pos := c.pos.inc }
    let c := { c with pos := c.pos.next }
    let r := c.seek 0
    let c := if r = '\n' then { c with wasLF := true } else c
    (c, r)
  else (c, NUL)

/-! Notions for statements about cursors (not in the code). -/

/-- The part of the text from the cursor on. -/
def rest (c : Cursor) : Str := c.text.drop c.pos.index

/-- `n` calls of `Next`. -/
def adv : Nat → Cursor → Cursor
  | 0, c => c
  | n + 1, c => adv n c.next.1

end Cursor

/-- `IsDigit`, `runes/digit.go:3-5` -/
def isDigit (r : Char) : Bool := 48 ≤ r.toNat && r.toNat ≤ 57
/-- `IsUnaryOp`, `runes/digit.go:11-13` -/
def isUnaryOp (r : Char) : Bool := r == '-'
/-- `IsWordHead`, `runes/word.go:9-11` -/
def isWordHead (u : Uni) (r : Char) : Bool := r == '_' || u.isLetter r
/-- `IsWord`, `runes/word.go:5-7` -/
def isWord (u : Uni) (r : Char) : Bool := isWordHead u r || isDigit r

/-- `Equal`, `runes/equal.go:3-13`: lengths, then element by element. -/
def runesEqual : Str → Str → Bool
  | [], [] => true
  | a :: as, b :: bs => a == b && runesEqual as bs
  | _, _ => false

end TP
