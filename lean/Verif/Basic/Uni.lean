/-!
# Runes, strings and the Unicode parameter

A Go `rune` is modelled by `Char`, a Go `string` by `List Char`.  The four functions of Go's `unicode`
package the code uses are the fields of `Uni`, together with the facts about them that the proofs use.
Every theorem of the development holds for every `u : Uni`.
-/

namespace TP

abbrev Str := List Char

/-- `CursorEOF` of `runes/cursor.go:10`: `rune(0)`. -/
def NUL : Char := Char.ofNat 0

/-- `r!"abc"` is the list `['a', 'b', 'c']` (so that it reduces in the kernel). -/
syntax:max "r!" str : term
macro_rules
  | `(r! $s:str) => do
    let cs := s.getString.toList.map (fun c => Lean.Syntax.mkCharLit c)
    `([$(cs.toArray),*])

def asciiLower (c : Char) : Bool := 97 ≤ c.toNat && c.toNat ≤ 122
def asciiUpper (c : Char) : Bool := 65 ≤ c.toNat && c.toNat ≤ 90
def asciiLetter (c : Char) : Bool := asciiLower c || asciiUpper c
def asciiUp (c : Char) : Char := if asciiLower c then Char.ofNat (c.toNat - 32) else c
def asciiLow (c : Char) : Char := if asciiUpper c then Char.ofNat (c.toNat + 32) else c
/-- `'\t', '\n', '\v', '\f', '\r', ' '` -/
def asciiSpace (c : Char) : Bool := (9 ≤ c.toNat && c.toNat ≤ 13) || c.toNat == 32

/-- Go's `unicode.IsLetter`, `unicode.IsSpace`, `unicode.ToUpper`, `unicode.ToLower`, and the facts used.
`strings.ToUpper` and `strings.ToLower` map `up` and `low` over the runes of the string. -/
structure Uni where
  isLetter : Char → Bool
  isSpace : Char → Bool
  up : Char → Char
  low : Char → Char
  letter_ascii : ∀ c, c.toNat < 128 → isLetter c = asciiLetter c
  space_ascii : ∀ c, c.toNat < 128 → isSpace c = asciiSpace c
  letter_not_space : ∀ c, isLetter c = true → isSpace c = false
  up_ascii : ∀ c, c.toNat < 128 → up c = asciiUp c
  low_ascii : ∀ c, c.toNat < 128 → low c = asciiLow c

namespace Uni
/-- `strings.ToUpper` -/
def toUpper (u : Uni) (s : Str) : Str := s.map u.up
/-- `strings.ToLower` -/
def toLower (u : Uni) (s : Str) : Str := s.map u.low
end Uni

theorem asciiLetter_not_space (c : Char) (h : asciiLetter c = true) : asciiSpace c = false := by
  unfold asciiLetter asciiLower asciiUpper at h
  unfold asciiSpace
  simp only [Bool.or_eq_true, Bool.and_eq_true, decide_eq_true_eq] at h
  simp only [Bool.or_eq_false_iff, Bool.and_eq_false_iff, decide_eq_false_iff_not, beq_eq_false_iff_ne]
  omega

/-- An instance that knows only ASCII: shows that the assumptions of `Uni` are satisfiable and makes
concrete examples computable. -/
def asciiUni : Uni where
  isLetter := asciiLetter
  isSpace := asciiSpace
  up := asciiUp
  low := asciiLow
  letter_ascii := fun _ _ => rfl
  space_ascii := fun _ _ => rfl
  letter_not_space := asciiLetter_not_space
  up_ascii := fun _ _ => rfl
  low_ascii := fun _ _ => rfl

end TP
