import Verif.Basic.Uni

/-!
# Model of packages `ext` and `log`

A Go `map[string]bool` used as a set is modelled by the list of its keys; where the code iterates over it the
iteration order is a parameter (`Keys m order`: `order` is a permutation of the keys).
-/

namespace TP

/-- `StringSet`, `ext/string_set.go:3`: the keys of the map (the values are always `true`). -/
structure StringSet where
  keys : List Str
  deriving DecidableEq

namespace StringSet

/-- the map literal of `ext/string_set.go:20` -/
def empty : StringSet := ⟨[]⟩

/-- `Add`, `ext/string_set.go:27-29`: writing a key of a map inserts it if it is absent. -/
def add (m : StringSet) (s : Str) : StringSet := if s ∈ m.keys then m else ⟨m.keys ++ [s]⟩

/-- `Remove`, `ext/string_set.go:31-33` -/
def remove (m : StringSet) (s : Str) : StringSet := ⟨m.keys.filter (fun k => k ≠ s)⟩

/-- `Include`, `ext/string_set.go:35-38` -/
def includes (m : StringSet) (s : Str) : Bool := m.keys.contains s

/-- `NewStringSet`, `ext/string_set.go:19-25` -/
def new (s : List Str) : StringSet := s.foldl add empty

/-- `Slice`, `ext/string_set.go:40-48`: the loop writes the keys in iteration order. -/
def slice (order : List Str) : List Str := order.foldl (fun r k => r ++ [k]) []

/-- loop of `Equal`, `ext/string_set.go:54-58` -/
def equalLoop (other : StringSet) : List Str → Bool
  | [] => true
  | k :: ks => if !other.includes k then false else equalLoop other ks

/-- `Equal`, `ext/string_set.go:50-60`, iterating over `m` in the order `order`. -/
def equal (m other : StringSet) (order : List Str) : Bool :=
  if m.keys.length ≠ other.keys.length then false else equalLoop other order

end StringSet

namespace Strings

/-- loop of `Equal`, `ext/strings.go:41-45`; `other[i]` is in range because the lengths are equal. -/
def equalLoop (other : List Str) : Nat → List Str → Bool
  | _, [] => true
  | i, v :: s => if other[i]? ≠ some v then false else equalLoop other (i + 1) s

/-- `Equal`, `ext/strings.go:37-47` -/
def equal (s other : List Str) : Bool := if s.length ≠ other.length then false else equalLoop other 0 s

/-- `Include`, `ext/strings.go:49-56` -/
def includes : List Str → Str → Bool
  | [], _ => false
  | i :: s, v => if i = v then true else includes s v

/-- `Select`, `ext/strings.go:58-66` -/
def select (f : Str → Bool) (s : List Str) : List Str :=
  s.foldl (fun r i => if f i then r ++ [i] else r) []

/-- `Exclude`, `ext/strings.go:76-81` -/
def exclude (s vals : List Str) : List Str := select (fun i => !includes vals i) s

/-- `Set`, `ext/strings.go:28-30` -/
def set (s : List Str) : StringSet := StringSet.new s

/-- loop of `Map`, `ext/strings.go:89-91`: `r[i] = f(v)` -/
def mapLoop (f : Str → Str) : Nat → List Str → List Str → List Str
  | _, [], r => r
  | i, v :: s, r => mapLoop f (i + 1) s (r.set i (f v))

/-- `Map`, `ext/strings.go:87-93` -/
def map (f : Str → Str) (s : List Str) : List Str := mapLoop f 0 s (List.replicate s.length [])

/-- `ToUpper`, `ext/strings.go:95-97` -/
def toUpper (u : Uni) (s : List Str) : List Str := map u.toUpper s

/-- loop of `Reverse`, `ext/strings.go:101-103`: `r[len(s)-i-1] = v` -/
def reverseLoop (len : Nat) : Nat → List Str → List Str → List Str
  | _, [], r => r
  | i, v :: s, r => reverseLoop len (i + 1) s (r.set (len - i - 1) v)

/-- `Reverse`, `ext/strings.go:99-105`; `make` fills the slice with empty strings. -/
def reverse (s : List Str) : List Str := reverseLoop s.length 0 s (List.replicate s.length [])

end Strings

/-! ## package `log`

Loggers are named by numbers; the state is the value of the package variable `logger`. -/

namespace Log

/-- `SetLogger`, `log/base.go:14-18`: the new value of `logger`, and the value `backup` captured by the
returned function. -/
def setLogger (cur new : Nat) : Nat × Nat := (new, cur)

/-- the function returned by `SetLogger`, `log/base.go:17` -/
def restore (_cur backup : Nat) : Nat := backup

end Log

end TP
