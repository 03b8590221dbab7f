import Verif.Model.Ext

/-!
# Model of the rest of package `ext`: arguments of type `interface{}`, pointers, sorting

Not modelled: `Join` (`ext/strings.go:83-85`), which only calls `strings.Join`.
-/

namespace TP

/-- a value of type `interface{}`, by its dynamic type -/
inductive ExtArg (α : Type)
  | str (s : Str)
  /-- `[]string` -/
  | slice (l : List Str)
  /-- `Strings` -/
  | strings (l : List Str)
  | set (m : StringSet)
  | other (a : α)
  deriving DecidableEq

namespace Strings
variable {α : Type}

/-- the loop of `ExtractStrings`, `ext/strings.go:13-24` -/
def extractLoop : List (ExtArg α) → List Str → List (ExtArg α) → List Str × List (ExtArg α)
  | [], a, b => (a, b)
  | .str v :: args, a, b => extractLoop args (a ++ [v]) b
  | .slice v :: args, a, b => extractLoop args (a ++ v) b
  | .strings v :: args, a, b => extractLoop args (a ++ v) b
  | v :: args, a, b => extractLoop args a (b ++ [v])

/-- `ExtractStrings`, `ext/strings.go:10-26` -/
def extract (args : List (ExtArg α)) : List Str × List (ExtArg α) := extractLoop args [] []

/-- `Interfaces`, `ext/strings.go:68-74` -/
def interfaces (s : List Str) : List (ExtArg α) := s.foldl (fun r i => r ++ [.str i]) []

/-- `Sort`, `ext/strings.go:32-35`: the receiver afterwards and the result, which share their elements; `sortStrings` is what
`sort.Strings` makes of the elements -/
def sort (sortStrings : List Str → List Str) (s : List Str) : List Str × List Str := (sortStrings s, sortStrings s)

end Strings

namespace StringSet
variable {α : Type}

/-- the loop of `ExtractStringSets`, `ext/string_set.go:8-15` -/
def extractLoop : List (ExtArg α) → List StringSet → List (ExtArg α) → List StringSet × List (ExtArg α)
  | [], a, b => (a, b)
  | .set v :: args, a, b => extractLoop args (a ++ [v]) b
  | v :: args, a, b => extractLoop args a (b ++ [v])

/-- `ExtractStringSets`, `ext/string_set.go:5-17` -/
def extract (args : List (ExtArg α)) : List StringSet × List (ExtArg α) := extractLoop args [] []

end StringSet

/-- `StringPtr`, `ext/pointers.go:3-8` -/
def stringPtr (s : Str) : Option Str := if s = [] then none else some s

/-- `BoolPtr`, `ext/pointers.go:10-12` -/
def boolPtr (v : Bool) : Option Bool := some v

end TP
