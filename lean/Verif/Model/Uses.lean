import Verif.Basic.Uni

/-!
# Model of the paths of uses items, `ast/uses_clause.go`
-/

namespace TP

/-- `strings.TrimPrefix s [c]` for a one-rune prefix -/
def trimPrefix (c : Char) : Str → Str
  | [] => []
  | x :: s => if x = c then s else x :: s

/-- `strings.TrimSuffix s [c]` for a one-rune suffix -/
def trimSuffix (c : Char) (s : Str) : Str :=
  if s.getLast? = some c then s.dropLast else s

/-- `strings.ReplaceAll s [old] new` for a one-rune pattern -/
def replaceAll (old : Char) (new : Str) : Str → Str
  | [] => []
  | x :: s => if x = old then new ++ replaceAll old new s else x :: replaceAll old new s

namespace UsesItem

/-- `UnquotedPath`, `ast/uses_clause.go:94-99`; the argument is the field `Path` (nil: none). -/
def unquotedPath : Option Str → Str
  | none => []
  | some p => trimSuffix '\'' (trimPrefix '\'' p)

/-- `EffectivePath`, `ast/uses_clause.go:101-104`; `sep` is `filepath.Separator`. -/
def effectivePath (sep : Char) (path : Option Str) : Str := replaceAll '\\' [sep] (unquotedPath path)

end UsesItem
end TP
