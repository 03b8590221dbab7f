import Verif.Model.Uses
import Verif.Props.C11

/-!
# C28: unit paths lose exactly their quotes and backslashes
-/

namespace TP.Props
open TP TP.Spec

/-- a quoted literal with contents `c` -/
def quoted (c : Str) : Str := '\'' :: (c ++ ['\''])

theorem replaceAll_eq_map (old sep : Char) (s : Str) :
    replaceAll old [sep] s = s.map (fun x => if x = old then sep else x) := by
  induction s with
  | nil => rfl
  | cons x s ih =>
    unfold replaceAll
    by_cases h : x = old <;> simp [h, ih]

theorem unquoted_quoted (c : Str) : UsesItem.unquotedPath (some (quoted c)) = c := by
  simp [UsesItem.unquotedPath, quoted, trimPrefix, trimSuffix]

/-- The effective path is the text between the quotes, rune by rune: a backslash becomes the separator, every other
rune is kept. -/
theorem C28_effective (sep : Char) (c : Str) :
    UsesItem.effectivePath sep (some (quoted c)) = c.map (fun x => if x = '\\' then sep else x) := by
  unfold UsesItem.effectivePath
  rw [unquoted_quoted, replaceAll_eq_map]

/-- It is empty exactly if no path or an empty literal was given. -/
theorem C28_empty (sep : Char) (p : Option Str) (hp : ∀ s, p = some s → ∃ c, s = quoted c) :
    UsesItem.effectivePath sep p = [] ↔ p = none ∨ p = some (quoted []) := by
  cases p with
  | none => simp [UsesItem.effectivePath, UsesItem.unquotedPath, replaceAll]
  | some s =>
    obtain ⟨c, rfl⟩ := hp s rfl
    rw [C28_effective]
    cases c with
    | nil => simp
    | cons x c => simp [quoted]

/-- Every string token the tokenizer makes is such a literal, so the two theorems above cover every path that can be
written in a uses clause (`parser/uses_clause.go:23-30`). -/
theorem C28_token (u : Uni) (order : List (Char × Char)) (ho : IsOrder order) (fl : Flags)
    (c c' : Cursor) (hc : Reachable c) (t : Token)
    (h : Gets u order fl c c' (some t)) (ht : t.typ = .charString) : ∃ body, t.raw = quoted body := by
  obtain ⟨body, hb, _⟩ := C11_conv u order ho fl c c' hc t h ht
  exact ⟨body, hb⟩

/-- `'lib\a.pas'` -/
example : UsesItem.effectivePath '/' (some (quoted r!"lib\\a.pas")) = r!"lib/a.pas" := by decide
example : UsesItem.effectivePath '/' none = [] ∧ UsesItem.effectivePath '/' (some (quoted [])) = [] := by decide

end TP.Props
