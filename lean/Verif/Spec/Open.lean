import Verif.Spec.Lex

namespace TP.Spec
open TP

/-- No quote of `t` closes a string literal that was opened just before `t`: each quote is preceded, inside `t`,
by a backslash. -/
def NeverCloses (t : Str) : Prop := ∀ pre post, t = pre ++ '\'' :: post → pre.getLast? = some '\\'

/-- The text, after lexemes that are skipped, begins with a string literal that is never closed. -/
inductive ReachesOpen (u : Uni) (fl : TType → Bool) : Str → Prop
  | here {t : Str} : NeverCloses t → ReachesOpen u fl ('\'' :: t)
  | skip {s : Str} {ty : TType} {n : Nat} : lexOne u s = .tok ty n → fl ty = true → ReachesOpen u fl (s.drop n) →
      ReachesOpen u fl s

end TP.Spec
