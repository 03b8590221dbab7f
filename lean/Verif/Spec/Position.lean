import Verif.Model.Runes

/-!
# True positions in a text
-/

namespace TP.Spec
open TP

/-- one plus the number of line feeds in front of index `i` -/
def lineAt (text : Str) (i : Nat) : Nat := 1 + (text.take i).count '\n'
/-- one plus the number of runes between the last line feed in front of index `i` and `i` -/
def colAt (text : Str) (i : Nat) : Nat := 1 + ((text.take i).reverse.takeWhile (fun r => r != '\n')).length
def posAt (text : Str) (i : Nat) : Pos := ⟨lineAt text i, colAt text i, i⟩

/-- the text with a line feed in first place replaced by a blank -/
def maskFirst : Str → Str
  | [] => []
  | a :: t => (if a = '\n' then ' ' else a) :: t

end TP.Spec
