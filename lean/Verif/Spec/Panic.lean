import Verif.Spec.Goal

/-!
# What makes the parser panic
-/

namespace TP.Spec

variable (u : Uni) (sep : Char) (files : Str → FileR)

/-- the tokenizer does not recognise everything in the file -/
def Unrecognised (p : Str) : Prop := ∃ ts, files p = .tokens ts .nil

/-- the file of a unit contains the name of the unit and after it a period -/
def NamesItself (p : Str) : Prop := ∃ ts tl h rest a t1 t2 b, files p = .tokens ts tl ∧ gUnitName u h ts rest ∧
  ts = a ++ t1 :: t2 :: b ∧ t1.typ = .ident ∧ u.toLower t1.raw = u.toLower h.ident.name ∧ IsSym r!"." t2

/-- the files contain units of the same name -/
def SameName (p q : Str) : Prop := ∃ ts tl h rest ts' tl' h' rest', files p = .tokens ts tl ∧ gUnitName u h ts rest ∧
  files q = .tokens ts' tl' ∧ gUnitName u h' ts' rest' ∧ u.toLower h.ident.name = u.toLower h'.ident.name

/-- the files of a uses clause -/
def usedFiles (es : List UsesEntry) : List Str := (es.map fun e => UsesItem.effectivePath sep e.path).filter (· ≠ [])

/-- a uses clause of a program whose units cannot be relied on -/
def BadUses (es : List UsesEntry) : Prop :=
  (∃ p ∈ usedFiles sep es, Unrecognised files p) ∨ (∃ p ∈ usedFiles sep es, NamesItself u files p) ∨
  ∃ i j : Nat, i < j ∧ ∃ p q, (usedFiles sep es)[i]? = some p ∧ (usedFiles sep es)[j]? = some q ∧ SameName u files p q

/-- a program that may make the parser panic -/
def BadProgram (path : Str) : Prop :=
  files path = .missing ∨ Unrecognised files path ∨
  ∃ ts tl es x y, files path = .tokens ts tl ∧ x <:+ ts ∧ (kwR u r!"USES" ▹ gUsesEntries u es) x y ∧ BadUses u sep files es

end TP.Spec
