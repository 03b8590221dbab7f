import Verif.Spec.Accept
import Verif.Model.Goal

/-!
# Programs with units that are accepted

A program that names the files of its units, and what the units may see of each other.
-/

namespace TP.Spec

variable (u : Uni)

/-- `Ident [IN String]`: the name, and the text of the string -/
inductive OkItem : List Token → Str → Option Str → Prop
  | plain {t} : t.typ = .ident → OkItem [t] t.raw none
  | file {t i s} : t.typ = .ident → IsKw u r!"IN" i → s.typ = .charString → OkItem [t, i, s] t.raw (some s.raw)

/-- `Item ','...`: the names and texts -/
inductive OkItems : NameEnv → List Token → List (Str × Option Str) → NameEnv → Prop
  | one {Γ x n p} : OkItem u x n p → Γ.New u [n] → OkItems Γ x [(n, p)] (Γ.declareSpace u n)
  | cons {Γ x n p c y is Γ'} : OkItem u x n p → Γ.New u [n] → IsSym r!"," c → OkItems (Γ.declareSpace u n) y is Γ' →
      OkItems Γ (x ++ c :: y) ((n, p) :: is) Γ'

/-- the names in a uses clause without files -/
def usedNames (x : List Token) : List Str := (x.filter fun t => t.typ = .ident).map Token.raw

/-- the parts of a unit: the name, the uses clause and the declarations of the interface, those of the implementation, and
the initialization; and the names at the end of the interface -/
structure UnitParts where
  name : Str
  uses : List Token
  intf : List Token
  implUses : List Token
  impl : List Token
  init : List Token
  names : NameEnv

/-- `UNIT Ident ';' INTERFACE … IMPLEMENTATION … END '.'`, and anything after it -/
def IsUnitText (ts : List Token) (m : UnitParts) : Prop :=
  ∃ w t s i im e d rest, IsKw u r!"UNIT" w ∧ t.typ = .ident ∧ IsSym r!";" s ∧ IsKw u r!"INTERFACE" i ∧
    IsKw u r!"IMPLEMENTATION" im ∧ IsKw u r!"END" e ∧ IsSym r!"." d ∧ m.name = t.raw ∧
    ts = w :: t :: s :: i :: (m.uses ++ (m.intf ++ im :: (m.implUses ++ (m.impl ++ (m.init ++ e :: d :: rest)))))

/-- the files contain the units -/
inductive UnitFiles (files : Str → FileR) : List Str → List UnitParts → Prop
  | nil : UnitFiles files [] []
  | cons {f m ts tl fs us} : files f = .tokens ts tl → IsUnitText u ts m → UnitFiles files fs us →
      UnitFiles files (f :: fs) (m :: us)

/-- what the units with the name declare in their interfaces -/
def exported (us : List UnitParts) (key : Str) : List (Str × What) :=
  us.flatMap fun m => if u.toLower m.name = key then m.names.seen.filter fun p => p.1 ∈ m.names.inner else []

/-- what the units of a uses clause declare in their interfaces -/
def imported (us : List UnitParts) (x : List Token) : List (Str × What) :=
  (usedNames x).flatMap fun n => exported u us (u.toLower n)

/-- The parts of a unit are accepted, if `us` are the units of the program. -/
inductive OkParts (us : List UnitParts) (m : UnitParts) : Prop
  | mk {Γ1 Γ3 Γ4} : OkOptUses u .empty m.uses Γ1 →
      OkIntf u ⟨[u.toLower m.name], (u.toLower m.name, .space) :: (imported u us m.uses ++ Γ1.seen), []⟩ m.intf m.names →
      OkOptUses u m.names m.implUses Γ3 →
      OkImpl u ⟨Γ3.inner, imported u us m.implUses ++ Γ3.seen, Γ3.sure⟩ m.impl Γ4 →
      OkInitPart u Γ4 m.init → OkParts us m

/-- `PROGRAM Ident ';' USES Item ','... ';' Block '.'`, where the files contain the units `us`: every one of them has the
name of an item, no two have the same name, and the interfaces do not use each other in a circle -/
inductive OkWhole (sep : Char) (files : Str → FileR) : List Token → List UnitParts → Prop
  | mk {p t s w x is Γ e y Γ' d rest us} (rank : Str → Nat) : IsKw u r!"PROGRAM" p → t.typ = .ident → IsSym r!";" s →
      IsKw u r!"USES" w → OkItems u .empty x is Γ → IsSym r!";" e →
      UnitFiles u files ((is.map fun i => UsesItem.effectivePath sep i.2).filter (· ≠ [])) us →
      (us.map fun m => u.toLower m.name).Nodup →
      (∀ m ∈ us, ∃ i ∈ is, u.toLower i.1 = u.toLower m.name) →
      (∀ m ∈ us, ∀ m' ∈ us, (∃ n ∈ usedNames m.uses, u.toLower n = u.toLower m'.name) → rank m'.name < rank m.name) →
      (∀ m ∈ us, OkParts u us m) →
      OkBlock u ⟨[u.toLower t.raw], (u.toLower t.raw, .space) ::
        ((us.flatMap fun m => exported u us (u.toLower m.name)) ++ Γ.seen), []⟩ y Γ' →
      IsSym r!"." d → OkWhole sep files (p :: t :: s :: w :: (x ++ e :: (y ++ d :: rest))) us

end TP.Spec
