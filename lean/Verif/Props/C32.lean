import Verif.Model.TypeClass

/-!
# C32: type aliases are classified by the type they stand for
-/

namespace TP.Spec
open TP

/-- `Ends types t n e`: following `n` alias names from `t` one arrives at `e`, which is not an alias (or an alias that
refers to nothing) -/
inductive Ends (types : Nat → Ty) : Ty → Nat → Ty → Prop
  | here {t : Ty} (h : ∀ d, t ≠ .typeId (some d)) : Ends types t 0 t
  | step {d n : Nat} {e : Ty} (h : Ends types (types d) n e) : Ends types (.typeId (some d)) (n + 1) e

/-- the classification of Object Pascal for types that are not aliases; a set or a file is none of these -/
def classOf : Ty → Cls → Bool
  | .embedded .real, c => c == .real || c == .simple
  | .embedded .ordIdent, c => c == .ordIdent || c == .ordinal || c == .simple
  | .embedded .string, c => c == .string
  | .embedded .pointer, c => c == .pointer
  | .embedded .variant, c => c == .variant
  | .enum, c => c == .ordinal || c == .simple
  | .subrange, c => c == .ordinal || c == .simple
  | .fixedString, c => c == .string
  | .pointer, c => c == .pointer
  | .set _, _ => false
  | .file _, _ => false
  | .typeId _, _ => false
  | .other, _ => false

end TP.Spec

namespace TP.Props
open TP TP.Spec

/-- A type identifier is ordinal (real, string, ...) exactly if the type at the end of its chain of aliases is; fuel
for the length of the chain suffices.  Missing for the full claim: chains that end in a set or file type, and cyclic
aliases, see the refutations. -/
theorem C32_partial (types : Nat → Ty) (t e : Ty) (n : Nat) (h : Ends types t n e)
    (hs : ∀ el, e ≠ .set el) (hf : ∀ r, e ≠ .file r) (c : Cls) (fuel : Nat) (hfuel : n < fuel) :
    t.is types c fuel = some (classOf e c) := by
  induction h generalizing fuel with
  | @here t ht =>
    cases fuel with
    | zero => omega
    | succ fuel =>
      unfold Ty.is
      cases t with
      | embedded k => cases k <;> cases c <;> rfl
      | enum => cases c <;> rfl
      | subrange => cases c <;> rfl
      | fixedString => rfl
      | pointer => rfl
      | set el => exact absurd rfl (hs el)
      | file r => exact absurd rfl (hf r)
      | typeId r =>
        cases r with
        | none => rfl
        | some d => exact absurd rfl (ht d)
      | other => rfl
  | @step d n e h ih =>
    cases fuel with
    | zero => omega
    | succ fuel =>
      unfold Ty.is
      exact ih hs hf fuel (by omega)

/-- The classification of a chain of aliases is that of its end, whatever the end is. -/
theorem C32_alias (types : Nat → Ty) (t e : Ty) (n : Nat) (h : Ends types t n e) (c : Cls) (fuel : Nat) :
    t.is types c (n + fuel) = e.is types c fuel := by
  induction h with
  | here _ => rw [Nat.zero_add]
  | @step d n e h ih =>
    rw [show n + 1 + fuel = (n + fuel) + 1 by omega]
    conv => lhs; unfold Ty.is
    exact ih

/-- `type T = set of Byte` is said to be an ordinal type: the methods of the embedded element type are promoted. -/
theorem C32_refuted_set : ∃ (types : Nat → Ty) (t e : Ty) (n : Nat), Ends types t n e ∧ classOf e .ordinal = false ∧
    ∀ fuel, t.is types .ordinal (fuel + 3) = some true :=
  ⟨fun _ => .set (.embedded .ordIdent), .typeId (some 0), .set (.embedded .ordIdent), 1,
    .step (.here (by intro d h; cases h)), rfl, fun _ => rfl⟩

/-- `type T = file of Byte` is said to be an ordinal type. -/
theorem C32_refuted_file : ∃ (types : Nat → Ty) (t e : Ty) (n : Nat), Ends types t n e ∧ classOf e .ordinal = false ∧
    ∀ fuel, t.is types .ordinal (fuel + 3) = some true :=
  ⟨fun d => if d = 0 then .file (some 1) else .embedded .ordIdent, .typeId (some 0), .file (some 1), 1,
    .step (.here (by intro d h; cases h)), rfl, fun _ => rfl⟩

/-- `type A = B; B = A;` (both names are resolved at the end of the section): the classification never returns. -/
theorem C32_refuted_cycle : ∃ (types : Nat → Ty) (t : Ty), ∀ c fuel, t.is types c fuel = none := by
  refine ⟨fun d => if d = 0 then .typeId (some 1) else .typeId (some 0), .typeId (some 0), ?_⟩
  intro c fuel
  have key : ∀ fuel, Ty.is (fun d => if d = 0 then .typeId (some 1) else .typeId (some 0)) c fuel (.typeId (some 0)) = none ∧
      Ty.is (fun d => if d = 0 then .typeId (some 1) else .typeId (some 0)) c fuel (.typeId (some 1)) = none := by
    intro fuel
    induction fuel with
    | zero => exact ⟨rfl, rfl⟩
    | succ fuel ih => exact ⟨ih.2, ih.1⟩
  exact (key fuel).1

/-- `type A = Integer; B = A;` -/
example : Ends (fun d => if d = 0 then .typeId (some 1) else .embedded .ordIdent) (.typeId (some 0)) 2
    (.embedded .ordIdent) := .step (.step (.here (by intro d h; cases h)))

end TP.Props
