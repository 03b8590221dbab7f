import Verif.Lemmas.TraceStmt

/-!
# The type identifiers of declarations and blocks
-/

namespace TP
open Spec

variable {κ δ : Type} {u : Uni} {D : DEnv κ δ} {I : κ → Prop} {E : κ → κ → Prop} {V : κ → TypeId δ → Prop}

/-! ## Directives -/

theorem quiet_stringFactor : Quiet (stringFactor u : P κ Str) := by unfold stringFactor; quiets
theorem quiet_numberFactor : Quiet (numberFactor u : P κ Str) := by unfold numberFactor; quiets

theorem quiet_external : Quiet (parseExternal u : P κ _) := by
  have h1 := quiet_stringFactor (κ := κ) (u := u)
  have h2 := quiet_numberFactor (κ := κ) (u := u)
  unfold parseExternal
  quiets

theorem quiet_funcDirectives : ∀ n o, Quiet (parseDirectives u n o : P κ _) := by
  intro n
  induction n with
  | zero => exact fun _ => quiet_wait
  | succ n ih =>
    intro o
    unfold parseDirectives
    refine quiet_cur.bind fun t => quiet_ite ?_ (quiet_pure _)
    refine (quiet_ite quiet_external (quiet_next.bind fun _ => quiet_pure _)).bind fun o' => ?_
    exact (quiet_current _).bind fun _ => quiet_next.bind fun _ => (ih o').bind fun _ => quiet_pure _

theorem quiet_routineOpts (n : Nat) : Quiet (parseRoutineOpts u n : P κ _) := by
  unfold parseRoutineOpts
  exact (quiet_is _).bind fun _ => quiet_ite (quiet_funcDirectives n _) (quiet_pure _)

/-! ## Declarations -/

section
variable (C : TrDecl u D I E V)
include C

theorem constDecl_tr (n : Nat) : Tr I E V [] (parseConstDecl u D n) (fun d => d.type.toList.flatMap idsType) := by
  have B := C.toTrBase
  unfold parseConstDecl
  have : Tr I E V [] (do
      if ← P.is (sym r!":") then do
        P.next
        let ty ← parseType u D n
        pure (some ty)
      else pure none : P κ (Option (PType δ))) (fun o => o.toList.flatMap idsType) := by
    trs [(typesTr B n).type]
  trs [this, Tr.any_setDecl C, Tr.expr B n]

theorem constDecls_tr : ∀ n : Nat, Tr I E V [] (parseConstDecls u D n) idsConsts := by
  have B := C.toTrBase
  intro n
  induction n with
  | zero => exact Tr.wait
  | succ n ih => unfold parseConstDecls; trs [constDecl_tr C n, ih]

theorem varDecl_tr (n : Nat) : Tr I E V [] (parseVarDecl u D n) (fun d => idsType d.type) := by
  have B := C.toTrBase
  unfold parseVarDecl
  have q : Quiet (do
      if ← P.is (Pred.upperCase u r!"ABSOLUTE") then do
        let t ← P.nextIs (Pred.typ .ident)
        P.next
        pure (some (Ident.ofTok t))
      else pure none : P κ (Option Ident)) := by quiets
  have : Tr I E V [] (do
      if ← P.is (sym r!"=") then do
        P.next
        let e ← parseExpr u D.toEnv n
        pure (some e)
      else pure none : P κ (Option (Expr δ))) (fun _ => []) := by
    trs [Tr.expr B n]
  trs [this, (typesTr B n).type, Tr.any_setDecl C]

theorem varDecls_tr : ∀ n : Nat, Tr I E V [] (parseVarDecls u D n) idsVars := by
  have B := C.toTrBase
  intro n
  induction n with
  | zero => exact Tr.wait
  | succ n ih => unfold parseVarDecls; trs [varDecl_tr C n, ih]

theorem threadVarDecl_tr (n : Nat) : Tr I E V [] (parseThreadVarDecl u D n) (fun d => idsType d.type) := by
  have B := C.toTrBase
  unfold parseThreadVarDecl
  trs [(typesTr B n).type, Tr.any_setDecl C]

theorem threadVarDecls_tr : ∀ n : Nat, Tr I E V [] (parseThreadVarDecls u D n) idsThreadVars := by
  have B := C.toTrBase
  intro n
  induction n with
  | zero => exact Tr.wait
  | succ n ih => unfold parseThreadVarDecls; trs [threadVarDecl_tr C n, ih]

theorem exportsItem_tr (n : Nat) : Tr I E V [] (parseExportsItem u D n) (fun _ => []) := by
  have B := C.toTrBase
  unfold parseExportsItem
  trs [Tr.expr B n]

theorem exportsItems_tr : ∀ n : Nat, Tr I E V [] (parseExportsItems u D n) (fun _ => []) := by
  have B := C.toTrBase
  intro n
  induction n with
  | zero => exact Tr.wait
  | succ n ih => unfold parseExportsItems; trs [exportsItem_tr C n, ih]

theorem exports_tr : ∀ n : Nat, Tr I E V [] (parseExports u D n) (fun _ => []) := by
  have B := C.toTrBase
  intro n
  induction n with
  | zero => exact Tr.wait
  | succ n ih => unfold parseExports; trs [exportsItems_tr C n, ih]

theorem exportedHeading_tr (n : Nat) : Tr I E V [] (parseExportedHeading u D n) (fun h => idsHeading h.1) := by
  have B := C.toTrBase
  have q := quiet_routineOpts (κ := κ) (u := u) n
  unfold parseExportedHeading
  refine Tr.stacked B ?_
  trs [(typesTr B n).funcHeading, Tr.any_setDecl C]

theorem blockBody_tr (n : Nat) : Tr I E V [] (parseBlockBody u D n) (fun b => b.toList.flatMap (idsBody idsType)) := by
  have B := C.toTrBase
  have : Tr I E V [] (parseAsm u n) (idsBody (δ := δ) idsType) := by
    unfold parseAsm
    refine Tr.step B (quiet_current _) fun _ => Tr.step B quiet_next fun _ => Tr.step B (quiet_asmLoop n) fun _ => ?_
    trs []
  unfold parseBlockBody
  trs [(stmtsTr C n).compound, this]

end

/-! ## Blocks -/

variable (u D I E V) in
/-- the parsers of blocks with fuel `n` -/
structure BlocksTr (n : Nat) : Prop where
  block : Tr I E V [] (parseBlock u D n) idsBlock
  sects : Tr I E V [] (parseDeclSects u D n) idsSections
  sect : Tr I E V [] (parseDeclSect u D n) (fun o => o.toList.flatMap idsSection)
  func : Tr I E V [] (parseFunc u D n) idsSection

theorem blocksTr (C : TrDecl u D I E V) : ∀ n, BlocksTr u D I E V n := by
  have B := C.toTrBase
  intro n
  induction n with
  | zero =>
    constructor
    · unfold parseBlock; exact Tr.wait
    · unfold parseDeclSects; exact Tr.wait
    · unfold parseDeclSect; exact Tr.wait
    · unfold parseFunc; exact Tr.wait
  | succ n ih =>
    constructor
    case block => unfold parseBlock; trs [ih.sects, exports_tr C n, blockBody_tr C n]
    case sects => unfold parseDeclSects; trs [ih.sect, ih.sects]
    case sect =>
      have h : Tr I E V [] (parseLabelDecl D) (fun _ => []) := by unfold parseLabelDecl; trs [Tr.any_setDecl C]
      unfold parseDeclSect
      trs [h, constDecls_tr C n, C.sect n, varDecls_tr C n, threadVarDecls_tr C n, ih.func]
    case func =>
      have q := quiet_routineOpts (κ := κ) (u := u) n
      unfold parseFunc
      refine Tr.stacked B ?_
      trs [(typesTr B n).funcHeading, Tr.any_setDecl C, ih.block]

end TP
