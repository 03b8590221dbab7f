import Verif.Lemmas.RestrictStmt

/-!
# What blocks declare
-/

namespace TP
open Spec

variable {κ δ : Type} {u : Uni} {D : DEnv κ δ} {S : Dcl δ → Prop} {F : κ → Prop} {okS : κ → List Ident → DKind δ → Prop} {okC : κ → Ident → PType δ → Prop}

local notation "D'" => (DEnv.restrict D okS okC)

/-! ## Declarations -/

section
variable (B : ReBase u D S F okS okC)
include B

theorem constDecl_re (n : Nat) : Re S F [] (parseConstDecl u D n) (parseConstDecl u (D') n) dclConst := by
  unfold parseConstDecl
  have : Re S F [] (do
      if ← P.is (sym r!":") then do
        P.next
        let ty ← parseType u D n
        pure (some ty)
      else pure none : P κ (Option (PType δ))) (do
      if ← P.is (sym r!":") then do
        P.next
        let ty ← parseType u (D') n
        pure (some ty)
      else pure none : P κ (Option (PType δ))) (fun o => o.toList.flatMap dclType) := by
    res [(typesRe B n).type]
  res [this, Re.setDecl B, expr_re B n]

theorem constDecls_re : ∀ n : Nat, Re S F [] (parseConstDecls u D n) (parseConstDecls u (D') n) (fun l => l.flatMap dclConst) := by
  intro n
  induction n with
  | zero => exact Re.wait
  | succ n ih => unfold parseConstDecls; res [constDecl_re B n, ih]

theorem varDecl_re (n : Nat) : Re S F [] (parseVarDecl u D n) (parseVarDecl u (D') n) dclVar := by
  unfold parseVarDecl
  have q : Quiet (do
      if ← P.is (Pred.upperCase u r!"ABSOLUTE") then do
        let t ← P.nextIs (Pred.typ .ident)
        P.next
        pure (some (Ident.ofTok t))
      else pure none : P κ (Option Ident)) := by quiets
  have : Re S F [] (do
      if ← P.is (sym r!"=") then do
        P.next
        let e ← parseExpr u D.toEnv n
        pure (some e)
      else pure none : P κ (Option (Expr δ))) (do
      if ← P.is (sym r!"=") then do
        P.next
        let e ← parseExpr u (D').toEnv n
        pure (some e)
      else pure none : P κ (Option (Expr δ))) (fun _ => []) := by
    res [expr_re B n]
  res [this, (typesRe B n).type, Re.setDecl B]

theorem varDecls_re : ∀ n : Nat, Re S F [] (parseVarDecls u D n) (parseVarDecls u (D') n) (fun l => l.flatMap dclVar) := by
  intro n
  induction n with
  | zero => exact Re.wait
  | succ n ih => unfold parseVarDecls; res [varDecl_re B n, ih]

theorem threadVarDecl_re (n : Nat) : Re S F [] (parseThreadVarDecl u D n) (parseThreadVarDecl u (D') n) dclThreadVar := by
  unfold parseThreadVarDecl
  res [(typesRe B n).type, Re.setDecl B]

theorem threadVarDecls_re : ∀ n : Nat, Re S F [] (parseThreadVarDecls u D n) (parseThreadVarDecls u (D') n) (fun l => l.flatMap dclThreadVar) := by
  intro n
  induction n with
  | zero => exact Re.wait
  | succ n ih => unfold parseThreadVarDecls; res [threadVarDecl_re B n, ih]

omit B in
theorem quiet_typeDeclEnd : Quiet (typeDeclEnd u : P κ _) := by unfold typeDeclEnd; quiets

theorem typeDecl_re (n : Nat) : Re S F [] (parseTypeDecl u D n) (parseTypeDecl u (D') n) dclTypeDecl := by
  have q := quiet_typeDeclEnd (κ := κ) (u := u)
  unfold parseTypeDecl
  refine Re.traced ?_
  res [(typesRe B n).type, Re.declareType B _ _]

theorem typeDecls_re : ∀ n : Nat, Re S F [] (parseTypeDecls u D n) (parseTypeDecls u (D') n) (fun l => l.flatMap dclTypeDecl) := by
  intro n
  induction n with
  | zero => exact Re.wait
  | succ n ih => unfold parseTypeDecls; res [typeDecl_re B n, ih]

theorem withSection_re {α : Type} {p q : P κ α} {G : α → List (Dcl δ)} (h : Re S F [] p q G) :
    Re S F [] (withSection D p) (withSection (D') q) G := by
  intro s a s' e hb hF
  unfold withSection at e
  cases e1 : p { s with cx := D.openSection s.cx } with
  | ok b s1 =>
    rw [e1] at e
    cases e
    obtain ⟨h1, h2, h3⟩ := h _ _ _ e1 hb (B.sect hF)
    refine ⟨h1, B.openS h2, ?_⟩
    unfold withSection
    rw [show q { s with cx := (D').openSection s.cx } = _ from h3]
    rfl
  | _ => rw [e1] at e; cases e

theorem typeSection_re (n : Nat) : Re S F [] (parseTypeSection u D n) (parseTypeSection u (D') n) (fun l => l.flatMap dclTypeDecl) := by
  unfold parseTypeSection
  refine withSection_re B ?_
  res [typeDecls_re B n]

theorem exportsItem_re (n : Nat) : Re S F [] (parseExportsItem u D n) (parseExportsItem u (D') n) (fun _ => []) := by
  unfold parseExportsItem
  res [expr_re B n]

theorem exportsItems_re : ∀ n : Nat, Re S F [] (parseExportsItems u D n) (parseExportsItems u (D') n) (fun _ => []) := by
  intro n
  induction n with
  | zero => exact Re.wait
  | succ n ih => unfold parseExportsItems; res [exportsItem_re B n, ih]

theorem exports_re : ∀ n : Nat, Re S F [] (parseExports u D n) (parseExports u (D') n) (fun _ => []) := by
  intro n
  induction n with
  | zero => exact Re.wait
  | succ n ih => unfold parseExports; res [exportsItems_re B n, ih]

theorem exportedHeading_re (n : Nat) : Re S F [] (parseExportedHeading u D n) (parseExportedHeading u (D') n) (fun h => .named .heading h.1.ident :: dclHeading h.1) := by
  have q := quiet_routineOpts (κ := κ) (u := u) n
  unfold parseExportedHeading
  refine Re.stacked B ?_
  res [(typesRe B n).funcHeading, Re.setDecl B]

theorem blockBody_re (n : Nat) : Re S F [] (parseBlockBody u D n) (parseBlockBody u (D') n) (fun b => b.toList.flatMap dclBody) := by
  have : Re S F [] (parseAsm u n) (parseAsm u n) (dclBody (δ := δ)) := by
    unfold parseAsm
    refine Re.step (quiet_current _) fun _ => Re.step quiet_next fun _ => Re.step (quiet_asmLoop n) fun _ => ?_
    res []
  unfold parseBlockBody
  res [(stmtsRe B n).compound, this]

end

/-! ## Blocks -/

variable (u D S F okS okC) in
/-- the parsers of blocks with fuel `n` -/
structure BlocksRe (n : Nat) : Prop where
  block : Re S F [] (parseBlock u D n) (parseBlock u (D') n) dclBlock
  sects : Re S F [] (parseDeclSects u D n) (parseDeclSects u (D') n) dclSections
  sect : Re S F [] (parseDeclSect u D n) (parseDeclSect u (D') n) (fun o => o.toList.flatMap dclSection)
  func : Re S F [] (parseFunc u D n) (parseFunc u (D') n) dclSection

theorem blocksRe (B : ReBase u D S F okS okC) : ∀ n, BlocksRe u D S F okS okC n := by
  intro n
  induction n with
  | zero =>
    constructor
    · unfold parseBlock; exact Re.wait
    · unfold parseDeclSects; exact Re.wait
    · unfold parseDeclSect; exact Re.wait
    · unfold parseFunc; exact Re.wait
  | succ n ih =>
    constructor
    case block => unfold parseBlock; res [ih.sects, exports_re B n, blockBody_re B n]
    case sects => unfold parseDeclSects; res [ih.sect, ih.sects]
    case sect =>
      have h : Re S F [] (parseLabelDecl D) (parseLabelDecl (D')) (fun i => [.named .label i]) := by unfold parseLabelDecl; res [Re.setDecl B]
      unfold parseDeclSect
      res [h, constDecls_re B n, typeSection_re B n, varDecls_re B n, threadVarDecls_re B n, ih.func]
    case func =>
      have q := quiet_routineOpts (κ := κ) (u := u) n
      unfold parseFunc
      refine Re.stacked B ?_
      res [(typesRe B n).funcHeading, Re.setDecl B, ih.block]

end TP
