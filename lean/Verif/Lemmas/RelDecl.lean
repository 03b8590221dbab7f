import Verif.Lemmas.RelType

/-!
# Two runs of the parser of declarations
-/

namespace TP
open Spec

set_option linter.unusedVariables false

variable {κ₁ κ₂ δ₁ δ₂ ε : Type}
variable {u : Uni} {nm : Str → Str → Prop} {m₁ : Tr δ₁ ε} {m₂ : Tr δ₂ ε} {w : Prop} {K : κ₁ → κ₂ → Prop}
variable {D₁ : DEnv κ₁ δ₁} {D₂ : DEnv κ₂ δ₂}

local notation "PP" => PR u nm m₁ m₂ w K

section
variable {δ : Type} (m : Tr δ ε)
theorem ConstDecl.tr_mk (a b c) : ConstDecl.tr m ⟨a, b, c⟩ = ⟨m.id a, b.map (·.tr m), c.tr m⟩ := rfl
theorem TypeDecl.tr_mk (a b c) : TypeDecl.tr m ⟨a, b, c⟩ = ⟨m.id a, b.tr m, c.map m.str⟩ := rfl
theorem VarDecl.tr_mk (a b c d) : VarDecl.tr m ⟨a, b, c, d⟩ = ⟨a.map m.id, b.tr m, c.map m.id, d.map (·.tr m)⟩ := rfl
theorem ThreadVarDecl.tr_mk (a b) : ThreadVarDecl.tr m ⟨a, b⟩ = ⟨a.map m.id, b.tr m⟩ := rfl
theorem ExportsItem.tr_mk (a b c) : ExportsItem.tr m ⟨a, b, c⟩ = ⟨m.id a, b.map (·.tr m), c.map (·.tr m)⟩ := rfl
theorem ExternalOptions.tr_mk (f : Str → Str) (a b c) : ExternalOptions.tr f ⟨a, b, c⟩ = ⟨f a, b.map f, c⟩ := rfl
theorem RoutineOpts.tr_mk (f : Str → Str) (a b) : RoutineOpts.tr f ⟨a, b⟩ = ⟨a.map f, b.map (·.tr f)⟩ := rfl
theorem DKind.tr_type (t) : DKind.tr m (.type t) = .type (t.tr m) := rfl

theorem Heading.tr_ident (h : Heading δ) : (h.tr m).ident = m.id h.ident := by
  cases h <;> simp only [Heading.tr, Heading.ident]
end

macro_rules | `(tactic| rel_done) => `(tactic|
  (show _ = _; simp only [ConstDecl.tr_mk, TypeDecl.tr_mk, VarDecl.tr_mk, ThreadVarDecl.tr_mk, ExportsItem.tr_mk, ExternalOptions.tr_mk, RoutineOpts.tr_mk, DKind.tr_type, Block.tr, DeclSects.tr, DeclSect.tr, List.map_cons, List.map_nil, Option.map_some, Option.map_none, *]))

theorem DSim.ssim (S : DSim u nm m₁ m₂ K D₁ D₂) :
    SSim u nm m₁ m₂ w K (PType.tr m₁) (PType.tr m₂) (D₁.senv u) (D₂.senv u) where
  toESim := S.toESim
  isLabel := S.isLabel
  setHandler hk hi _ := S.set hk (by simp only [List.map_cons, List.map_nil, hi]) rfl
  parseType hnm := (typeR S (Nat.mul_le_mul_left 2 hnm)).type

set_option hygiene false in
macro_rules | `(tactic| rel_leaf) => `(tactic| first
  | exact (typeR S hnm).type | exact (typeR S hnm).funcHeading | exact PR.parseIdents _ hnm | exact PR.optSemi
  | exact (stmtR S.ssim hnm).compound | exact PR.parseAsm hnm | fail)

section
variable (S : DSim u nm m₁ m₂ K D₁ D₂)
include S

theorem PR.optType {c : Pred} [Resp u nm m₁ m₂ c] {n m : Nat} (hnm : n ≤ m) :
    PP (EqR (Option.map (PType.tr m₁)) (Option.map (PType.tr m₂)))
      (do
      if ← P.is c then do
        P.next
        let e ← parseType u D₁ n
        Pure.pure (some e)
      else Pure.pure none)
      (do
      if ← P.is c then do
        P.next
        let e ← parseType u D₂ m
        Pure.pure (some e)
      else Pure.pure none) := by rel

theorem PR.parseConstDecl {n m : Nat} (hnm : n ≤ m) :
    PP (EqR (ConstDecl.tr m₁) (ConstDecl.tr m₂)) (TP.parseConstDecl u D₁ n) (TP.parseConstDecl u D₂ m) := by
  unfold TP.parseConstDecl
  have := PR.optType (w := w) (c := sym r!":") S hnm
  rel

theorem PR.parseConstDecls : ∀ {n m : Nat}, n ≤ m →
    PP (EqR (List.map (ConstDecl.tr m₁)) (List.map (ConstDecl.tr m₂))) (TP.parseConstDecls u D₁ n) (TP.parseConstDecls u D₂ m)
  | 0, _, _ => PR.wait
  | n + 1, m + 1, h => by
    have ih := PR.parseConstDecls (Nat.le_of_succ_le_succ h)
    have := PR.parseConstDecl (w := w) S (Nat.le_of_succ_le_succ h)
    unfold TP.parseConstDecls
    rel

theorem PR.parseVarDecl {n m : Nat} (hnm : n ≤ m) :
    PP (EqR (VarDecl.tr m₁) (VarDecl.tr m₂)) (TP.parseVarDecl u D₁ n) (TP.parseVarDecl u D₂ m) := by
  unfold TP.parseVarDecl
  have := PR.optExpr (w := w) (c := sym r!"=") S hnm
  have h0 : PP (EqR (Option.map m₁.id) (Option.map m₂.id))
    (do
      if ← P.is (Pred.upperCase u r!"ABSOLUTE") then do
        let t ← P.nextIs (Pred.typ .ident)
        P.next
        Pure.pure (some (Ident.ofTok t))
      else Pure.pure none)
    (do
      if ← P.is (Pred.upperCase u r!"ABSOLUTE") then do
        let t ← P.nextIs (Pred.typ .ident)
        P.next
        Pure.pure (some (Ident.ofTok t))
      else Pure.pure none) := by rel
  rel

theorem PR.parseVarDecls : ∀ {n m : Nat}, n ≤ m →
    PP (EqR (List.map (VarDecl.tr m₁)) (List.map (VarDecl.tr m₂))) (TP.parseVarDecls u D₁ n) (TP.parseVarDecls u D₂ m)
  | 0, _, _ => PR.wait
  | n + 1, m + 1, h => by
    have ih := PR.parseVarDecls (Nat.le_of_succ_le_succ h)
    have := PR.parseVarDecl (w := w) S (Nat.le_of_succ_le_succ h)
    unfold TP.parseVarDecls
    rel

theorem PR.parseThreadVarDecl {n m : Nat} (hnm : n ≤ m) :
    PP (EqR (ThreadVarDecl.tr m₁) (ThreadVarDecl.tr m₂)) (TP.parseThreadVarDecl u D₁ n) (TP.parseThreadVarDecl u D₂ m) := by
  unfold TP.parseThreadVarDecl
  rel

theorem PR.parseThreadVarDecls : ∀ {n m : Nat}, n ≤ m →
    PP (EqR (List.map (ThreadVarDecl.tr m₁)) (List.map (ThreadVarDecl.tr m₂))) (TP.parseThreadVarDecls u D₁ n) (TP.parseThreadVarDecls u D₂ m)
  | 0, _, _ => PR.wait
  | n + 1, m + 1, h => by
    have ih := PR.parseThreadVarDecls (Nat.le_of_succ_le_succ h)
    have := PR.parseThreadVarDecl (w := w) S (Nat.le_of_succ_le_succ h)
    unfold TP.parseThreadVarDecls
    rel

theorem PR.completeType {d : δ₁} {e : δ₂} {i j : Ident} {x : PType δ₁} {y : PType δ₂} (h1 : SameD m₁ m₂ d e) (h2 : m₁.id i = m₂.id j)
    (h3 : x.tr m₁ = y.tr m₂) : PP (fun _ _ => True) (TP.completeType D₁ d i x) (TP.completeType D₂ e j y) := by
  intro s t hs
  have := S.complete hs.cx h1 h2 h3
  unfold TP.completeType
  cases h : D₁.complete s.cx d i x <;> cases h' : D₂.complete t.cx e j y <;> rw [h, h'] at this <;> try exact this.elim
  · exact ⟨trivial, hs.ts, this⟩
  · trivial
  · trivial

theorem PR.declareType {i j : Ident} {x : PType δ₁} {y : PType δ₂} (h2 : m₁.id i = m₂.id j)
    (h3 : x.tr m₁ = y.tr m₂) : PP (fun _ _ => True) (TP.declareType D₁ i x) (TP.declareType D₂ j y) := by
  unfold TP.declareType
  refine (PR.getDecl S.toESim (S.name h2)).bind ?_
  rintro _ _ (hde | _)
  · exact PR.ite (by rw [S.isType hde.same]) (fun _ _ => PR.completeType S hde.same h2 h3) (fun _ _ => PR.fail)
  · exact PR.setDecl S (by simp only [List.map_cons, List.map_nil, h2]) (by simp only [DKind.tr_type, h3])

omit S in
theorem PR.typeDeclEnd : PP (EqR (Option.map m₁.str) (Option.map m₂.str)) (TP.typeDeclEnd u) (TP.typeDeclEnd u) := by
  unfold TP.typeDeclEnd
  rel

theorem PR.parseTypeDecl {n m : Nat} (hnm : n ≤ m) :
    PP (EqR (TypeDecl.tr m₁) (TypeDecl.tr m₂)) (TP.parseTypeDecl u D₁ n) (TP.parseTypeDecl u D₂ m) := by
  unfold TP.parseTypeDecl
  refine PR.traced (PR.current.bind ?_)
  rel_intro
  rename_i a b _ _ _
  have h0 : PP (EqR (TypeDecl.tr m₁) (TypeDecl.tr m₂))
      (do
        let ty ← parseType u D₁ n
        TP.declareType D₁ (Ident.ofTok a) ty
        let pd ← TP.typeDeclEnd u
        Pure.pure { ident := Ident.ofTok a, type := ty, portability := pd })
      (do
        let ty ← parseType u D₂ m
        TP.declareType D₂ (Ident.ofTok b) ty
        let pd ← TP.typeDeclEnd u
        Pure.pure { ident := Ident.ofTok b, type := ty, portability := pd }) :=
    (typeR S hnm).type.bind fun x y hxy =>
      (PR.declareType S (by assumption) hxy).bind fun _ _ _ => PR.typeDeclEnd.bind fun p q hpq => PR.pure (by rel_done)
  refine PR.nextIs.bind fun _ _ _ => PR.next.bind fun _ _ _ => PR.is.bind ?_
  rel_intro
  exact PR.ite rfl (fun _ _ => PR.next.bind fun _ _ _ => h0) (fun _ _ => h0)

theorem PR.parseTypeDecls : ∀ {n m : Nat}, n ≤ m →
    PP (EqR (List.map (TypeDecl.tr m₁)) (List.map (TypeDecl.tr m₂))) (TP.parseTypeDecls u D₁ n) (TP.parseTypeDecls u D₂ m)
  | 0, _, _ => PR.wait
  | n + 1, m + 1, h => by
    have ih := PR.parseTypeDecls (Nat.le_of_succ_le_succ h)
    have := PR.parseTypeDecl (w := w) S (Nat.le_of_succ_le_succ h)
    unfold TP.parseTypeDecls
    rel

theorem PR.withSection {α β : Type} {A : α → β → Prop} {p : P κ₁ α} {q : P κ₂ β} (h : PP A p q) :
    PP A (TP.withSection D₁ p) (TP.withSection D₂ q) := by
  intro s t hs
  have := h _ _ (⟨hs.ts, S.openSection hs.cx⟩ : SR u nm m₁ m₂ w K { s with cx := D₁.openSection s.cx } { t with cx := D₂.openSection t.cx })
  unfold TP.withSection
  cases hp : p { s with cx := D₁.openSection s.cx } with
  | wait => exact trivial
  | err => rw [hp] at this; cases hq : q { t with cx := D₂.openSection t.cx } <;> rw [hq] at this <;> first | exact trivial | exact this.elim
  | panic => rw [hp] at this; cases hq : q { t with cx := D₂.openSection t.cx } <;> rw [hq] at this <;> first | exact trivial | exact this.elim
  | ok a s' =>
    rw [hp] at this
    cases hq : q { t with cx := D₂.openSection t.cx } <;> rw [hq] at this <;> try exact this.elim
    exact ⟨this.1, this.2.ts, S.closeSection hs.cx (S.runSection this.2.cx)⟩

theorem PR.parseTypeSection {n m : Nat} (hnm : n ≤ m) :
    PP (EqR (List.map (TypeDecl.tr m₁)) (List.map (TypeDecl.tr m₂))) (TP.parseTypeSection u D₁ n) (TP.parseTypeSection u D₂ m) := by
  unfold TP.parseTypeSection
  exact PR.withSection S (PR.next.bind fun _ _ _ => PR.parseTypeDecls S hnm)

theorem PR.parseLabelDecl : PP (EqR m₁.id m₂.id) (TP.parseLabelDecl D₁) (TP.parseLabelDecl D₂) := by
  unfold TP.parseLabelDecl
  rel

theorem PR.parseExportsItem {n m : Nat} (hnm : n ≤ m) :
    PP (EqR (ExportsItem.tr m₁) (ExportsItem.tr m₂)) (TP.parseExportsItem u D₁ n) (TP.parseExportsItem u D₂ m) := by
  unfold TP.parseExportsItem
  rel

theorem PR.parseExportsItems : ∀ {n m : Nat}, n ≤ m →
    PP (EqR (List.map (ExportsItem.tr m₁)) (List.map (ExportsItem.tr m₂))) (TP.parseExportsItems u D₁ n) (TP.parseExportsItems u D₂ m)
  | 0, _, _ => PR.wait
  | n + 1, m + 1, h => by
    have ih := PR.parseExportsItems (Nat.le_of_succ_le_succ h)
    have := PR.parseExportsItem (w := w) S (Nat.le_of_succ_le_succ h)
    unfold TP.parseExportsItems
    rel

theorem PR.parseExports : ∀ {n m : Nat}, n ≤ m →
    PP (EqR (List.map (List.map (ExportsItem.tr m₁))) (List.map (List.map (ExportsItem.tr m₂)))) (TP.parseExports u D₁ n) (TP.parseExports u D₂ m)
  | 0, _, _ => PR.wait
  | n + 1, m + 1, h => by
    have ih := PR.parseExports (Nat.le_of_succ_le_succ h)
    have := PR.parseExportsItems (w := w) S (Nat.le_of_succ_le_succ h)
    unfold TP.parseExports
    rel

omit S in
theorem TokR.litv {a b : Token} (h : TokR u nm m₁ m₂ a b) (hc : a.typ = .charString) : a.value u = b.value u := by
  unfold Token.value
  rw [← h.typ, hc]; exact h.lit hc

omit S in
theorem PR.stringFactor : PP Eq (TP.stringFactor u) (TP.stringFactor u) := by
  unfold TP.stringFactor
  refine PR.cur.bind fun a b hab => ?_
  refine PR.ite hab.isTyp (fun h _ => PR.next.bind fun _ _ _ => PR.pure (hab.litv h)) (fun _ _ => PR.fail)

omit S in
theorem PR.numberFactor : PP Eq (TP.numberFactor u) (TP.numberFactor u) := PR.stringFactor

omit S in
theorem PR.parseExternal : PP Eq (TP.parseExternal u) (TP.parseExternal u) := by
  unfold TP.parseExternal
  have h0 := PR.stringFactor (u := u) (nm := nm) (m₁ := m₁) (m₂ := m₂) (w := w) (K := K)
  have h1 := PR.numberFactor (u := u) (nm := nm) (m₁ := m₁) (m₂ := m₂) (w := w) (K := K)
  rel
  split
  · exact PR.pure rfl
  · exact PR.fail

omit S in
theorem PR.parseDirectives : ∀ {n m : Nat}, n ≤ m → ∀ o, PP Eq (TP.parseDirectives u n o) (TP.parseDirectives u m o)
  | 0, _, _, _ => PR.wait
  | n + 1, m + 1, h, o => by
    have ih := PR.parseDirectives (Nat.le_of_succ_le_succ h)
    unfold TP.parseDirectives
    refine PR.cur.bind fun a b hab => ?_
    refine PR.ite hab.isPred (fun _ _ => ?_) (fun _ _ => PR.pure rfl)
    dsimp only
    rw [hab.upv]
    refine PR.bind (A := Eq) ?_ ?_
    · refine PR.ite rfl (fun _ _ => PR.parseExternal) (fun _ _ => PR.next.bind fun _ _ _ => PR.pure rfl)
    · rintro o' _ rfl
      refine PR.current.bind fun _ _ _ => PR.next.bind fun _ _ _ => (ih o').bind ?_
      rintro r _ rfl
      exact PR.pure rfl

omit S in
theorem PR.parseRoutineOpts {n m : Nat} (hnm : n ≤ m) : PP Eq (TP.parseRoutineOpts u n) (TP.parseRoutineOpts u m) := by
  unfold TP.parseRoutineOpts
  have := PR.parseDirectives (u := u) (nm := nm) (m₁ := m₁) (m₂ := m₂) (w := w) (K := K) hnm none
  rel

theorem PR.setHeading {x : Heading δ₁} {y : Heading δ₂} {a : DKind δ₁} {b : DKind δ₂} (h : x.tr m₁ = y.tr m₂) (h2 : a.tr m₁ = b.tr m₂) :
    PP (fun _ _ => True) (TP.setDecl D₁ [x.ident] a) (TP.setDecl D₂ [y.ident] b) := by
  refine PR.setDecl S ?_ h2
  simp only [List.map_cons, List.map_nil, ← Heading.tr_ident, h]

theorem PR.parseExportedHeading {n m : Nat} (hnm : n ≤ m) :
    PP (fun a b => a.1.tr m₁ = b.1.tr m₂ ∧ a.2 = b.2) (TP.parseExportedHeading u D₁ n) (TP.parseExportedHeading u D₂ m) := by
  unfold TP.parseExportedHeading
  refine PR.stacked S ((typeR S hnm).funcHeading.bind fun x y h => ?_)
  refine PR.current.bind fun _ _ _ => (PR.setHeading S h rfl).bind fun _ _ _ => PR.next.bind fun _ _ _ => (PR.parseRoutineOpts hnm).bind ?_
  rintro o _ rfl
  exact PR.pure ⟨h, rfl⟩

theorem PR.parseBlockBody {n m : Nat} (hnm : n ≤ m) :
    PP (EqR (Option.map (Body.tr m₁ (PType.tr m₁))) (Option.map (Body.tr m₂ (PType.tr m₂)))) (TP.parseBlockBody u D₁ n) (TP.parseBlockBody u D₂ m) := by
  unfold TP.parseBlockBody
  have := PR.parseAsm (u := u) (nm := nm) (m₁ := m₁) (m₂ := m₂) (w := w) (K := K) (f := PType.tr m₁) (g := PType.tr m₂) hnm
  rel

end

/-- the parsers of blocks, with `n` and `m` steps -/
structure BlockR (u : Uni) (nm : Str → Str → Prop) (m₁ : Tr δ₁ ε) (m₂ : Tr δ₂ ε) (w : Prop) (K : κ₁ → κ₂ → Prop) (D₁ : DEnv κ₁ δ₁)
    (D₂ : DEnv κ₂ δ₂) (n m : Nat) : Prop where
  block : PR u nm m₁ m₂ w K (EqR (Block.tr m₁) (Block.tr m₂)) (parseBlock u D₁ n) (parseBlock u D₂ m)
  sects : PR u nm m₁ m₂ w K (EqR (DeclSects.tr m₁) (DeclSects.tr m₂)) (parseDeclSects u D₁ n) (parseDeclSects u D₂ m)
  sect : PR u nm m₁ m₂ w K (Option.Rel (EqR (DeclSect.tr m₁) (DeclSect.tr m₂))) (parseDeclSect u D₁ n) (parseDeclSect u D₂ m)
  func : PR u nm m₁ m₂ w K (EqR (DeclSect.tr m₁) (DeclSect.tr m₂)) (parseFunc u D₁ n) (parseFunc u D₂ m)

theorem blockR_zero (m : Nat) : BlockR u nm m₁ m₂ w K D₁ D₂ 0 m := by
  constructor <;> exact PR.wait

macro_rules | `(tactic| rel_done) => `(tactic| (refine Option.Rel.some ?_; rel_done))
macro_rules | `(tactic| rel_done) => `(tactic| exact Option.Rel.none)

theorem blockR_succ (S : DSim u nm m₁ m₂ K D₁ D₂) {n m : Nat} (hnm : n ≤ m) (ih : BlockR u nm m₁ m₂ w K D₁ D₂ n m) :
    BlockR u nm m₁ m₂ w K D₁ D₂ (n + 1) (m + 1) where
  block := by
    unfold parseBlock
    refine ih.sects.bind fun ds ds' h1 => (PR.parseExports S hnm).bind fun e1 e1' h2 => (PR.parseBlockBody S hnm).bind fun b b' h3 =>
      (PR.parseExports S hnm).bind fun e2 e2' h4 => PR.pure ?_
    have he : e2.isEmpty = e2'.isEmpty := by
      have := congrArg List.isEmpty h4
      simpa using this
    show _ = _
    simp only [Block.tr, he]
    rw [h1]
    congr 1
    split
    · exact h2
    · exact h4
  sects := by
    unfold parseDeclSects
    refine ih.sect.bind ?_
    rintro _ _ (h | _)
    · have h2 := ih.sects
      have h3 := PR.optSemi (u := u) (nm := nm) (m₁ := m₁) (m₂ := m₂) (w := w) (K := K)
      rel
    · exact PR.pure rfl
  sect := by
    unfold parseDeclSect
    have h1 := PR.parseLabelDecl (w := w) S
    have h2 := PR.parseConstDecls (w := w) S hnm
    have h3 := PR.parseTypeSection (w := w) S hnm
    have h4 := PR.parseVarDecls (w := w) S hnm
    have h5 := PR.parseThreadVarDecls (w := w) S hnm
    have h6 := ih.func
    rel
  func := by
    unfold parseFunc
    refine PR.stacked S ((typeR S hnm).funcHeading.bind fun x y h => ?_)
    refine PR.current.bind fun _ _ _ => (PR.setHeading S h rfl).bind fun _ _ _ => PR.next.bind fun _ _ _ => (PR.parseRoutineOpts hnm).bind ?_
    rintro o _ rfl
    refine ih.block.bind fun b b' hb => PR.pure ?_
    show _ = _
    simp only [DeclSect.tr, S.str]
    rw [h, hb]

theorem blockR (S : DSim u nm m₁ m₂ K D₁ D₂) : ∀ {n m : Nat}, n ≤ m → BlockR u nm m₁ m₂ w K D₁ D₂ n m
  | 0, m, _ => blockR_zero m
  | _ + 1, _ + 1, h => blockR_succ S (Nat.le_of_succ_le_succ h) (blockR S (Nat.le_of_succ_le_succ h))

end TP
