import Verif.Lemmas.LedGoal
import Verif.Spec.Ordered

/-!
# References lead to earlier declarations
-/

namespace TP
open Spec Maps Props

variable {u : Uni} {α β : Type}

local notation "DL" => List (Dcl (Decl Node))
local notation "RL" => Refs (Decl Node)
local notation "TL" => List (PType (Decl Node))

/-! ## More types and more declarations -/

theorem Spec.toward.mono {T T' : TL} {L L' : DL} {R R' : RL} (h : toward T L R) (hT : T <+: T') (hL : ∀ x ∈ L, x ∈ L') (hR : ∀ x ∈ R', x ∈ R) :
    toward T' L' R' := fun r hr => (h r (hR r hr)).mono hL hT

theorem Spec.toward.types {T T' : TL} {L : DL} {R : RL} (h : toward T L R) (hT : T <+: T') : toward T' L R :=
  h.mono hT (fun _ h => h) (fun _ h => h)

theorem Spec.toward.append {T : TL} {L : DL} {R R' : RL} (h : toward T L R) (h' : toward T L R') : toward T L (R ++ R') := fun r hr =>
  (List.mem_append.1 hr).elim (h r) (h' r)

theorem sub_append {L L' : DL} (hL : ∀ x ∈ L, x ∈ L') (l : DL) : ∀ x ∈ l ++ L, x ∈ l ++ L' := fun x hx =>
  (List.mem_append.1 hx).elim (List.mem_append_left _) fun h => List.mem_append_right _ (hL x h)

theorem Spec.toward.more {T T' : TL} {L L' l : DL} {R : RL} (h : toward T (l ++ L) R) (hT : T <+: T') (hL : ∀ x ∈ L, x ∈ L') : toward T' (l ++ L') R :=
  h.mono hT (sub_append hL l) (fun _ h => h)

theorem ordConsts_mono {T T' : TL} (hT : T <+: T') : ∀ {ds : List (ConstDecl (Decl Node))} {L L' : DL}, (∀ x ∈ L, x ∈ L') → ordConsts T L ds → ordConsts T' L' ds
  | [], _, _, _, _ => trivial
  | _ :: _, _, _, hL, h => ⟨h.1.more hT hL, ordConsts_mono hT (sub_append hL _) h.2⟩
theorem ordTypes_mono {T T' : TL} (hT : T <+: T') : ∀ {ds : List (TypeDecl (Decl Node))} {L L' : DL}, (∀ x ∈ L, x ∈ L') → ordTypes T L ds → ordTypes T' L' ds
  | [], _, _, _, _ => trivial
  | _ :: _, _, _, hL, h => ⟨h.1.more hT hL, ordTypes_mono hT (sub_append hL _) h.2⟩
theorem ordVars_mono {T T' : TL} (hT : T <+: T') : ∀ {ds : List (VarDecl (Decl Node))} {L L' : DL}, (∀ x ∈ L, x ∈ L') → ordVars T L ds → ordVars T' L' ds
  | [], _, _, _, _ => trivial
  | _ :: _, _, _, hL, h => ⟨h.1.more hT hL, ordVars_mono hT (sub_append hL _) h.2⟩
theorem ordThreadVars_mono {T T' : TL} (hT : T <+: T') : ∀ {ds : List (ThreadVarDecl (Decl Node))} {L L' : DL}, (∀ x ∈ L, x ∈ L') → ordThreadVars T L ds →
    ordThreadVars T' L' ds
  | [], _, _, _, _ => trivial
  | _ :: _, _, _, hL, h => ⟨h.1.more hT hL, ordThreadVars_mono hT (sub_append hL _) h.2⟩

mutual
theorem ordBlock_mono {T T' : TL} (hT : T <+: T') : ∀ (b : Block (Decl Node)) {L L' : DL}, (∀ x ∈ L, x ∈ L') → ordBlock T L b → ordBlock T' L' b
  | .mk ds ex b, L, L', hL, h => by
    rw [ordBlock] at h ⊢
    exact ⟨ordSections_mono hT ds hL h.1, h.2.1.more hT (sub_append hL _), h.2.2.more hT (sub_append hL _)⟩
theorem ordSections_mono {T T' : TL} (hT : T <+: T') : ∀ (ds : DeclSects (Decl Node)) {L L' : DL}, (∀ x ∈ L, x ∈ L') → ordSections T L ds → ordSections T' L' ds
  | .nil, _, _, _, _ => by rw [ordSections]; trivial
  | .cons s rest, L, L', hL, h => by
    rw [ordSections] at h ⊢
    exact ⟨ordSection_mono hT s hL h.1, ordSections_mono hT rest (sub_append hL _) h.2⟩
theorem ordSection_mono {T T' : TL} (hT : T <+: T') : ∀ (s : DeclSect (Decl Node)) {L L' : DL}, (∀ x ∈ L, x ∈ L') → ordSection T L s → ordSection T' L' s
  | .label _, _, _, _, _ => by rw [ordSection]; trivial
  | .const ds, _, _, hL, h => by rw [ordSection] at h ⊢; exact ordConsts_mono hT hL h
  | .type ds, _, _, hL, h => by rw [ordSection] at h ⊢; exact ordTypes_mono hT hL h
  | .var ds, _, _, hL, h => by rw [ordSection] at h ⊢; exact ordVars_mono hT hL h
  | .threadVar ds, _, _, hL, h => by rw [ordSection] at h ⊢; exact ordThreadVars_mono hT hL h
  | .func hd o b, _, _, hL, h => by
    rw [ordSection] at h ⊢
    exact ⟨h.1.more hT hL, ordBlock_mono hT b (sub_append (sub_append hL _) [_]) h.2⟩
end

theorem ordIntf_mono {T T' : TL} (hT : T <+: T') : ∀ {ds : List (IntfDecl (Decl Node))} {L L' : DL}, (∀ x ∈ L, x ∈ L') → ordIntf T L ds → ordIntf T' L' ds
  | [], _, _, _, _ => trivial
  | .const _ :: _, _, _, hL, h => ⟨ordConsts_mono hT hL h.1, ordIntf_mono hT (sub_append hL _) h.2⟩
  | .type _ _ :: _, _, _, hL, h => ⟨ordTypes_mono hT hL h.1, ordIntf_mono hT (sub_append hL _) h.2⟩
  | .var _ :: _, _, _, hL, h => ⟨ordVars_mono hT hL h.1, ordIntf_mono hT (sub_append hL _) h.2⟩
  | .threadVar _ :: _, _, _, hL, h => ⟨ordThreadVars_mono hT hL h.1, ordIntf_mono hT (sub_append hL _) h.2⟩
  | .heading _ _ :: _, _, _, hL, h => ⟨h.1.more hT hL, ordIntf_mono hT (sub_append hL _) h.2⟩

theorem ordUnitBody_mono {T T' : TL} (hT : T <+: T') {b : UnitBody (Decl Node)} {L L' : DL} (hL : ∀ x ∈ L, x ∈ L') (h : ordUnitBody T L b) :
    ordUnitBody T' L' b :=
  ⟨ordSections_mono hT _ hL h.1, h.2.1.more hT hL, fun i hi => ⟨(h.2.2 i hi).1.more hT (sub_append hL _), (h.2.2 i hi).2.more hT (sub_append hL _)⟩⟩

theorem ordTypes_types {T T' : TL} (hT : T <+: T') {ds : List (TypeDecl (Decl Node))} {L : DL} (h : ordTypes T L ds) : ordTypes T' L ds :=
  ordTypes_mono hT (fun _ h => h) h
theorem ordSections_types {T T' : TL} (hT : T <+: T') (ds : DeclSects (Decl Node)) (L : DL) (h : ordSections T L ds) : ordSections T' L ds :=
  ordSections_mono hT ds (fun _ h => h) h
theorem ordSection_types {T T' : TL} (hT : T <+: T') (s : DeclSect (Decl Node)) (L : DL) (h : ordSection T L s) : ordSection T' L s :=
  ordSection_mono hT s (fun _ h => h) h
theorem ordIntf_types {T T' : TL} (hT : T <+: T') {ds : List (IntfDecl (Decl Node))} {L : DL} (h : ordIntf T L ds) : ordIntf T' L ds :=
  ordIntf_mono hT (fun _ h => h) h

/-! ## Parsers -/

/-- the context leads to what was declared before and what is declared now, and `O` holds -/
def Fo (f : α → DL) (O : α → DL → TL → Prop) (p : P DS α) : Prop :=
  ∀ L s a s', Inn L [] s.cx → p s = .ok a s' → Inn (f a ++ L) [] s'.cx ∧ s.cx.types <+: s'.cx.types ∧ O a L s'.cx.types

namespace Fo

/-- a parser below units and programs -/
theorem self {f : α → DL} {g : α → RL} {p : P DS α} {q : (Dcl (Decl Node) → Prop) → TL → P DS α}
    {A : (Dcl (Decl Node) → Prop) → TL → α → α → Prop}
    (hr : ∀ S T, Re S (fun k : DS => k.types <+: T) [] p (q S T) f)
    (hq : ∀ S T, PR u Eq markAll (markLed S T) False (BothLed S T) (A S T) (q S T) (q S T))
    (hA : ∀ S T a, A S T a a → ∀ p ∈ g a, Leads S T p.2) : Fo f (fun a L T => toward T (f a ++ L) (g a)) p := by
  intro L s a s' hs e
  have h := Fw.self hr hq hA L [] s a s' hs e
  exact ⟨h.mono (fun _ h => h) (fun _ h => by cases h), (hr (fun _ => True) s'.cx.types s a s' e (fun _ _ => trivial) List.prefix_rfl).2.1,
    fun r hr => h.refs r (List.mem_append_left _ hr)⟩

theorem grows {f : α → DL} {p : P DS α} {q : (Dcl (Decl Node) → Prop) → TL → P DS α} {s s' : PS DS} {a : α}
    (hr : ∀ S T, Re S (fun k : DS => k.types <+: T) [] p (q S T) f) (e : p s = .ok a s') : s.cx.types <+: s'.cx.types :=
  (hr (fun _ => True) s'.cx.types s a s' e (fun _ _ => trivial) List.prefix_rfl).2.1

theorem type (n : Nat) : Fo dclType (fun a L T => toward T (dclType a ++ L) a.refs) (parseType u (declEnv u) n) :=
  self (u := u) (fun S T => (typesRe (ledBase u S T) n).type) (fun S T => (typeR (LedSim.sim u S T) (Nat.le_refl n)).type)
    fun S T _ h => markedLed (fun _ => PType.refs_tr _) (congrArg PType.refs h)

theorem heading (n : Nat) : Fo dclHeading (fun a L T => toward T (dclHeading a ++ L) a.refs) (parseFuncHeading u (declEnv u) n) :=
  self (u := u) (fun S T => (typesRe (ledBase u S T) n).funcHeading) (fun S T => (typeR (LedSim.sim u S T) (Nat.le_refl n)).funcHeading)
    fun S T _ h => markedLed (fun _ => Heading.refs_tr _) (congrArg Heading.refs h)

theorem const (n : Nat) : Fo dclConst (fun a L T => toward T (dclConst a ++ L) a.refs) (parseConstDecl u (declEnv u) n) :=
  self (u := u) (fun S T => constDecl_re (ledBase u S T) n) (fun S T => PR.parseConstDecl (LedSim.sim u S T) (Nat.le_refl n))
    fun S T _ h => markedLed (fun _ => ConstDecl.refs_tr _) (congrArg ConstDecl.refs h)

theorem var0 (n : Nat) : Fo dclVar (fun a L T => toward T (dclVar a ++ L) a.refs) (parseVarDecl u (declEnv u) n) :=
  self (u := u) (fun S T => varDecl_re (ledBase u S T) n) (fun S T => PR.parseVarDecl (LedSim.sim u S T) (Nat.le_refl n))
    fun S T _ h => markedLed (fun _ => VarDecl.refs_tr _) (congrArg VarDecl.refs h)

theorem threadVar0 (n : Nat) : Fo dclThreadVar (fun a L T => toward T (dclThreadVar a ++ L) a.refs) (parseThreadVarDecl u (declEnv u) n) :=
  self (u := u) (fun S T => threadVarDecl_re (ledBase u S T) n) (fun S T => PR.parseThreadVarDecl (LedSim.sim u S T) (Nat.le_refl n))
    fun S T _ h => markedLed (fun _ => ThreadVarDecl.refs_tr _) (congrArg ThreadVarDecl.refs h)

theorem typeDecl0 (n : Nat) : Fo dclTypeDecl (fun a L T => toward T (dclTypeDecl a ++ L) a.refs) (parseTypeDecl u (declEnv u) n) :=
  self (u := u) (fun S T => typeDecl_re (ledBase u S T) n) (fun S T => PR.parseTypeDecl (LedSim.sim u S T) (Nat.le_refl n))
    fun S T _ h => markedLed (fun _ => TypeDecl.refs_tr _) (congrArg TypeDecl.refs h)

theorem exports (n : Nat) : Fo (fun _ => []) (fun a L T => toward T L (a.flatMap fun is => is.flatMap ExportsItem.refs)) (parseExports u (declEnv u) n) :=
  self (u := u) (fun S T => exports_re (ledBase u S T) n) (fun S T => PR.parseExports (LedSim.sim u S T) (Nat.le_refl n))
    fun S T _ h => markedLed (fun _ => refs_list (refs_list ExportsItem.refs_tr) _) (congrArg (fun e => e.flatMap fun is => is.flatMap ExportsItem.refs) h)

theorem body (n : Nat) : Fo (fun b => b.toList.flatMap dclBody) (fun a L T => toward T (a.toList.flatMap dclBody ++ L) (a.toList.flatMap (Body.refs PType.refs)))
    (parseBlockBody u (declEnv u) n) :=
  self (u := u) (fun S T => blockBody_re (ledBase u S T) n) (fun S T => PR.parseBlockBody (LedSim.sim u S T) (Nat.le_refl n))
    fun S T _ h => markedLed (fun _ => refs_opt (Body.refs_tr PType.refs_tr) _) (congrArg (fun b : Option _ => b.toList.flatMap (Body.refs PType.refs)) h)

theorem stmts (p : Pred) [∀ S T, Resp u Eq markAll (markLed S T) p] (n : Nat) :
    Fo dclStmts (fun a L T => toward T (dclStmts a ++ L) (a.refs PType.refs)) (parseStmts u ((declEnv u).senv u) p n) :=
  self (u := u) (fun S T => (stmtsRe (ledBase u S T) n).stmts p)
    (fun S T => (stmtR (DSim.ssim (w := False) (LedSim.sim u S T)) (Nat.le_refl n)).stmts p)
    fun S T _ h => markedLed (fun _ => Stmts.refs_tr PType.refs_tr _) (congrArg (Stmts.refs PType.refs) h)

/-- an optional expression -/
theorem optExpr (n : Nat) : Fo (fun _ => []) (fun a L T => toward T L (a.toList.flatMap Expr.refs)) (do
    if ← P.is (sym r!"=") then do
      P.next
      let e ← parseExpr u (declEnv u).toEnv n
      Pure.pure (some e)
    else Pure.pure none : P DS (Option (Expr (Decl Node)))) := by
  have he : Fo (fun _ => []) (fun a L T => toward T L a.refs) (parseExpr u (declEnv u).toEnv n) :=
    self (u := u) (fun S T => expr_re (ledBase u S T) n) (fun S T => (exprR (LedSim.sim u S T).toESim (Nat.le_refl n)).expr)
      fun S T _ h => markedLed (fun _ => Expr.refs_tr _) (congrArg Expr.refs h)
  intro L s a s' hs e
  obtain ⟨c, s1, e1, e⟩ := ok_bind e
  have q1 := quiet_is _ _ _ _ e1
  cases c with
  | false => cases e; rw [q1]; exact ⟨hs, List.prefix_rfl, fun _ h => by cases h⟩
  | true =>
    obtain ⟨_, s2, e2, e⟩ := ok_bind (p := P.next) e
    obtain ⟨x, s3, e3, e⟩ := ok_bind e
    cases e
    have q2 := quiet_next _ _ _ e2
    have := he L s2 x s' (by rw [q2, q1]; exact hs) e3
    rw [q2, q1] at this
    exact ⟨this.1, this.2.1, by simpa using this.2.2⟩

/-- the variables are declared at the end -/
theorem var (n : Nat) : Fo dclVar (fun a L T => toward T (dclType a.type ++ L) a.refs) (parseVarDecl u (declEnv u) n) := by
  intro L s a s' hs e
  obtain ⟨h1, h2, -⟩ := var0 n L s a s' hs e
  refine ⟨h1, h2, ?_⟩
  unfold parseVarDecl at e
  obtain ⟨is, s1, e1, e⟩ := ok_bind e
  obtain ⟨_, s2, e2, e⟩ := ok_bind e
  obtain ⟨ty, s3, e3, e⟩ := ok_bind e
  obtain ⟨ab, s4, e4, e⟩ := ok_bind e
  obtain ⟨x, s5, e5, e⟩ := ok_bind e
  obtain ⟨_, s6, e6, e⟩ := ok_bind e
  cases e
  have q2 : s2.cx = s.cx := by rw [quiet_next _ _ _ e2, quiet_idents n _ _ _ e1]
  have q4 : s4.cx = s3.cx := by
    have q : Quiet (do
      if ← P.is (Pred.upperCase u r!"ABSOLUTE") then do
        let t ← P.nextIs (Pred.typ .ident)
        P.next
        Pure.pure (some (Ident.ofTok t))
      else Pure.pure none : P DS (Option Ident)) := by quiets
    exact q _ _ _ e4
  obtain ⟨h3, -, h4⟩ := type n L s2 ty s3 (by rw [q2]; exact hs) e3
  obtain ⟨-, h5, h6⟩ := optExpr n _ s4 x s5 (by rw [q4]; exact h3) e5
  rw [q4] at h5
  have h7 := grows (fun S T => Re.setDecl (ledBase u S T)) e6
  exact (h4.types (h5.trans h7)).append (h6.types h7)

theorem threadVar (n : Nat) : Fo dclThreadVar (fun a L T => toward T (dclType a.type ++ L) a.refs) (parseThreadVarDecl u (declEnv u) n) := by
  intro L s a s' hs e
  obtain ⟨h1, h2, -⟩ := threadVar0 n L s a s' hs e
  refine ⟨h1, h2, ?_⟩
  unfold parseThreadVarDecl at e
  obtain ⟨is, s1, e1, e⟩ := ok_bind e
  obtain ⟨_, s2, e2, e⟩ := ok_bind e
  obtain ⟨ty, s3, e3, e⟩ := ok_bind e
  obtain ⟨_, s6, e6, e⟩ := ok_bind e
  cases e
  have q2 : s2.cx = s.cx := by rw [quiet_next _ _ _ e2, quiet_idents n _ _ _ e1]
  obtain ⟨h3, -, h4⟩ := type n L s2 ty s3 (by rw [q2]; exact hs) e3
  have h7 := grows (fun S T => Re.setDecl (ledBase u S T)) e6
  exact h4.types h7

/-- the type is declared at the end -/
theorem typeDecl (n : Nat) : Fo dclTypeDecl (fun a L T => toward T (dclType a.type ++ L) a.refs) (parseTypeDecl u (declEnv u) n) := by
  intro L s a s' hs e
  obtain ⟨h1, h2, -⟩ := typeDecl0 n L s a s' hs e
  refine ⟨h1, h2, ?_⟩
  unfold parseTypeDecl traced at e
  obtain ⟨_, s0, e0, e⟩ := ok_bind e
  obtain ⟨d, sz, e, ez⟩ := ok_bind e
  obtain ⟨_, sy, ey, ez⟩ := ok_bind ez
  cases ez
  rw [quiet_cur _ _ _ ey]
  rw [← quiet_cur _ _ _ e0] at hs
  obtain ⟨t, s1, e1, e⟩ := ok_bind e
  obtain ⟨_, s2, e2, e⟩ := ok_bind e
  obtain ⟨_, s3, e3, e⟩ := ok_bind e
  obtain ⟨c, s4, e4, e⟩ := ok_bind e
  have q4 : s4.cx = s0.cx := by rw [quiet_is _ _ _ _ e4, quiet_next _ _ _ e3, quiet_nextIs _ _ _ _ e2, quiet_current _ _ _ _ e1]
  have key : ∀ s5 : PS DS, s5.cx = s0.cx → (do
      let ty ← parseType u (declEnv u) n
      declareType (declEnv u) (Ident.ofTok t) ty
      let pd ← typeDeclEnd u
      Pure.pure ⟨Ident.ofTok t, ty, pd⟩ : P DS (TypeDecl (Decl Node))) s5 = .ok a sz → toward sz.cx.types (dclType a.type ++ L) a.refs := by
    intro s5 q5 e
    obtain ⟨ty, s6, e6, e⟩ := ok_bind e
    obtain ⟨_, s7, e7, e⟩ := ok_bind e
    obtain ⟨pd, s8, e8, e⟩ := ok_bind e
    cases e
    obtain ⟨h3, -, h4⟩ := type n L s5 ty s6 (by rw [q5]; exact hs) e6
    have h7 := grows (fun S T => Re.declareType (ledBase u S T) _ _) e7
    rw [quiet_typeDeclEnd _ _ _ e8]
    exact h4.types h7
  cases c with
  | false => exact key s4 q4 e
  | true =>
    obtain ⟨_, s5, e5, e⟩ := ok_bind (p := P.next) e
    exact key s5 ((quiet_next _ _ _ e5).trans q4) e

/-! ## Sections -/

theorem consts : ∀ n, Fo (fun ds => ds.flatMap dclConst) (fun ds L T => ordConsts T L ds) (parseConstDecls u (declEnv u) n)
  | 0 => fun _ _ _ _ _ e => by cases e
  | n + 1 => by
    intro L s a s' hs e
    unfold parseConstDecls at e
    obtain ⟨d, s1, e1, e⟩ := ok_bind e
    obtain ⟨_, s2, e2, e⟩ := ok_bind e
    obtain ⟨_, s3, e3, e⟩ := ok_bind e
    obtain ⟨c, s4, e4, e⟩ := ok_bind e
    have q4 : s4.cx = s1.cx := by rw [quiet_is _ _ _ _ e4, quiet_next _ _ _ e3, quiet_current _ _ _ _ e2]
    obtain ⟨h1, h2, h3⟩ := const n L s d s1 hs e1
    cases c with
    | true =>
      cases e
      rw [q4]
      exact ⟨by simpa using h1, h2, h3, trivial⟩
    | false =>
      obtain ⟨rest, s5, e5, e⟩ := ok_bind (p := parseConstDecls u (declEnv u) n) e
      cases e
      obtain ⟨h4, h5, h6⟩ := consts n _ s4 rest s' (by rw [q4]; exact h1) e5
      rw [q4] at h5
      exact ⟨h4.mono (by mems) (by mems), h2.trans h5, h3.types h5, h6⟩

theorem threadVars : ∀ n, Fo (fun ds => ds.flatMap dclThreadVar) (fun ds L T => ordThreadVars T L ds) (parseThreadVarDecls u (declEnv u) n)
  | 0 => fun _ _ _ _ _ e => by cases e
  | n + 1 => by
    intro L s a s' hs e
    unfold parseThreadVarDecls at e
    obtain ⟨d, s1, e1, e⟩ := ok_bind e
    obtain ⟨_, s2, e2, e⟩ := ok_bind e
    obtain ⟨_, s3, e3, e⟩ := ok_bind e
    obtain ⟨c, s4, e4, e⟩ := ok_bind e
    have q4 : s4.cx = s1.cx := by rw [quiet_is _ _ _ _ e4, quiet_next _ _ _ e3, quiet_current _ _ _ _ e2]
    obtain ⟨h1, h2, h3⟩ := threadVar n L s d s1 hs e1
    cases c with
    | true =>
      cases e
      rw [q4]
      exact ⟨by simpa using h1, h2, h3, trivial⟩
    | false =>
      obtain ⟨rest, s5, e5, e⟩ := ok_bind (p := parseThreadVarDecls u (declEnv u) n) e
      cases e
      obtain ⟨h4, h5, h6⟩ := threadVars n _ s4 rest s' (by rw [q4]; exact h1) e5
      rw [q4] at h5
      exact ⟨h4.mono (by mems) (by mems), h2.trans h5, h3.types h5, h6⟩

theorem vars : ∀ n, Fo (fun ds => ds.flatMap dclVar) (fun ds L T => ordVars T L ds) (parseVarDecls u (declEnv u) n)
  | 0 => fun _ _ _ _ _ e => by cases e
  | n + 1 => by
    intro L s a s' hs e
    unfold parseVarDecls at e
    obtain ⟨d, s1, e1, e⟩ := ok_bind e
    obtain ⟨c, s2, e2, e⟩ := ok_bind e
    obtain ⟨h1, h2, h3⟩ := var n L s d s1 hs e1
    have q2 := quiet_is _ _ _ _ e2
    cases c with
    | true =>
      cases e
      rw [q2]
      exact ⟨by simpa using h1, h2, h3, trivial⟩
    | false =>
      obtain ⟨_, s3, e3, e⟩ := ok_bind (p := P.current _) e
      obtain ⟨_, s4, e4, e⟩ := ok_bind e
      obtain ⟨c, s5, e5, e⟩ := ok_bind e
      have q5 : s5.cx = s1.cx := by rw [quiet_is _ _ _ _ e5, quiet_next _ _ _ e4, quiet_current _ _ _ _ e3, q2]
      cases c with
      | true =>
        cases e
        rw [q5]
        exact ⟨by simpa using h1, h2, h3, trivial⟩
      | false =>
        obtain ⟨rest, s6, e6, e⟩ := ok_bind (p := parseVarDecls u (declEnv u) n) e
        cases e
        obtain ⟨h4, h5, h6⟩ := vars n _ s5 rest s' (by rw [q5]; exact h1) e6
        rw [q5] at h5
        exact ⟨h4.mono (by mems) (by mems), h2.trans h5, h3.types h5, h6⟩

theorem typeDecls : ∀ n, Fo (fun ds => ds.flatMap dclTypeDecl) (fun ds L T => ordTypes T L ds) (parseTypeDecls u (declEnv u) n)
  | 0 => fun _ _ _ _ _ e => by cases e
  | n + 1 => by
    intro L s a s' hs e
    unfold parseTypeDecls at e
    obtain ⟨d, s1, e1, e⟩ := ok_bind e
    obtain ⟨c, s2, e2, e⟩ := ok_bind e
    obtain ⟨h1, h2, h3⟩ := typeDecl n L s d s1 hs e1
    have q2 := quiet_is _ _ _ _ e2
    cases c with
    | true =>
      cases e
      rw [q2]
      exact ⟨by simpa using h1, h2, h3, trivial⟩
    | false =>
      obtain ⟨_, s3, e3, e⟩ := ok_bind (p := P.current _) e
      obtain ⟨_, s4, e4, e⟩ := ok_bind e
      obtain ⟨c, s5, e5, e⟩ := ok_bind e
      have q5 : s5.cx = s1.cx := by rw [quiet_is _ _ _ _ e5, quiet_next _ _ _ e4, quiet_current _ _ _ _ e3, q2]
      cases c with
      | true =>
        cases e
        rw [q5]
        exact ⟨by simpa using h1, h2, h3, trivial⟩
      | false =>
        obtain ⟨rest, s6, e6, e⟩ := ok_bind (p := parseTypeDecls u (declEnv u) n) e
        cases e
        obtain ⟨h4, h5, h6⟩ := typeDecls n _ s5 rest s' (by rw [q5]; exact h1) e6
        rw [q5] at h5
        exact ⟨h4.mono (by mems) (by mems), h2.trans h5, h3.types h5, h6⟩

theorem types (n : Nat) : Fo (fun ds => ds.flatMap dclTypeDecl) (fun ds L T => ordTypes T L ds) (parseTypeSection u (declEnv u) n) := by
  intro L s a s' hs e
  have h1 := Fw.types n L [] s a s' hs e
  have h2 := grows (fun S T => typeSection_re (ledBase u S T) n) e
  refine ⟨h1.mono (fun _ h => h) (fun _ h => by cases h), h2, ?_⟩
  unfold parseTypeSection withSection at e
  cases e1 : (do P.next; parseTypeDecls u (declEnv u) n : P DS _) { s with cx := (declEnv u).openSection s.cx } with
  | ok b s1 =>
    rw [e1] at e
    cases e
    obtain ⟨_, s2, e2, e3⟩ := ok_bind e1
    have q2 := quiet_next _ _ _ e2
    have := (typeDecls n L s2 a s1 (by rw [q2]; exact hs.same rfl rfl rfl) e3).2.2
    have ht : s1.cx.types <+: ((s1.cx.runSection u).types) := by rw [runSection_types]
    exact ordTypes_types ht this
  | _ => rw [e1] at e; cases e

/-! ## Blocks -/

theorem stacked {f : α → DL} {O : α → DL → TL → Prop} {p : P DS α} (h : Fo f O p) : Fo f O (TP.stacked (declEnv u) p) := by
  intro L s a s' hs e
  unfold TP.stacked at e
  have h0 : Inn L [] s.cx.stack := ⟨by rw [stack_types]; exact hs.led.stack, fun _ h => by cases h⟩
  cases e1 : p { s with cx := (declEnv u).stack s.cx } with
  | ok b s1 =>
    rw [e1] at e
    cases e
    obtain ⟨h1, h2, h3⟩ := h L _ a s1 h0 e1
    have ht : (s.cx.restore s1.cx).types = s1.cx.types := restore_types ..
    have h2' : s.cx.types <+: s1.cx.types := by
      have : s.cx.stack.types <+: s1.cx.types := h2
      rwa [stack_types] at this
    refine ⟨⟨?_, fun _ h => by cases h⟩, ?_, ?_⟩
    · show Led _ (s.cx.restore s1.cx).types (s.cx.restore s1.cx)
      rw [ht]; exact h1.led.restore _
    · show s.cx.types <+: (s.cx.restore s1.cx).types
      rw [ht]; exact h2'
    · show O a L (s.cx.restore s1.cx).types
      rw [ht]; exact h3
  | _ => rw [e1] at e; cases e

theorem setDecl {is : List Ident} {k : DKind (Decl Node)} (hk : ∀ S T, k.tr markAll = k.tr (markLed S T)) :
    Fo (fun _ => dcls is k) (fun _ _ _ => True) (TP.setDecl (declEnv u) is k) := by
  intro L s a s' hs e
  obtain ⟨h1, h2, -⟩ := self (u := u) (g := fun _ => []) (fun S T => Re.setDecl (ledBase u S T)) (fun S T => PR.setDecl (LedSim.sim u S T) rfl (hk S T))
    (fun _ _ _ _ _ h => by cases h) L s a s' hs e
  exact ⟨h1, h2, trivial⟩

/-- as a section -/
theorem wrap {f : α → DL} {O : α → DL → TL → Prop} {p : P DS α} (h : Fo f O p) {g : α → DeclSect (Decl Node)} (hg : ∀ a, dclSection (g a) = f a)
    (ho : ∀ a L T, O a L T → ordSection T L (g a)) :
    Fo (fun o => o.toList.flatMap dclSection) (fun o L T => ∀ s ∈ o, ordSection T L s) (do let a ← p; Pure.pure (some (g a))) := by
  intro L s a s' hs e
  obtain ⟨b, s1, e1, e⟩ := ok_bind e
  cases e
  obtain ⟨h1, h2, h3⟩ := h L s b s' hs e1
  exact ⟨by simpa [hg] using h1, h2, fun x hx => by cases hx; exact ho _ _ _ h3⟩

theorem step {f : β → DL} {O : β → DL → TL → Prop} {p : P DS α} {q : α → P DS β} (hp : Quiet p) (hq : ∀ a, Fo f O (q a)) : Fo f O (p >>= q) := by
  intro L s b s' hs e
  obtain ⟨a, s1, e1, e2⟩ := ok_bind e
  have q1 := hp _ _ _ e1
  rw [← q1] at hs ⊢
  exact hq a L s1 b s' hs e2

theorem ite {f : α → DL} {O : α → DL → TL → Prop} {c : Prop} [Decidable c] {p q : P DS α} (h : Fo f O p) (h' : Fo f O q) :
    Fo f O (if c then p else q) := by
  split
  · exact h
  · exact h'

theorem label : Fo (fun i => [.named .label i]) (fun _ _ _ => True) (parseLabelDecl (declEnv u)) := by
  unfold parseLabelDecl
  refine step (quiet_nextIs _) fun t => step (quiet_nextIs _) fun _ => step quiet_next fun _ => ?_
  intro L s a s' hs e
  obtain ⟨_, s1, e1, e⟩ := ok_bind e
  cases e
  exact setDecl (fun _ _ => rfl) _ _ _ _ hs e1

variable (u) in
/-- the parsers of blocks with fuel `n` -/
structure BlocksFo (n : Nat) : Prop where
  block : Fo dclBlock (fun b L T => ordBlock T L b) (parseBlock u (declEnv u) n)
  sects : Fo dclSections (fun b L T => ordSections T L b) (parseDeclSects u (declEnv u) n)
  sect : Fo (fun o => o.toList.flatMap dclSection) (fun o L T => ∀ s ∈ o, ordSection T L s) (parseDeclSect u (declEnv u) n)
  func : Fo dclSection (fun b L T => ordSection T L b) (parseFunc u (declEnv u) n)

theorem blocks : ∀ n, BlocksFo u n := by
  intro n
  induction n with
  | zero =>
    constructor
    · unfold parseBlock; exact fun _ _ _ _ _ e => by cases e
    · unfold parseDeclSects; exact fun _ _ _ _ _ e => by cases e
    · unfold parseDeclSect; exact fun _ _ _ _ _ e => by cases e
    · unfold parseFunc; exact fun _ _ _ _ _ e => by cases e
  | succ n ih =>
    constructor
    case block =>
      unfold parseBlock
      intro L s a s' hs e
      obtain ⟨ds, s1, e1, e⟩ := ok_bind e
      obtain ⟨ex1, s2, e2, e⟩ := ok_bind e
      obtain ⟨b, s3, e3, e⟩ := ok_bind e
      obtain ⟨ex2, s4, e4, e⟩ := ok_bind e
      cases e
      obtain ⟨h1, t1, o1⟩ := ih.sects L _ _ _ hs e1
      obtain ⟨h2, t2, o2⟩ := exports n _ _ _ _ h1 e2
      obtain ⟨h3, t3, o3⟩ := body n _ _ _ _ h2 e3
      obtain ⟨h4, t4, o4⟩ := exports n _ _ _ _ h3 e4
      refine ⟨h4.mono (by simp only [dclBlock]; mems) (fun _ h => h), t1.trans (t2.trans (t3.trans t4)), ?_⟩
      show ordBlock _ _ _
      rw [ordBlock]
      refine ⟨ordSections_types (t2.trans (t3.trans t4)) _ _ o1, ?_, o3.types t4⟩
      split
      · exact o2.mono (t3.trans t4) (by mems) (fun _ h => h)
      · exact o4
    case sects =>
      unfold parseDeclSects
      intro L s a s' hs e
      obtain ⟨o, s1, e1, e⟩ := ok_bind e
      obtain ⟨h1, t1, o1⟩ := ih.sect L _ _ _ hs e1
      cases o with
      | none => cases e; exact ⟨h1, t1, by show ordSections _ _ _; rw [ordSections]; trivial⟩
      | some d =>
        obtain ⟨_, s2, e2, e⟩ := ok_bind e
        obtain ⟨rest, s3, e3, e⟩ := ok_bind e
        cases e
        have q2 := quiet_optSemi _ _ _ e2
        obtain ⟨h3, t3, o3⟩ := ih.sects _ _ _ _ (by rw [q2]; exact h1) e3
        rw [q2] at t3
        refine ⟨h3.mono (by simp only [dclSections]; mems) (fun _ h => h), t1.trans t3, ?_⟩
        show ordSections _ _ _
        rw [ordSections]
        exact ⟨ordSection_types t3 _ _ (o1 d rfl), by simpa using o3⟩
    case sect =>
      unfold parseDeclSect
      refine step quiet_cur fun t => ite ?_ (ite ?_ (ite ?_ (ite ?_ (ite ?_ (ite ?_ ?_)))))
      · exact wrap label (fun _ => rfl) fun _ _ _ _ => by rw [ordSection]; trivial
      · exact step quiet_next fun _ => wrap (consts n) (fun _ => rfl) fun _ _ _ h => by rw [ordSection]; exact h
      · exact wrap (types n) (fun _ => rfl) fun _ _ _ h => by rw [ordSection]; exact h
      · exact step quiet_next fun _ => wrap (vars n) (fun _ => rfl) fun _ _ _ h => by rw [ordSection]; exact h
      · exact step quiet_next fun _ => wrap (threadVars n) (fun _ => rfl) fun _ _ _ h => by rw [ordSection]; exact h
      · exact wrap ih.func (fun _ => rfl) fun _ _ _ h => h
      · intro L s a s' hs e
        cases e
        exact ⟨hs, List.prefix_rfl, fun _ h => by cases h⟩
    case func =>
      unfold parseFunc
      refine stacked ?_
      intro L s a s' hs e
      obtain ⟨h, s1, e1, e⟩ := ok_bind e
      obtain ⟨_, s2, e2, e⟩ := ok_bind e
      obtain ⟨_, s3, e3, e⟩ := ok_bind e
      obtain ⟨_, s4, e4, e⟩ := ok_bind e
      obtain ⟨o, s5, e5, e⟩ := ok_bind e
      obtain ⟨b, s6, e6, e⟩ := ok_bind e
      cases e
      obtain ⟨h1, t1, o1⟩ := heading n L _ _ _ hs e1
      have q2 := quiet_current _ _ _ _ e2
      obtain ⟨h3, t3, -⟩ := setDecl (fun _ _ => rfl) _ _ _ _ (by rw [q2]; exact h1) e3
      rw [q2] at t3
      have q5 : s5.cx = s3.cx := by rw [quiet_routineOpts n _ _ _ e5, quiet_next _ _ _ e4]
      obtain ⟨h6, t6, o6⟩ := ih.block _ _ _ _ (by rw [q5]; exact h3) e6
      rw [q5] at t6
      refine ⟨h6.mono (by simp only [dclSection, dcls]; mems) (fun _ h => h), t1.trans (t3.trans t6), ?_⟩
      show ordSection _ _ _
      rw [ordSection]
      exact ⟨o1.types (t3.trans t6), o6⟩

/-! ## Units -/

theorem exportedHeading (n : Nat) : Fo (fun h => .named .heading h.1.ident :: dclHeading h.1) (fun h L T => toward T (dclHeading h.1 ++ L) h.1.refs)
    (parseExportedHeading u (declEnv u) n) := by
  unfold parseExportedHeading
  refine stacked ?_
  intro L s a s' hs e
  obtain ⟨h, s1, e1, e⟩ := ok_bind e
  obtain ⟨_, s2, e2, e⟩ := ok_bind e
  obtain ⟨_, s3, e3, e⟩ := ok_bind e
  obtain ⟨_, s4, e4, e⟩ := ok_bind e
  obtain ⟨o, s5, e5, e⟩ := ok_bind e
  cases e
  obtain ⟨h1, t1, o1⟩ := heading n L _ _ _ hs e1
  have q2 := quiet_current _ _ _ _ e2
  obtain ⟨h3, t3, -⟩ := setDecl (fun _ _ => rfl) _ _ _ _ (by rw [q2]; exact h1) e3
  rw [q2] at t3
  have q5 : s'.cx = s3.cx := by rw [quiet_routineOpts n _ _ _ e5, quiet_next _ _ _ e4]
  rw [q5]
  exact ⟨h3, t1.trans t3, o1.types t3⟩

/-- the declarations of one keyword -/
def ordIntf1 (T : TL) (L : DL) : IntfDecl (Decl Node) → Prop
  | .const cs => ordConsts T L cs
  | .type _ ts => ordTypes T L ts
  | .var vs => ordVars T L vs
  | .threadVar vs => ordThreadVars T L vs
  | .heading h _ => toward T (dclHeading h ++ L) h.refs

theorem ordIntf1_types {T T' : TL} (hT : T <+: T') {L : DL} {d : IntfDecl (Decl Node)} (h : ordIntf1 T L d) : ordIntf1 T' L d :=
  (ordIntf_types hT (ds := [d]) ⟨h, trivial⟩).1

theorem wrapI {f : α → DL} {O : α → DL → TL → Prop} {p : P DS α} (h : Fo f O p) {g : α → IntfDecl (Decl Node)} (hg : ∀ a, dclIntf (g a) = f a)
    (ho : ∀ a L T, O a L T → ordIntf1 T L (g a)) :
    Fo (fun o => o.toList.flatMap dclIntf) (fun o L T => ∀ s ∈ o, ordIntf1 T L s) (do let a ← p; Pure.pure (some (g a))) := by
  intro L s a s' hs e
  obtain ⟨b, s1, e1, e⟩ := ok_bind e
  cases e
  obtain ⟨h1, h2, h3⟩ := h L s b s' hs e1
  exact ⟨by simpa [hg] using h1, h2, fun x hx => by cases hx; exact ho _ _ _ h3⟩

theorem intfDecl (n : Nat) (t : Token) : Fo (fun o => o.toList.flatMap dclIntf) (fun o L T => ∀ s ∈ o, ordIntf1 T L s) (parseIntfDecl u n t) := by
  unfold parseIntfDecl
  refine ite ?_ (ite ?_ (ite ?_ (ite ?_ (ite ?_ ?_))))
  · exact step (fun _ _ _ e => by cases e; rfl : Quiet (askP _)) fun _ => wrapI (types n) (fun _ => rfl) fun _ _ _ h => h
  · exact step quiet_next fun _ => wrapI (vars n) (fun _ => rfl) fun _ _ _ h => h
  · exact step quiet_next fun _ => wrapI (threadVars n) (fun _ => rfl) fun _ _ _ h => h
  · exact step quiet_next fun _ => wrapI (consts n) (fun _ => rfl) fun _ _ _ h => h
  · exact wrapI (exportedHeading n) (fun _ => rfl) fun _ _ _ h => h
  · intro L s a s' hs e
    cases e
    exact ⟨hs, List.prefix_rfl, fun _ h => by cases h⟩

theorem intfDecls : ∀ n, Fo (fun ds => ds.flatMap dclIntf) (fun ds L T => ordIntf T L ds) (parseIntfDecls u n)
  | 0 => fun _ _ _ _ _ e => by cases e
  | n + 1 => by
    have hn : Fo (fun ds => ds.flatMap dclIntf) (fun ds L T => ordIntf T L ds) (Pure.pure [] : P DS _) := by
      intro L s a s' hs e
      cases e
      exact ⟨hs, List.prefix_rfl, trivial⟩
    unfold parseIntfDecls
    refine step quiet_cur fun t => ite hn (ite (fun _ _ _ _ _ e => by cases e) ?_)
    intro L s a s' hs e
    obtain ⟨o, s1, e1, e⟩ := ok_bind e
    obtain ⟨h1, t1, o1⟩ := intfDecl n t L _ _ _ hs e1
    cases o with
    | none => cases e; exact ⟨h1, t1, trivial⟩
    | some d =>
      obtain ⟨rest, s2, e2, e⟩ := ok_bind e
      cases e
      obtain ⟨h2, t2, o2⟩ := intfDecls n _ _ _ _ h1 e2
      exact ⟨h2.mono (by mems) (fun _ h => h), t1.trans t2, ordIntf1_types t2 (o1 d rfl), by simpa using o2⟩

theorem intfBody (unit n : Nat) : Fo (fun ds => ds.flatMap dclIntf) (fun ds L T => ordIntf T L ds) (parseIntfBody u unit n) := by
  intro L s a s' hs e
  have h1 := Fw.parseIntfBody unit n L [] s a s' hs e
  unfold parseIntfBody at e
  obtain ⟨ds, s1, e1, e⟩ := ok_bind e
  obtain ⟨_, s2, e2, e⟩ := ok_bind e
  cases e
  cases e2
  obtain ⟨-, t2, o2⟩ := intfDecls n _ _ _ _ hs e1
  have ht : (s1.cx.finishIntf u unit a).types = s1.cx.types := rfl
  exact ⟨h1.mono (fun _ h => h) (fun _ h => by cases h), t2, o2⟩

theorem init (n : Nat) : Fo dclInit (fun i L T => ordInit T L i) (parseInit u n) := by
  unfold parseInit
  refine step (quiet_current _) fun _ => step quiet_next fun _ => ?_
  intro L s a s' hs e
  obtain ⟨ini, s1, e1, e⟩ := ok_bind e
  obtain ⟨c, s2, e2, e⟩ := ok_bind e
  obtain ⟨h1, t1, o1⟩ := stmts _ n _ _ _ _ hs e1
  have q2 := quiet_is _ _ _ _ e2
  cases c with
  | false =>
    cases e
    rw [q2]
    exact ⟨h1.mono (by mems) (fun _ h => h), t1, o1, fun _ h => by cases h⟩
  | true =>
    obtain ⟨_, s3, e3, e⟩ := ok_bind (p := P.next) e
    obtain ⟨fin, s4, e4, e⟩ := ok_bind e
    cases e
    have q3 : s3.cx = s1.cx := by rw [quiet_next _ _ _ e3, q2]
    obtain ⟨h4, t4, o4⟩ := stmts _ n _ _ _ _ (by rw [q3]; exact h1) e4
    rw [q3] at t4
    exact ⟨h4.mono (by mems) (fun _ h => h), t1.trans t4, o1.types t4, o4.mono List.prefix_rfl (by mems) (by mems)⟩

theorem implAndEnd (n : Nat) : Fo dclUnitBody (fun b L T => ordUnitBody T L b) (parseImplAndEnd u n) := by
  intro L s a s' hs e
  unfold parseImplAndEnd parseImplBody parseUnitEnd at e
  obtain ⟨b, s1, e1, e⟩ := ok_bind e
  obtain ⟨i, s2, e2, e⟩ := ok_bind e
  cases e
  obtain ⟨ds, s3, e3, e1⟩ := ok_bind e1
  obtain ⟨ex, s4, e4, e1⟩ := ok_bind e1
  obtain ⟨_, s5, e5, e1⟩ := ok_bind e1
  cases e1
  have q5 := quiet_optSemi _ _ _ e5
  obtain ⟨h3, t3, o3⟩ := (blocks n).sects _ _ _ _ hs e3
  obtain ⟨h4, t4, o4⟩ := exports n _ _ _ _ h3 e4
  rw [← q5] at h4 t4 o4
  obtain ⟨x, s6, e6, e2⟩ := ok_bind e2
  obtain ⟨_, s7, e7, e2⟩ := ok_bind e2
  obtain ⟨_, s8, e8, e2⟩ := ok_bind e2
  cases e2
  have q8 : s'.cx = s6.cx := by rw [quiet_nextIs _ _ _ _ e8, quiet_current _ _ _ _ e7]
  rw [q8]
  obtain ⟨c, s9, e9, e6⟩ := ok_bind e6
  have q9 := quiet_is _ _ _ _ e9
  rw [← q9] at h4 t4 o4
  cases c with
  | false =>
    cases e6
    refine ⟨h4.mono (by mems) (fun _ h => h), t3.trans t4, ordSections_types t4 _ _ o3, o4, fun _ h => by cases h⟩
  | true =>
    obtain ⟨x, s10, e10, e6⟩ := ok_bind (p := parseInit u n) e6
    cases e6
    obtain ⟨h6, t6, o6⟩ := init n _ _ _ _ h4 e10
    refine ⟨h6.mono (by mems) (fun _ h => h), t3.trans (t4.trans t6), ordSections_types (t4.trans t6) _ _ o3, o4.types t6, fun y hy => ?_⟩
    cases hy
    exact o6

/-- the part of the declarations that is not yet there -/
theorem uses_types : ∀ (l : List (Ident × Option Str)) {s s' : PS DS} {es : List UsesEntry}, declareUses u l s = .ok es s' → s'.cx.types = s.cx.types
  | [], _, _, _, e => by cases e; rfl
  | (i, p) :: l, s, s', es, e => by
    unfold TP.declareUses at e
    obtain ⟨no, s1, e1, e⟩ := ok_bind e
    cases e1
    obtain ⟨_, s2, e2, e⟩ := ok_bind e
    obtain ⟨rest, s3, e3, e⟩ := ok_bind e
    cases e
    unfold TP.stepR at e2
    simp only at e2
    cases hf : s.cx.setUses u i with
    | ok c =>
      rw [hf] at e2
      cases e2
      rw [uses_types l e3]
      show c.types = _
      rw [setR_ok hf]
    | err => rw [hf] at e2; cases e2
    | panic => rw [hf] at e2; cases e2

theorem optUses_types {n : Nat} {s s' : PS DS} {es : List UsesEntry} (e : parseOptUses u n s = .ok es s') : s'.cx.types = s.cx.types := by
  unfold TP.parseOptUses at e
  obtain ⟨c, s1, e1, e⟩ := ok_bind e
  rw [← quiet_is _ _ _ _ e1]
  cases c with
  | false => cases e; rfl
  | true =>
    obtain ⟨es, s2, e2, e⟩ := ok_bind (p := parseUses u n) e
    obtain ⟨_, s3, e3, e⟩ := ok_bind e
    cases e
    rw [quiet_next _ _ _ e3]
    unfold TP.parseUses at e2
    obtain ⟨_, s4, e4, e2⟩ := ok_bind e2
    obtain ⟨_, s5, e5, e2⟩ := ok_bind e2
    obtain ⟨_, s6, e6, e2⟩ := ok_bind e2
    rw [uses_types _ e2, Fw.quiet_usesItems n _ _ _ e6, quiet_next _ _ _ e5, quiet_current _ _ _ _ e4]

theorem implUses (cu n : Nat) : Fo dclUses (fun _ _ _ => True) (parseImplUses u cu n) := by
  intro L s a s' hs e
  refine ⟨Fw.parseImplUses cu n L [] s a s' hs e, ?_, trivial⟩
  unfold TP.parseImplUses at e
  obtain ⟨_, s1, e1, e⟩ := ok_bind e
  obtain ⟨_, s2, e2, e⟩ := ok_bind e
  obtain ⟨_, s3, e3, e⟩ := ok_bind e
  cases e3
  rw [optUses_types e]
  show _ <+: (s2.cx.stackAt cu).types
  have : (s2.cx.stackAt cu).types = s2.cx.types := by
    unfold DS.stackAt
    split <;> rfl
  rw [this, quiet_next _ _ _ e2, quiet_current _ _ _ _ e1]

theorem unit {cu n : Nat} {s s' : PS DS} {t : UnitTree (Decl Node)} (hs : Inn [] [] s.cx) (e : parseUnit u cu n s = .ok (some t) s') :
    ordUnit s'.cx.types [] t := by
  unfold TP.parseUnit at e
  obtain ⟨hd, s1, e1, e⟩ := ok_bind e
  obtain ⟨ds, s2, e2, e⟩ := ok_bind e
  obtain ⟨es, s3, e3, e⟩ := ok_bind e
  obtain ⟨b, s4, e4, e9⟩ := ok_bind e
  have h1 := Fw.parseIdentAndUses n [] [] s _ _ hs e1
  obtain ⟨h2, -, o2⟩ := intfBody _ n _ _ _ _ h1 e2
  obtain ⟨h3, t3, -⟩ := implUses cu n _ _ _ _ h2 e3
  obtain ⟨h4, t4, o4⟩ := implAndEnd n _ _ _ _ h3 e4
  split at e9
  · cases e9
    exact ⟨ordIntf_types (t3.trans t4) o2, o4⟩
  · cases e9

end Fo

end TP
