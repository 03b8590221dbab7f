import Verif.Lemmas.Zone
import Verif.Lemmas.SealProgram
import Verif.Lemmas.AccIntf
import Verif.Lemmas.AccUses
import Verif.Spec.Offered

/-!
# The units leave the context of the program

While the units of a program are loaded, the map of the program's own context is not written.
-/

namespace TP
open Spec Maps

variable {u : Uni} {N : Nat → Prop} {o1 : MapObj Node}

/-- The context 0 has the map 1, which is `o1`; nobody else writes it.  Only the units `N` have maps. -/
structure Apart (N : Nat → Prop) (o1 : MapObj Node) (k : DS) : Prop where
  own : ∀ j, ¬ j ≤ 1 → ∀ t, target k.w.maps j = some t → ¬ t ≤ 1
  ctxs : ∀ c o, c ≠ 0 → k.w.ctxs.obj c = some o → o.plain ∧ ¬ o.dm ≤ 1
  home : ∃ p us, k.w.ctxs.obj 0 = some (.program p us 1)
  root : k.w.maps.obj 0 = some .embedded
  here : k.w.maps.obj 1 = some o1
  dms : ∀ j m, k.w.unitDm j = some m → N j

def apartZone : Zone := ⟨fun _ => False, (· ≤ 1), (· = 0), fun _ => True⟩

namespace Apart
variable {k k' : DS}

theorem inside (h : Apart N o1 k) (hc : k.cur ≠ 0) : Inside apartZone k (· ∈ []) k.types k where
  maps _ _ _ _ := .inl trivial
  near _ _ _ _ h := h
  own := h.own
  sub _ h := h.elim
  ctxs := h.ctxs
  cur := hc
  types := List.prefix_rfl
  lenM j hj := Nat.lt_of_le_of_lt hj (obj_lt h.here)
  lenC c hc := by
    obtain ⟨p, us, h⟩ := h.home
    cases (show c = 0 from hc)
    exact Ctxs.obj_lt h
  ns _ _ _ _ h := h
  sameM _ _ := rfl
  sameC _ _ := rfl
  sameU := rfl
  sameI := rfl
  sameP := rfl
  refs _ _ _ _ := .inl trivial

theorem of_inside {S : Dcl (Decl Node) → Prop} {T : List (PType (Decl Node))} (h : Apart N o1 k) (h' : Inside apartZone k S T k') : Apart N o1 k' where
  own := h'.own
  ctxs := h'.ctxs
  home := by rw [h'.sameC 0 rfl]; exact h.home
  root := by rw [h'.sameM 0 (Nat.zero_le _)]; exact h.root
  here := by rw [h'.sameM 1 (Nat.le_refl _)]; exact h.here
  dms j m e := h.dms j m (by rw [← unitDm_units h'.sameU]; exact e)

/-- maps, units and contexts are the same -/
theorem same (h : Apart N o1 k) (e : k'.w = k.w) : Apart N o1 k' :=
  ⟨by rw [e]; exact h.own, by rw [e]; exact h.ctxs, by rw [e]; exact h.home, by rw [e]; exact h.root, by rw [e]; exact h.here, by rw [e]; exact h.dms⟩

theorem units (h : Apart N o1 k) {N' : Nat → Prop} {us : List UnitObj} (hd : ∀ j m, World.unitDm { k.w with units := us } j = some m → N' j) :
    Apart N' o1 { k with w := { k.w with units := us } } := ⟨h.own, h.ctxs, h.home, h.root, h.here, hd⟩

theorem setUnitDm (h : Apart N o1 k) {i : Nat} (hi : N i) (d : Option Nat) : Apart N o1 { k with w := k.w.setUnitDm i d } := by
  unfold World.setUnitDm
  split
  · exact h
  · rename_i o ho
    refine h.units fun j m e => ?_
    by_cases c : j = i
    · rw [c]; exact hi
    · refine h.dms j m ?_
      unfold World.unitDm at e ⊢
      simp only at e
      rw [List.getElem?_set_ne (fun x => c x.symm)] at e
      exact e

theorem newUnit (h : Apart N o1 k) (i : Ident) : Apart N o1 (k.newUnit i) :=
  h.units fun j m e => h.dms j m (by rw [unitDm_append _ _ _ _ rfl] at e; exact e)

theorem newMap (h : Apart N o1 k) {o : MapObj Node} (ht : ∀ t, target (o :: k.w.maps) k.w.maps.length = some t → ¬ t ≤ 1) :
    Apart N o1 { k with w := (k.w.newMap o).1 } := by
  have hl := obj_lt h.here
  refine ⟨fun j hj t e => ?_, h.ctxs, h.home, ?_, ?_, h.dms⟩
  · change target (o :: k.w.maps) j = some t at e
    by_cases c : j = k.w.maps.length
    · subst c; exact ht t e
    · unfold target at e
      rw [if_neg c] at e
      exact h.own j hj t e
  · show Maps.obj (o :: k.w.maps) 0 = _
    rw [obj_cons_lt' _ _ (by omega)]; exact h.root
  · show Maps.obj (o :: k.w.maps) 1 = _
    rw [obj_cons_lt' _ _ hl]; exact h.here

/-- a map that declarations through it go to -/
theorem newTable (h : Apart N o1 k) {o : MapObj Node} (ho : ∀ ms, o ≠ .composite ms) : Apart N o1 { k with w := (k.w.newMap o).1 } := by
  have hl := obj_lt h.here
  refine h.newMap fun t e => ?_
  unfold target at e
  rw [if_pos rfl] at e
  cases o <;> first | exact absurd rfl (ho _) | (cases e; done) | (cases e; omega)

theorem newComposite (h : Apart N o1 k) {j : Nat} (hj : ¬ j ≤ 1) (ms : List Nat) : Apart N o1 { k with w := (k.w.newMap (.composite (j :: ms))).1 } := by
  refine h.newMap fun t e => ?_
  unfold target at e
  rw [if_pos rfl] at e
  exact h.own j hj t e

theorem setDm (h : Apart N o1 k) {c d : Nat} (hc : c ≠ 0) (hd : ¬ d ≤ 1) : Apart N o1 { k with w := k.w.setDm c d } := by
  refine ⟨h.own, fun c' o' hc' e => ?_, ?_, h.root, h.here, h.dms⟩
  · change Ctxs.obj (k.w.ctxs.modify _ c) c' = some o' at e
    rw [Ctxs.obj_modify] at e
    split at e
    · obtain ⟨o, ho, rfl⟩ := Option.map_eq_some_iff.1 e
      have := (h.ctxs _ _ hc' ho).1
      cases o <;> first | exact this.elim | exact ⟨trivial, hd⟩
    · exact h.ctxs _ _ hc' e
  · obtain ⟨p, us, e⟩ := h.home
    refine ⟨p, us, ?_⟩
    show Ctxs.obj (k.w.ctxs.modify _ c) 0 = _
    rw [Ctxs.obj_modify, if_neg (fun e => hc e.symm)]
    exact e

theorem addUnit (h : Apart N o1 k) (unit : Nat) : Apart N o1 (k.addUnit 0 unit) := by
  refine ⟨h.own, fun c' o' hc' e => ?_, ?_, h.root, h.here, h.dms⟩
  · change Ctxs.obj (k.w.ctxs.modify _ 0) c' = some o' at e
    rw [Ctxs.obj_modify, if_neg hc'] at e
    exact h.ctxs _ _ hc' e
  · obtain ⟨p, us, e⟩ := h.home
    refine ⟨p, us ++ [unit], ?_⟩
    show Ctxs.obj (k.w.ctxs.modify _ 0) 0 = _
    rw [Ctxs.obj_modify, if_pos rfl, e]
    rfl

theorem set (h : Apart N o1 k) {k1 : DS} {c : Nat} (hc : c ≠ 0) {ds : List (Decl Node)} (e : k1.setR (k.w.set u c ds) = .ok k') : Apart N o1 k' := by
  have h0 : Apart N o1 { k with cur := c } := h.same rfl
  have e' : ({ k with cur := c } : DS).setR (k.w.set u c ds) = .ok { k with cur := c, w := (k.w.set u c ds).1 } := by
    unfold DS.setR at e ⊢
    cases hr : (k.w.set u c ds).2 <;> rw [hr] at e <;> first | rfl | cases e
  have h1 := (h0.inside hc).setW (u := u) (k1 := { k with cur := c }) hc (ds := ds) (fun _ _ => .inl trivial) List.prefix_rfl rfl rfl rfl rfl e'
  refine (h0.of_inside h1).same ?_
  rw [setR_ok e]

theorem setUses (h : Apart N o1 k) (hc : k.cur ≠ 0) {i : Ident} (e : k.setUses u i = .ok k') : Apart N o1 k' := h.set hc e

theorem setUnit (h : Apart N o1 k) {cu : Nat} (hc : cu ≠ 0) {hd : UnitHead} (e : k.setUnit u cu hd = .ok k') : Apart N o1 k' := h.set hc e

theorem last (h : Apart N o1 k) : ¬ k.w.maps.length ≤ 1 := Nat.not_le.2 (obj_lt h.here)

theorem stackAt (h : Apart N o1 k) {cu : Nat} (hc : cu ≠ 0) : Apart N o1 (k.stackAt cu) := by
  unfold DS.stackAt World.stack
  split
  · rename_i w c e
    split at e
    · cases e
    · cases e
      exact (h.newTable (o := .chained _ []) (fun _ h => by cases h)).setDm hc h.last
  · exact h

theorem assignUnits {cu : Nat} : ∀ {es : List UsesEntry} {k : DS}, Apart N o1 k → Apart N o1 (k.assignUnits u cu es)
  | [], _, h => h
  | e :: es, k, h => by
    unfold DS.assignUnits
    split
    · exact assignUnits (h.same rfl)
    · exact assignUnits h

theorem assignUnits_rest {cu : Nat} : ∀ {es : List UsesEntry} {k : DS}, (k.assignUnits u cu es).cur = k.cur ∧ (k.assignUnits u cu es).types = k.types
  | [], _ => ⟨rfl, rfl⟩
  | e :: es, k => by
    unfold DS.assignUnits
    split
    · exact assignUnits_rest
    · exact assignUnits_rest

theorem importUnits (h : Apart N o1 k) {cu : Nat} (hc : cu ≠ 0) {es : List UsesEntry} (e : k.importUnits u cu es = some k') :
    Apart N o1 k' ∧ k'.cur = k.cur ∧ k'.types = k.types := by
  unfold DS.importUnits at e
  simp only at e
  split at e
  · cases e
    rename_i d ms _ _
    have h0 := h.assignUnits (u := u) (cu := cu) (es := es)
    have h1 := h0.newTable (o := .impl []) (fun _ h => by cases h)
    have h2 := h1.newComposite h0.last (ms ++ [d])
    exact ⟨h2.setDm hc h1.last, assignUnits_rest⟩
  · cases e

theorem openImpl (h : Apart N o1 k) {cu unit : Nat} (hc : cu ≠ 0) (hu : N unit) {es : List UsesEntry} {r : DS × Nat}
    (e : k.openImpl u cu unit es = some r) : Apart N o1 r.1 ∧ r.1.cur = k.cur ∧ r.1.types = k.types := by
  unfold DS.openImpl at e
  simp only at e
  split at e
  · cases e
    rename_i ctxMap unitMap ms _ _ _
    have h0 := h.assignUnits (u := u) (cu := cu) (es := es)
    have h1 := h0.newTable (o := .impl []) (fun _ h => by cases h)
    have h2 := h1.newComposite h0.last [unitMap]
    have h3 := h2.setUnitDm hu (some ((k.assignUnits u cu es).w.maps.length + 1))
    have h4 := h3.newComposite h0.last (ctxMap :: ms)
    refine ⟨h4.setDm hc h3.last, assignUnits_rest⟩
  · cases e

theorem newUnitContext (h : Apart N o1 k) (path : Str) : Apart N o1 (k.newUnitContext 0 path).1 := by
  have h1 := h.newTable (o := .chained 0 []) (fun _ h => by cases h)
  refine ⟨h1.own, fun c o hc e => ?_, ?_, h1.root, h1.here, h1.dms⟩
  · change Ctxs.obj (.unit 0 path k.w.maps.length :: k.w.ctxs) c = some o at e
    unfold Ctxs.obj at e
    split at e
    · cases e; exact ⟨trivial, h.last⟩
    · exact h.ctxs c o hc e
  · obtain ⟨p, us, e⟩ := h.home
    refine ⟨p, us, ?_⟩
    show Ctxs.obj (.unit 0 path k.w.maps.length :: k.w.ctxs) 0 = _
    rw [Ctxs.obj_cons_lt _ (Ctxs.obj_lt e)]
    exact e

theorem finishIntf (h : Apart N o1 k) {unit : Nat} (hu : N unit) (ds : List (IntfDecl (Decl Node))) : Apart N o1 (k.finishIntf u unit ds) :=
  (h.newTable (o := .impl (World.intfTable u (ds.flatMap DS.declNodes) [])) (fun _ h => by cases h)).setUnitDm hu (some k.w.maps.length)

end Apart

/-! ## Parsers -/

/-- leaves the context of the program -/
def Ap (N : Nat → Prop) (o1 : MapObj Node) {α : Type} (p : P DS α) : Prop :=
  ∀ s a s', Apart N o1 s.cx → s.cx.cur ≠ 0 → p s = .ok a s' → Apart N o1 s'.cx ∧ s'.cx.cur ≠ 0 ∧ s.cx.types <+: s'.cx.types

namespace Ap
variable {α β : Type}

theorem bind {p : P DS α} {q : α → P DS β} (hp : Ap N o1 p) (hq : ∀ a, Ap N o1 (q a)) : Ap N o1 (p >>= q) := by
  intro s b s' h hc e
  obtain ⟨a, s1, e1, e2⟩ := ok_bind e
  obtain ⟨h1, h2, h3⟩ := hp s a s1 h hc e1
  obtain ⟨h4, h5, h6⟩ := hq a s1 b s' h1 h2 e2
  exact ⟨h4, h5, h3.trans h6⟩

theorem quiet {p : P DS α} (hp : Quiet p) : Ap N o1 p := fun s a s' h hc e => by
  rw [hp s a s' e]; exact ⟨h, hc, List.prefix_rfl⟩

theorem step {p : P DS α} {q : α → P DS β} (hp : Quiet p) (hq : ∀ a, Ap N o1 (q a)) : Ap N o1 (p >>= q) := bind (quiet hp) hq

theorem pure (a : α) : Ap N o1 (Pure.pure a : P DS α) := fun s _ _ h hc e => by cases e; exact ⟨h, hc, List.prefix_rfl⟩
theorem fail : Ap N o1 (P.fail : P DS α) := fun _ _ _ _ _ e => by cases e
theorem wait : Ap N o1 (P.wait : P DS α) := fun _ _ _ _ _ e => by cases e

theorem ite {c : Prop} [Decidable c] {p q : P DS α} (h : Ap N o1 p) (h' : Ap N o1 q) : Ap N o1 (if c then p else q) := by
  split
  · exact h
  · exact h'

theorem self {f : α → List (Dcl (Decl Node))} {p : P DS α} {q : (Dcl (Decl Node) → Prop) → List (PType (Decl Node)) → P DS α}
    {A : Zone → (Dcl (Decl Node) → Prop) → List (PType (Decl Node)) → α → α → Prop}
    (hr : ∀ S T, Re S (fun k : DS => k.types <+: T) [] p (q S T) f)
    (hq : ∀ z k0 S T, PR u Eq markAll (markSeen z S T) False (BothInside z k0 S T) (A z S T) (q S T) (q S T)) : Ap N o1 p := by
  intro s a s' h hc e
  obtain ⟨-, h1, h2⟩ := inside_self (u := u) hr hq (h.inside hc) e
  exact ⟨h.of_inside h1, h1.cur, h2⟩

theorem stepP {f : DS → Option DS} (h : ∀ k k', Apart N o1 k → k.cur ≠ 0 → f k = some k' → Apart N o1 k' ∧ k'.cur = k.cur ∧ k'.types = k.types) :
    Ap N o1 (TP.stepP f) := by
  intro s a s' hs hc e
  unfold TP.stepP at e
  cases ef : f s.cx with
  | none => simp only [ef] at e; cases e
  | some c =>
    simp only [ef] at e
    cases e
    obtain ⟨h1, h2, h3⟩ := h _ _ hs hc ef
    exact ⟨h1, by show c.cur ≠ 0; rw [h2]; exact hc, by show _ <+: c.types; rw [h3]⟩

theorem stepR {f : DS → SetR DS} (h : ∀ k k', Apart N o1 k → k.cur ≠ 0 → f k = .ok k' → Apart N o1 k' ∧ k'.cur = k.cur ∧ k'.types = k.types) :
    Ap N o1 (TP.stepR f) := by
  intro s a s' hs hc e
  unfold TP.stepR at e
  cases ef : f s.cx with
  | err => simp only [ef] at e; cases e
  | panic => simp only [ef] at e; cases e
  | ok c =>
    simp only [ef] at e
    cases e
    obtain ⟨h1, h2, h3⟩ := h _ _ hs hc ef
    exact ⟨h1, by show c.cur ≠ 0; rw [h2]; exact hc, by show _ <+: c.types; rw [h3]⟩

theorem stmts (p : Pred) [∀ z S T, Resp u Eq markAll (markSeen z S T) p] (n : Nat) : Ap N o1 (parseStmts u ((declEnv u).senv u) p n) :=
  self (u := u) (fun S T => (stmtsRe (ledBase u S T) n).stmts p) (fun z k0 S T => (stmtR (DSim.ssim (w := False) (SeenSim.sim u z k0 S T)) (Nat.le_refl n)).stmts p)

theorem declSects (n : Nat) : Ap N o1 (parseDeclSects u (declEnv u) n) :=
  self (u := u) (fun S T => (blocksRe (ledBase u S T) n).sects) (fun z k0 S T => (blockR (SeenSim.sim u z k0 S T) (Nat.le_refl n)).sects)

theorem exports (n : Nat) : Ap N o1 (parseExports u (declEnv u) n) :=
  self (u := u) (fun S T => exports_re (ledBase u S T) n) (fun z k0 S T => PR.parseExports (SeenSim.sim u z k0 S T) (Nat.le_refl n))

theorem consts (n : Nat) : Ap N o1 (parseConstDecls u (declEnv u) n) :=
  self (u := u) (fun S T => constDecls_re (ledBase u S T) n) (fun z k0 S T => PR.parseConstDecls (SeenSim.sim u z k0 S T) (Nat.le_refl n))

theorem vars (n : Nat) : Ap N o1 (parseVarDecls u (declEnv u) n) :=
  self (u := u) (fun S T => varDecls_re (ledBase u S T) n) (fun z k0 S T => PR.parseVarDecls (SeenSim.sim u z k0 S T) (Nat.le_refl n))

theorem threadVars (n : Nat) : Ap N o1 (parseThreadVarDecls u (declEnv u) n) :=
  self (u := u) (fun S T => threadVarDecls_re (ledBase u S T) n) (fun z k0 S T => PR.parseThreadVarDecls (SeenSim.sim u z k0 S T) (Nat.le_refl n))

theorem types (n : Nat) : Ap N o1 (parseTypeSection u (declEnv u) n) :=
  self (u := u) (fun S T => typeSection_re (ledBase u S T) n) (fun z k0 S T => PR.parseTypeSection (SeenSim.sim u z k0 S T) (Nat.le_refl n))

theorem heading (n : Nat) : Ap N o1 (parseExportedHeading u (declEnv u) n) :=
  self (u := u) (fun S T => exportedHeading_re (ledBase u S T) n) (fun z k0 S T => PR.parseExportedHeading (SeenSim.sim u z k0 S T) (Nat.le_refl n))

theorem ask {γ : Type} (f : DS → γ) : Quiet (askP f) := fun _ _ _ e => by cases e; rfl

theorem declareUses : ∀ l, Ap N o1 (TP.declareUses u l)
  | [] => pure _
  | (i, p) :: l => step (ask _) fun _ => bind (stepR fun k k' h hc e => ⟨h.setUses hc e, by rw [setR_ok e], by rw [setR_ok e]⟩) fun _ =>
      bind (declareUses l) fun _ => pure _

theorem parseOptUses (n : Nat) : Ap N o1 (TP.parseOptUses u n) := by
  unfold TP.parseOptUses TP.parseUses
  exact step (quiet_is _) fun _ => ite (bind (step (quiet_current _) fun _ => step quiet_next fun _ => step (Fw.quiet_usesItems n) fun _ => declareUses _)
    fun _ => step quiet_next fun _ => pure _) (pure _)

theorem parseIdentAndUses (n : Nat) : Ap N o1 (TP.parseIdentAndUses u n) := by
  unfold TP.parseIdentAndUses TP.parseIntfUses TP.parseUnitIdent
  have q : Quiet (do
      let t ← P.cur
      if Pred.directive u portabilityNames t then do
        P.next
        Pure.pure (some (t.value u))
      else Pure.pure none : P DS (Option Str)) := by quiets
  refine bind ?_ fun _ => bind (step (quiet_current _) fun _ => step quiet_next fun _ => parseOptUses n) fun _ => pure _
  refine step (quiet_current _) fun _ => step (quiet_nextIs _) fun _ => step (ask _) fun _ =>
    bind (stepR fun k k' h _ e => by cases e; exact ⟨h.newUnit _, rfl, rfl⟩) fun _ => step quiet_next fun _ => step q fun _ => ?_
  exact step (quiet_is _) fun _ => ite (step quiet_next fun _ => pure _) (pure _)

theorem parseIntfDecl (n : Nat) (t : Token) : Ap N o1 (TP.parseIntfDecl u n t) := by
  unfold TP.parseIntfDecl
  refine ite ?_ (ite ?_ (ite ?_ (ite ?_ (ite ?_ (pure _)))))
  · exact step (ask _) fun _ => bind (types n) fun _ => pure _
  · exact step quiet_next fun _ => bind (vars n) fun _ => pure _
  · exact step quiet_next fun _ => bind (threadVars n) fun _ => pure _
  · exact step quiet_next fun _ => bind (consts n) fun _ => pure _
  · exact bind (heading n) fun _ => pure _

theorem parseIntfDecls : ∀ n, Ap N o1 (TP.parseIntfDecls u n)
  | 0 => wait
  | n + 1 => by
    unfold TP.parseIntfDecls
    refine step quiet_cur fun t => ite (pure _) (ite fail (bind (parseIntfDecl n t) fun o => ?_))
    cases o with
    | none => exact pure _
    | some d => exact bind (parseIntfDecls n) fun rest => pure _

theorem parseIntfBody {unit : Nat} (hu : N unit) (n : Nat) : Ap N o1 (TP.parseIntfBody u unit n) := by
  unfold TP.parseIntfBody
  exact bind (parseIntfDecls n) fun ds => bind (stepR fun k k' h _ e => by cases e; exact ⟨h.finishIntf hu ds, rfl, rfl⟩) fun _ => pure _

theorem processIntf {cu : Nat} (hc : cu ≠ 0) {hd : UnitHead} (hu : N hd.no) (es : List UsesEntry) (n : Nat) : Ap N o1 (TP.processIntf u cu hd es n) := by
  unfold TP.processIntf
  exact bind (stepP fun k k' h _ e => h.importUnits hc e) fun _ => bind (stepR fun k k' h _ e => ⟨h.setUnit hc e, by rw [setR_ok e], by rw [setR_ok e]⟩)
    fun _ => parseIntfBody hu n

theorem stackAt_rest (k : DS) (cu : Nat) : (k.stackAt cu).cur = k.cur ∧ (k.stackAt cu).types = k.types := by
  unfold DS.stackAt
  split <;> exact ⟨rfl, rfl⟩

theorem parseImplUses {cu : Nat} (hc : cu ≠ 0) (n : Nat) : Ap N o1 (TP.parseImplUses u cu n) := by
  unfold TP.parseImplUses
  exact step (quiet_current _) fun _ => step quiet_next fun _ => bind (stepR fun k k' h _ e => by cases e; exact ⟨h.stackAt hc, stackAt_rest k cu⟩)
    fun _ => parseOptUses n

theorem parseInit (n : Nat) : Ap N o1 (TP.parseInit u n) := by
  unfold TP.parseInit
  refine step (quiet_current _) fun _ => step quiet_next fun _ => bind (stmts _ n) fun ini => step (quiet_is _) fun _ => ite ?_ (pure _)
  exact step quiet_next fun _ => bind (stmts _ n) fun fin => pure _

theorem parseImplAndEnd (n : Nat) : Ap N o1 (TP.parseImplAndEnd u n) := by
  unfold TP.parseImplAndEnd TP.parseImplBody TP.parseUnitEnd
  refine bind (bind (declSects n) fun ds => bind (exports n) fun ex => step quiet_optSemi fun _ => pure _) fun b => bind ?_ fun i => pure _
  refine bind ?_ fun i => step (quiet_current _) fun _ => step (quiet_nextIs _) fun _ => pure _
  exact step (quiet_is _) fun _ => ite (bind (parseInit n) fun i => pure _) (pure _)

theorem inImpl {p : P DS α} (h : Ap N o1 p) {cu unit : Nat} (hc : cu ≠ 0) (hu : N unit) (es : List UsesEntry) : Ap N o1 (TP.inImpl u cu unit es p) := by
  intro s a s' hs hcu e
  unfold TP.inImpl at e
  cases ho : s.cx.openImpl u cu unit es with
  | none => rw [ho] at e; cases e
  | some km =>
    obtain ⟨k, um⟩ := km
    rw [ho] at e
    simp only at e
    cases hp : p { s with cx := k } <;> rw [hp] at e <;> simp only [TP.R.ok.injEq, reduceCtorEq] at e
    obtain ⟨rfl, rfl⟩ := e
    obtain ⟨g1, g2, g3⟩ := hs.openImpl hc hu ho
    obtain ⟨h1, h2, h3⟩ := h _ _ _ g1 (by rw [← g2] at hcu; exact hcu) hp
    refine ⟨h1.setUnitDm hu (some um), h2, ?_⟩
    rw [← g3]
    exact h3

theorem processImpl {cu unit : Nat} (hc : cu ≠ 0) (hu : N unit) (n : Nat) : Ap N o1 (TP.processImpl u cu unit n) := by
  unfold TP.processImpl
  exact bind (parseImplUses hc n) fun es => bind (inImpl (parseImplAndEnd n) hc hu es) fun b => pure _

end Ap
end TP
