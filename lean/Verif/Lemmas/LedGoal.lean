import Verif.Lemmas.Led
import Verif.Lemmas.ProgramSound
import Verif.Lemmas.TraceGoal

/-!
# The references in units and programs lead to the tree
-/

namespace TP
open Spec Maps Props

variable {u : Uni} {α β : Type}

local notation "DL" => List (Dcl (Decl Node))
local notation "RL" => Refs (Decl Node)

/-- the context and the references `R` lead to what is declared in `L` -/
structure Inn (L : DL) (R : RL) (k : DS) : Prop where
  led : Led (· ∈ L) k.types k
  refs : ∀ p ∈ R, Leads (· ∈ L) k.types p.2

theorem Inn.mono {L L' : DL} {R R' : RL} {k : DS} (h : Inn L R k) (hL : ∀ x ∈ L, x ∈ L') (hR : ∀ x ∈ R', x ∈ R) : Inn L' R' k :=
  ⟨h.led.mono hL List.prefix_rfl, fun p hp => (h.refs p (hR p hp)).mono hL List.prefix_rfl⟩

/-- from a context that leads to `l` and more, to one that leads to `f` and more -/
def Fw (l : DL) (r : RL) (f : α → DL) (g : α → RL) (p : P DS α) : Prop :=
  ∀ L R s a s', Inn (l ++ L) (r ++ R) s.cx → p s = .ok a s' → Inn (f a ++ L) (g a ++ R) s'.cx

/-- declares nothing and refers to nothing -/
abbrev Fw0 (p : P DS α) : Prop := Fw [] [] (fun _ => []) (fun _ => []) p

namespace Fw
variable {l : DL} {r : RL}

theorem bind {F : α → DL} {G : α → RL} {H : β → DL} {K : β → RL} {p : P DS α} {q : α → P DS β} (hp : Fw [] [] F G p)
    (hq : ∀ a, Fw (F a ++ l) (G a ++ r) H K (q a)) : Fw l r H K (p >>= q) := by
  intro L R s b s' hs e
  obtain ⟨a, s1, e1, e2⟩ := ok_bind e
  have := hp (l ++ L) (r ++ R) s a s1 hs e1
  rw [← List.append_assoc, ← List.append_assoc] at this
  exact hq a L R s1 b s' this e2

theorem step {H : β → DL} {K : β → RL} {p : P DS α} {q : α → P DS β} (hp : Quiet p) (hq : ∀ a, Fw l r H K (q a)) : Fw l r H K (p >>= q) := by
  intro L R s b s' hs e
  obtain ⟨a, s1, e1, e2⟩ := ok_bind e
  exact hq a L R s1 b s' (by rw [hp _ _ _ e1]; exact hs) e2

theorem skip {H : β → DL} {K : β → RL} {p : P DS α} {q : α → P DS β} (hp : Fw0 p) (hq : ∀ a, Fw l r H K (q a)) : Fw l r H K (p >>= q) :=
  bind hp hq

theorem pure {f : α → DL} {g : α → RL} {a : α} (h : ∀ x ∈ l, x ∈ f a) (h' : ∀ x ∈ g a, x ∈ r) : Fw l r f g (Pure.pure a) := by
  intro L R s b s' hs e
  cases e
  refine hs.mono (fun x hx => ?_) (fun x hx => ?_)
  · exact (List.mem_append.1 hx).elim (fun hx => List.mem_append_left _ (h x hx)) (List.mem_append_right _)
  · exact (List.mem_append.1 hx).elim (fun hx => List.mem_append_left _ (h' x hx)) (List.mem_append_right _)

theorem fail {f : α → DL} {g : α → RL} : Fw l r f g P.fail := fun _ _ _ _ _ _ e => by cases e
theorem wait {f : α → DL} {g : α → RL} : Fw l r f g P.wait := fun _ _ _ _ _ _ e => by cases e

theorem ite {f : α → DL} {g : α → RL} {c : Prop} [Decidable c] {p q : P DS α} (h : Fw l r f g p) (h' : Fw l r f g q) :
    Fw l r f g (if c then p else q) := by
  split
  · exact h
  · exact h'

theorem last {F f : α → DL} {G g : α → RL} {p : P DS α} (h : Fw [] [] F G p) (h1 : ∀ a, ∀ x ∈ F a ++ l, x ∈ f a) (h2 : ∀ a, ∀ x ∈ g a, x ∈ G a ++ r) :
    Fw l r f g p := by
  intro L R s a s' hs e
  have := h (l ++ L) (r ++ R) s a s' hs e
  rw [← List.append_assoc, ← List.append_assoc] at this
  refine this.mono (fun x hx => ?_) (fun x hx => ?_)
  · exact (List.mem_append.1 hx).elim (fun hx => List.mem_append_left _ (h1 a x hx)) (List.mem_append_right _)
  · exact (List.mem_append.1 hx).elim (fun hx => List.mem_append_left _ (h2 a x hx)) (List.mem_append_right _)

/-- a parser below units and programs -/
theorem self {f : α → DL} {g : α → RL} {p : P DS α} {q : (Dcl (Decl Node) → Prop) → List (PType (Decl Node)) → P DS α}
    {A : (Dcl (Decl Node) → Prop) → List (PType (Decl Node)) → α → α → Prop}
    (hr : ∀ S T, Re S (fun k : DS => k.types <+: T) [] p (q S T) f)
    (hq : ∀ S T, PR u Eq markAll (markLed S T) False (BothLed S T) (A S T) (q S T) (q S T))
    (hA : ∀ S T a, A S T a a → ∀ p ∈ g a, Leads S T p.2) : Fw [] [] f g p := by
  intro L R s a s' hs e
  obtain ⟨-, h1, h2⟩ := hr (· ∈ f a ++ L) s'.cx.types s a s' e (fun x hx => List.mem_append_left _ hx) List.prefix_rfl
  have hs' : Led (· ∈ f a ++ L) s'.cx.types s.cx := hs.led.mono (fun x hx => List.mem_append_right _ hx) h1
  obtain ⟨h3, h4⟩ := LedSim.out (hq (· ∈ f a ++ L) s'.cx.types) hs' h2
  refine ⟨h4, fun x hx => ?_⟩
  rcases List.mem_append.1 hx with hx | hx
  · exact hA _ _ a h3 x hx
  · exact (hs.refs x hx).mono (fun x hx => List.mem_append_right _ hx) h1

theorem stepP {f : DS → Option DS} {ds : DL} (h : ∀ L R k k', Inn L R k → f k = some k' → Inn (ds ++ L) R k') :
    Fw [] [] (fun _ => ds) (fun _ => []) (TP.stepP f) := fun L R s _ _ hs e => by
  unfold TP.stepP at e
  cases hf : f s.cx with
  | some c => rw [hf] at e; cases e; exact h _ _ _ _ hs hf
  | none => rw [hf] at e; cases e

theorem stepR {f : DS → SetR DS} {ds : DL} (h : ∀ L R k k', Inn L R k → f k = .ok k' → Inn (ds ++ L) R k') :
    Fw [] [] (fun _ => ds) (fun _ => []) (TP.stepR f) := fun L R s _ _ hs e => by
  unfold TP.stepR at e
  cases hf : f s.cx with
  | ok c => rw [hf] at e; cases e; exact h _ _ _ _ hs hf
  | err => rw [hf] at e; cases e
  | panic => rw [hf] at e; cases e

theorem stepD {f : DS → DS} (h : ∀ L R k, Inn L R k → Inn L R (f k)) : Fw0 (TP.stepR fun k => .ok (f k)) :=
  stepR fun L R k k' hk e => by cases e; exact h L R k hk

end Fw

/-! ## Operations on the context -/

namespace Inn
variable {L : DL} {R : RL} {k : DS}

theorem same (h : Inn L R k) {k' : DS} (e : k'.w.maps = k.w.maps) (e1 : k'.types = k.types) (e2 : k'.refs = k.refs) : Inn L R k' :=
  ⟨by rw [e1]; exact h.led.same e e1 e2, by rw [e1]; exact h.refs⟩

theorem newMap (h : Inn L R k) {o : MapObj Node} (ho : ∀ p ∈ objTbl o, Leads (· ∈ L) k.types p.2) : Inn L R { k with w := (k.w.newMap o).1 } :=
  ⟨h.led.newMap ho, h.refs⟩

theorem setUnitDm (h : Inn L R k) (i : Nat) (d : Option Nat) : Inn L R { k with w := k.w.setUnitDm i d } :=
  h.same (setUnitDm_eqs k.w i d).1 rfl rfl

theorem add (h : Inn L R k) (ds : DL) : Inn (ds ++ L) R k := h.mono (fun x hx => List.mem_append_right _ hx) (fun _ h => h)

theorem setUses (h : Inn L R k) {i : Ident} {k' : DS} (e : k.setUses u i = .ok k') : Inn ([.uses i.name k.items.length] ++ L) R k' := by
  have h' := h.add [.uses i.name k.items.length]
  have ht : k'.types = k.types := by rw [setR_ok e]
  refine ⟨?_, by rw [ht]; exact h'.refs⟩
  rw [ht]
  refine h'.led.setW (k1 := { k with items := k.items ++ [none] }) (fun d hd => ?_) List.prefix_rfl rfl e
  cases List.mem_singleton.1 hd
  exact List.mem_append_left _ (List.mem_singleton.2 rfl)

theorem setUnit (h : Inn L R k) {cu : Nat} {hd : UnitHead} {k' : DS} (e : k.setUnit u cu hd = .ok k') :
    Inn ([.unit hd.ident.name hd.no] ++ L) R k' := by
  have h' := h.add [.unit hd.ident.name hd.no]
  have ht : k'.types = k.types := by rw [setR_ok e]
  refine ⟨?_, by rw [ht]; exact h'.refs⟩
  rw [ht]
  refine h'.led.setW (fun d hd => ?_) List.prefix_rfl rfl e
  cases List.mem_singleton.1 hd
  exact List.mem_append_left _ (List.mem_singleton.2 rfl)

theorem stackAt (h : Inn L R k) (cu : Nat) : Inn L R (k.stackAt cu) := by
  unfold DS.stackAt World.stack
  split
  · rename_i w c e
    split at e
    · cases e
    · cases e
      exact (h.newMap (o := .chained _ []) Led.nil).same rfl rfl rfl
  · exact h

theorem assignUnits {cu : Nat} : ∀ {es : List UsesEntry} {k : DS}, Inn L R k → Inn L R (k.assignUnits u cu es)
  | [], _, h => h
  | e :: es, k, h => by
    unfold DS.assignUnits
    split
    · exact assignUnits (h.same rfl rfl rfl)
    · exact assignUnits h

theorem importUnits (h : Inn L R k) {cu : Nat} {es : List UsesEntry} {k' : DS} (e : k.importUnits u cu es = some k') : Inn L R k' := by
  unfold DS.importUnits at e
  simp only at e
  split at e
  · cases e
    have h1 := (h.assignUnits (u := u) (cu := cu) (es := es)).newMap (o := .impl []) Led.nil
    rename_i d ms _ _
    have h2 := h1.newMap (o := .composite ((k.assignUnits u cu es).w.maps.length :: ms ++ [d])) Led.nil
    exact h2.same rfl rfl rfl
  · cases e

theorem openImpl (h : Inn L R k) {cu unit : Nat} {es : List UsesEntry} {r : DS × Nat} (e : k.openImpl u cu unit es = some r) : Inn L R r.1 := by
  unfold DS.openImpl at e
  simp only at e
  split at e
  · cases e
    rename_i ctxMap unitMap ms _ _ _
    have h1 := (h.assignUnits (u := u) (cu := cu) (es := es)).newMap (o := .impl []) Led.nil
    have h2 := h1.newMap (o := .composite [(k.assignUnits u cu es).w.maps.length, unitMap]) Led.nil
    have h3 := h2.setUnitDm unit (some ((k.assignUnits u cu es).w.maps.length + 1))
    have h4 := h3.newMap (o := .composite ((k.assignUnits u cu es).w.maps.length :: ctxMap :: ms)) Led.nil
    exact h4.same rfl rfl rfl
  · cases e

theorem newUnitContext (h : Inn L R k) (cp : Nat) (path : Str) : Inn L R (k.newUnitContext cp path).1 :=
  (h.newMap (o := .chained 0 []) Led.nil).same rfl rfl rfl

theorem usesMap {es : List UsesEntry} (he : ∀ e ∈ es, Dcl.uses e.ident.name e.no ∈ L) : ∀ {hs : List UnitHead} {k : DS} {m : Tbl Node} {r : DS × Tbl Node},
    Inn L R k → (∀ p ∈ m, Leads (· ∈ L) k.types p.2) → k.usesMap u es hs m = some r → Inn L R r.1 ∧ ∀ p ∈ r.2, Leads (· ∈ L) r.1.types p.2
  | [], k, m, r, h, hm, e => by cases e; exact ⟨h, hm⟩
  | x :: hs, k, m, r, h, hm, e => by
    unfold DS.usesMap at e
    split at e
    · cases e
    · rename_i en hf
      refine usesMap he (k := { k with items := k.items.set en.no (some x.no) }) (h.same rfl rfl rfl) (LedM.tset hm ?_) e
      intro d hd
      cases List.mem_singleton.1 hd
      exact he en (List.mem_of_find?_eq_some hf)

theorem enterProgram (h : Inn L R k) {cp : Nat} {i : Ident} {hs : List UnitHead} {m : Tbl Node} (hm : ∀ p ∈ m, Leads (· ∈ L) k.types p.2) {k' : DS}
    (hi : Dcl.program i.name ∈ L) (e : k.enterProgram u cp i hs m = some k') : Inn L R k' := by
  unfold DS.enterProgram at e
  split at e
  · cases e
    rename_i d ms _ _
    have h1 := h.newMap (o := .impl m) hm
    have h2 := h1.newMap (o := .impl (Tbl.set u [] [⟨i.name, Node.program⟩]).1) (LedM.tset Led.nil fun d hd => by
      cases List.mem_singleton.1 hd; exact hi)
    have h3 := h2.newMap (o := .composite ((k.w.maps.length + 1) :: k.w.maps.length :: ms ++ [d])) Led.nil
    exact h3.same rfl rfl rfl
  · cases e

theorem finishIntf (h : Inn L R k) (unit : Nat) (ds : List (IntfDecl (Decl Node)))
    (hd : ∀ d ∈ (ds.flatMap DS.declNodes).flatten, Leads (· ∈ L) k.types d) : Inn L R (k.finishIntf u unit ds) := by
  have key : ∀ p ∈ objTbl (.impl (World.intfTable u (ds.flatMap DS.declNodes) [])), Leads (· ∈ L) k.types p.2 := by
    intro p hp
    rcases intfTable_mem u _ [] p hp with hp | ⟨hp, -⟩
    · cases hp
    · exact hd _ hp
  exact (h.newMap key).setUnitDm unit (some k.w.maps.length)

end Inn

theorem inn_init (path : Str) : Inn [] [] (DS.init path) := by
  refine ⟨⟨fun j p hp => ?_, List.prefix_rfl, fun _ h => by cases h⟩, fun _ h => by cases h⟩
  match j with
  | 0 => cases hp
  | 1 => cases hp
  | j + 2 => cases hp

/-! ## What is below units and programs -/

/-- types are declared in type declarations only -/
theorem typesBase (u : Uni) : TrBase u (declEnv u) (fun _ => True) (fun a b => b.types = a.types) (fun _ _ => True) where
  refl _ := rfl
  trans h h' := h'.trans h
  up _ _ := trivial
  roll _ := ⟨trivial, rollback_types _⟩
  set hk _ e := ⟨trivial, set_types (fun t ht => by rcases hk with h | h <;> rw [h] at ht <;> cases ht) e⟩
  newRef _ _ := ⟨trivial, rfl, trivial⟩
  now _ _ := trivial
  emb _ _ := trivial
  qual _ := trivial
  stack _ := ⟨trivial, fun _ _ => trivial⟩
  restore _ _ h := ⟨trivial, (restore_types _ _).trans (h.trans (stack_types _)), fun _ _ => trivial⟩

theorem declareType_types {s s' : PS DS} {i : Ident} {ty : PType (Decl Node)} {a : Unit} (e : declareType (declEnv u) i ty s = .ok a s') :
    s'.cx.types = s.cx.types ++ [ty] := by
  unfold declareType at e
  obtain ⟨o, s1, e1, e⟩ := ok_bind e
  rw [← quiet_getDecl _ _ _ _ e1]
  cases o with
  | none =>
    change setDecl (declEnv u) [i] (.type ty) s1 = _ at e
    unfold setDecl at e
    cases e2 : (declEnv u).set s1.cx [i] (.type ty) with
    | ok c =>
      rw [e2] at e; cases e
      rw [setR_ok (show (s1.cx.addType (.type ty)).setR _ = .ok c from e2)]
      rfl
    | _ => rw [e2] at e; cases e
  | some old =>
    simp only at e
    split at e
    · unfold completeType at e
      cases e2 : (declEnv u).complete s1.cx old i ty with
      | ok c =>
        rw [e2] at e; cases e
        change s1.cx.complete u old i ty = .ok c at e2
        unfold DS.complete at e2
        split at e2
        · split at e2
          · rw [setR_ok e2]
          · cases e2
        · cases e2
      | _ => rw [e2] at e; cases e
    · cases e

theorem typeDecl_types {n : Nat} {s s' : PS DS} {d : TypeDecl (Decl Node)} (e : parseTypeDecl u (declEnv u) n s = .ok d s') :
    s'.cx.types = s.cx.types ++ [d.type] := by
  unfold parseTypeDecl traced at e
  obtain ⟨_, s1, e1, e⟩ := ok_bind e
  obtain ⟨d', s2, e2, e⟩ := ok_bind e
  obtain ⟨_, s3, e3, e⟩ := ok_bind e
  cases e
  rw [quiet_cur _ _ _ e3, ← quiet_cur _ _ _ e1]
  obtain ⟨t, s4, e4, e2⟩ := ok_bind e2
  obtain ⟨_, s5, e5, e2⟩ := ok_bind e2
  obtain ⟨_, s6, e6, e2⟩ := ok_bind e2
  obtain ⟨b, s7, e7, e2⟩ := ok_bind e2
  have q7 : s7.cx = s1.cx := by
    rw [quiet_is _ _ _ _ e7, quiet_next _ _ _ e6, quiet_nextIs _ _ _ _ e5, quiet_current _ _ _ _ e4]
  have main : ∀ {s7 : PS DS}, (do
      let ty ← parseType u (declEnv u) n
      declareType (declEnv u) (Ident.ofTok t) ty
      let pd ← typeDeclEnd u
      pure ⟨Ident.ofTok t, ty, pd⟩ : P DS (TypeDecl (Decl Node))) s7 = .ok d s2 → s2.cx.types = s7.cx.types ++ [d.type] := by
    intro s7 e2
    obtain ⟨ty, s8, e8, e2⟩ := ok_bind e2
    obtain ⟨_, s9, e9, e2⟩ := ok_bind e2
    obtain ⟨pd, s10, e10, e2⟩ := ok_bind e2
    cases e2
    rw [quiet_typeDeclEnd _ _ _ e10, declareType_types e9,
      ((typesTr (typesBase u) n).type s7 trivial (fun _ h => by cases h) _ _ e8).2.1]
  cases b with
  | true =>
    obtain ⟨_, s8, e8, e2⟩ := ok_bind e2
    rw [← q7, ← quiet_next _ _ _ e8]
    exact main e2
  | false =>
    rw [← q7]
    exact main e2

theorem typeDecls_types : ∀ (n : Nat) {s s' : PS DS} {ds : List (TypeDecl (Decl Node))}, parseTypeDecls u (declEnv u) n s = .ok ds s' →
    s'.cx.types = s.cx.types ++ ds.map TypeDecl.type := by
  intro n
  induction n with
  | zero => intro s s' ds e; cases e
  | succ n ih =>
    intro s s' ds e
    unfold parseTypeDecls at e
    obtain ⟨d, s1, e1, e⟩ := ok_bind e
    obtain ⟨c, s2, e2, e⟩ := ok_bind e
    have h1 := typeDecl_types e1
    have q2 := quiet_is _ _ _ _ e2
    cases c with
    | true =>
      cases e
      rw [q2, h1]
      rfl
    | false =>
      obtain ⟨_, s3, e3, e⟩ := ok_bind (p := P.current _) e
      obtain ⟨_, s4, e4, e⟩ := ok_bind e
      obtain ⟨c, s5, e5, e⟩ := ok_bind e
      have q5 : s5.cx = s1.cx := by
        rw [quiet_is _ _ _ _ e5, quiet_next _ _ _ e4, quiet_current _ _ _ _ e3, q2]
      cases c with
      | true => cases e; rw [q5, h1]; rfl
      | false =>
        obtain ⟨rest, s6, e6, e⟩ := ok_bind (p := parseTypeDecls u (declEnv u) n) e
        cases e
        rw [ih e6, q5, h1]
        simp

theorem typeSection_types {n : Nat} {s s' : PS DS} {ds : List (TypeDecl (Decl Node))} (h : parseTypeSection u (declEnv u) n s = .ok ds s') :
    s'.cx.types = s.cx.types ++ ds.map TypeDecl.type := by
  unfold parseTypeSection withSection at h
  cases e : (do P.next; parseTypeDecls u (declEnv u) n : P DS _) { s with cx := (declEnv u).openSection s.cx } with
  | ok a s1 =>
    rw [e] at h
    cases h
    obtain ⟨_, s2, e2, e⟩ := ok_bind e
    have q := quiet_next _ _ _ e2
    have := typeDecls_types n e
    rw [q] at this
    exact (runSection_types s1.cx).trans this
  | _ => rw [e] at h; cases h

namespace Fw

theorem stmts (p : Pred) [∀ S T, Resp u Eq markAll (markLed S T) p] (n : Nat) :
    Fw [] [] dclStmts (fun e => e.refs PType.refs) (parseStmts u ((declEnv u).senv u) p n) :=
  self (u := u) (fun S T => (stmtsRe (ledBase u S T) n).stmts p)
    (fun S T => (stmtR (DSim.ssim (w := False) (LedSim.sim u S T)) (Nat.le_refl n)).stmts p)
    fun S T _ h => markedLed (fun _ => Stmts.refs_tr PType.refs_tr _) (congrArg (Stmts.refs PType.refs) h)

theorem block (n : Nat) : Fw [] [] dclBlock Block.refs (parseBlock u (declEnv u) n) :=
  self (u := u) (fun S T => (blocksRe (ledBase u S T) n).block) (fun S T => (blockR (LedSim.sim u S T) (Nat.le_refl n)).block)
    fun S T _ h => markedLed (fun _ => Block.refs_tr _) (congrArg Block.refs h)

theorem declSects (n : Nat) : Fw [] [] dclSections DeclSects.refs (parseDeclSects u (declEnv u) n) :=
  self (u := u) (fun S T => (blocksRe (ledBase u S T) n).sects) (fun S T => (blockR (LedSim.sim u S T) (Nat.le_refl n)).sects)
    fun S T _ h => markedLed (fun _ => DeclSects.refs_tr _) (congrArg DeclSects.refs h)

theorem exports (n : Nat) : Fw [] [] (fun _ => []) (fun e => e.flatMap fun is => is.flatMap ExportsItem.refs) (parseExports u (declEnv u) n) :=
  self (u := u) (fun S T => exports_re (ledBase u S T) n) (fun S T => PR.parseExports (LedSim.sim u S T) (Nat.le_refl n))
    fun S T _ h => markedLed (fun _ => refs_list (refs_list ExportsItem.refs_tr) _) (congrArg (fun e => e.flatMap fun is => is.flatMap ExportsItem.refs) h)

theorem consts (n : Nat) : Fw [] [] (fun e => e.flatMap dclConst) (fun e => e.flatMap ConstDecl.refs) (parseConstDecls u (declEnv u) n) :=
  self (u := u) (fun S T => constDecls_re (ledBase u S T) n) (fun S T => PR.parseConstDecls (LedSim.sim u S T) (Nat.le_refl n))
    fun S T _ h => markedLed (fun _ => refs_list ConstDecl.refs_tr _) (congrArg (fun e => e.flatMap ConstDecl.refs) h)

theorem vars (n : Nat) : Fw [] [] (fun e => e.flatMap dclVar) (fun e => e.flatMap VarDecl.refs) (parseVarDecls u (declEnv u) n) :=
  self (u := u) (fun S T => varDecls_re (ledBase u S T) n) (fun S T => PR.parseVarDecls (LedSim.sim u S T) (Nat.le_refl n))
    fun S T _ h => markedLed (fun _ => refs_list VarDecl.refs_tr _) (congrArg (fun e => e.flatMap VarDecl.refs) h)

theorem threadVars (n : Nat) :
    Fw [] [] (fun e => e.flatMap dclThreadVar) (fun e => e.flatMap ThreadVarDecl.refs) (parseThreadVarDecls u (declEnv u) n) :=
  self (u := u) (fun S T => threadVarDecls_re (ledBase u S T) n) (fun S T => PR.parseThreadVarDecls (LedSim.sim u S T) (Nat.le_refl n))
    fun S T _ h => markedLed (fun _ => refs_list ThreadVarDecl.refs_tr _) (congrArg (fun e => e.flatMap ThreadVarDecl.refs) h)

theorem types (n : Nat) : Fw [] [] (fun e => e.flatMap dclTypeDecl) (fun e => e.flatMap TypeDecl.refs) (parseTypeSection u (declEnv u) n) :=
  self (u := u) (fun S T => typeSection_re (ledBase u S T) n) (fun S T => PR.parseTypeSection (LedSim.sim u S T) (Nat.le_refl n))
    fun S T _ h => markedLed (fun _ => refs_list TypeDecl.refs_tr _) (congrArg (fun e => e.flatMap TypeDecl.refs) h)

theorem heading (n : Nat) : Fw [] [] (fun h => .named .heading h.1.ident :: dclHeading h.1) (fun h => h.1.refs) (parseExportedHeading u (declEnv u) n) :=
  self (u := u) (fun S T => exportedHeading_re (ledBase u S T) n) (fun S T => PR.parseExportedHeading (LedSim.sim u S T) (Nat.le_refl n))
    fun S T _ h => markedLed (fun _ => Heading.refs_tr _) (congrArg Heading.refs h.1)

/-! ## Units -/

/-- the nodes that a declaration of an interface has, as references -/
def nodesOf (d : IntfDecl (Decl Node)) : RL := (DS.declNodes d).flatten.map fun x => (⟨[], ⟨0, 0, 0⟩, ⟨0, 0, 0⟩⟩, x)

/-- membership -/
macro "mems" : tactic => `(tactic| (
  intros
  rename_i x hx
  simp only [List.mem_append, List.mem_cons, List.not_mem_nil, List.nil_append, List.append_nil, or_false, false_or, List.flatMap_cons, List.flatMap_nil,
    List.cons_append, List.flatMap_append, dclUses, List.map_cons, List.map_nil, Option.toList, dclUnitBody, dclInit, UnitBody.refs, InitSection.refs] at hx ⊢
  try tauto))

theorem quiet_usesItem : Quiet (parseUsesItem u) := by
  have := quiet_stringFactor (κ := DS) (u := u)
  unfold parseUsesItem; quiets

theorem quiet_usesItems : ∀ n, Quiet (parseUsesItems u n) := by
  intro n
  induction n with
  | zero => exact fun _ _ _ e => by cases e
  | succ n ih =>
    have := quiet_usesItem (u := u)
    unfold parseUsesItems; quiets

theorem declareUses : ∀ l, Fw [] [] dclUses (fun _ => []) (TP.declareUses u l)
  | [] => pure (by mems) (by mems)
  | (i, p) :: l => by
    intro L R s a s' hs e
    unfold TP.declareUses at e
    obtain ⟨no, s1, e1, e⟩ := ok_bind e
    cases e1
    obtain ⟨_, s2, e2, e⟩ := ok_bind e
    obtain ⟨rest, s3, e3, e⟩ := ok_bind e
    cases e
    unfold TP.stepR at e2
    simp only at e2
    cases hf : s.cx.setUses u i with
    | ok c =>
      rw [hf] at e2
      cases e2
      have := declareUses l _ R _ _ _ (Inn.setUses hs hf) e3
      exact this.mono (by mems) (by mems)
    | err => rw [hf] at e2; cases e2
    | panic => rw [hf] at e2; cases e2

theorem parseUses (n : Nat) : Fw [] [] dclUses (fun _ => []) (TP.parseUses u n) := by
  unfold TP.parseUses
  exact step (quiet_current _) fun _ => step quiet_next fun _ => step (quiet_usesItems n) fun _ => declareUses _

theorem parseOptUses (n : Nat) : Fw [] [] dclUses (fun _ => []) (TP.parseOptUses u n) := by
  unfold TP.parseOptUses
  exact step (quiet_is _) fun _ => ite (bind (parseUses n) fun _ => step quiet_next fun _ => pure (by mems) (by mems)) (pure (by mems) (by mems))

theorem parseUnitIdent : Fw0 (TP.parseUnitIdent u) := by
  unfold TP.parseUnitIdent
  refine step (quiet_current _) fun _ => step (quiet_nextIs _) fun _ => step (fun _ _ _ e => by cases e; rfl : Quiet (askP _)) fun _ =>
    skip (stepD fun L R k h => h.same rfl rfl rfl) fun _ => step quiet_next fun _ => ?_
  have q : Quiet (do
      let t ← P.cur
      if Pred.directive u portabilityNames t then do
        P.next
        Pure.pure (some (t.value u))
      else Pure.pure none : P DS (Option Str)) := by quiets
  refine step q fun _ => ?_
  exact step (quiet_is _) fun _ => ite (step quiet_next fun _ => pure (by mems) (by mems)) (pure (by mems) (by mems))

theorem parseIdentAndUses (n : Nat) : Fw [] [] (fun r => dclUses r.2) (fun _ => []) (TP.parseIdentAndUses u n) := by
  unfold TP.parseIdentAndUses TP.parseIntfUses
  refine skip parseUnitIdent fun _ => bind (F := dclUses) (G := fun _ => []) ?_ fun _ => pure (by mems) (by mems)
  exact step (quiet_current _) fun _ => step quiet_next fun _ => parseOptUses n

/-- the nodes of what is declared -/
theorem nodes {f : α → DL} {g : α → RL} {p : P DS α} (h : Fw [] [] f g p) {N : α → List (Decl Node)}
    (hN : ∀ a, ∀ d ∈ N a, ∃ t i, d = ⟨i.name, .decl t i⟩ ∧ Dcl.named t i ∈ f a) :
    Fw [] [] f (fun a => g a ++ (N a).map fun x => (⟨[], ⟨0, 0, 0⟩, ⟨0, 0, 0⟩⟩, x)) p := by
  intro L R s a s' hs e
  have := h L R s a s' hs e
  refine ⟨this.led, fun x hx => ?_⟩
  rcases List.mem_append.1 hx with hx | hx
  · rcases List.mem_append.1 hx with hx | hx
    · exact this.refs x (List.mem_append_left _ hx)
    · obtain ⟨d, hd, rfl⟩ := List.mem_map.1 hx
      obtain ⟨t, i, rfl, hi⟩ := hN a d hd
      exact .inr (.inr ⟨rfl, List.mem_append_left _ hi⟩)
  · exact this.refs x (List.mem_append_right _ hx)

theorem typeIntf (n : Nat) : Fw [] [] (fun o => o.toList.flatMap dclIntf) (fun o => o.toList.flatMap fun d => d.refs ++ nodesOf d) (do
    let first ← askP fun k => k.types.length
    let ds ← parseTypeSection u (declEnv u) n
    Pure.pure (some (.type first ds)) : P DS (Option (IntfDecl (Decl Node)))) := by
  intro L R s a s' hs e
  obtain ⟨first, s1, e1, e⟩ := ok_bind e
  cases e1
  obtain ⟨ds, s2, e2, e⟩ := ok_bind e
  cases e
  have := types n L R s ds s' hs e2
  simp only [Option.toList, List.flatMap_cons, List.flatMap_nil, List.append_nil]
  refine ⟨this.led, fun x hx => ?_⟩
  rcases List.mem_append.1 hx with hx | hx
  · rcases List.mem_append.1 hx with hx | hx
    · exact this.refs x (List.mem_append_left _ hx)
    · obtain ⟨d, hd, rfl⟩ := List.mem_map.1 hx
      obtain ⟨l, hl, hd⟩ := List.mem_flatten.1 hd
      obtain ⟨⟨d', j⟩, hj, rfl⟩ := List.mem_map.1 hl
      cases List.mem_singleton.1 hd
      have hj' := List.mem_zipIdx_iff_getElem?.1 hj
      simp only at hj'
      refine ⟨d'.type, ?_, List.mem_append_left _ ?_⟩
      · show s'.cx.types[s.cx.types.length + j]? = _
        rw [typeSection_types e2, List.getElem?_append_right (Nat.le_add_right ..), Nat.add_sub_cancel_left, List.getElem?_map, hj']
        rfl
      · exact List.mem_flatMap.2 ⟨d', List.mem_of_getElem? hj', List.mem_cons_self ..⟩
  · exact this.refs x (List.mem_append_right _ hx)

theorem parseIntfDecl (n : Nat) (t : Token) :
    Fw [] [] (fun o => o.toList.flatMap dclIntf) (fun o => o.toList.flatMap fun d => d.refs ++ nodesOf d) (TP.parseIntfDecl u n t) := by
  unfold TP.parseIntfDecl
  refine ite ?_ (ite ?_ (ite ?_ (ite ?_ (ite ?_ (pure (by mems) (by mems))))))
  · exact typeIntf n
  · refine step quiet_next fun _ => bind (nodes (vars n) (N := fun ds => (DS.declNodes (.var ds)).flatten) fun a d hd => ?_) fun ds =>
      pure (by simp [dclIntf]) (by simp [nodesOf, IntfDecl.refs])
    obtain ⟨l, hl, hd⟩ := List.mem_flatten.1 hd
    obtain ⟨v, hv, rfl⟩ := List.mem_map.1 hl
    obtain ⟨i, hi, rfl⟩ := List.mem_map.1 hd
    exact ⟨_, i, rfl, List.mem_flatMap.2 ⟨v, hv, List.mem_append_left _ (List.mem_map_of_mem hi)⟩⟩
  · refine step quiet_next fun _ => bind (nodes (threadVars n) (N := fun ds => (DS.declNodes (.threadVar ds)).flatten) fun a d hd => ?_) fun ds =>
      pure (by simp [dclIntf]) (by simp [nodesOf, IntfDecl.refs])
    obtain ⟨l, hl, hd⟩ := List.mem_flatten.1 hd
    obtain ⟨v, hv, rfl⟩ := List.mem_map.1 hl
    obtain ⟨i, hi, rfl⟩ := List.mem_map.1 hd
    exact ⟨_, i, rfl, List.mem_flatMap.2 ⟨v, hv, List.mem_append_left _ (List.mem_map_of_mem hi)⟩⟩
  · refine step quiet_next fun _ => bind (nodes (consts n) (N := fun ds => (DS.declNodes (.const ds)).flatten) fun a d hd => ?_) fun ds =>
      pure (by simp [dclIntf]) (by simp [nodesOf, IntfDecl.refs])
    obtain ⟨l, hl, hd⟩ := List.mem_flatten.1 hd
    obtain ⟨v, hv, rfl⟩ := List.mem_map.1 hl
    cases List.mem_singleton.1 hd
    exact ⟨_, _, rfl, List.mem_flatMap.2 ⟨v, hv, List.mem_cons_self ..⟩⟩
  · refine bind (nodes (heading n) (N := fun h => (DS.declNodes (.heading h.1 h.2)).flatten) fun a d hd => ?_) fun ds =>
      pure (by simp [dclIntf]) (by simp [nodesOf, IntfDecl.refs])
    obtain ⟨l, hl, hd⟩ := List.mem_flatten.1 hd
    cases List.mem_singleton.1 hl
    cases List.mem_singleton.1 hd
    exact ⟨_, _, rfl, List.mem_cons_self ..⟩

theorem parseIntfDecls : ∀ n, Fw [] [] (fun ds => ds.flatMap dclIntf) (fun ds => ds.flatMap fun d => d.refs ++ nodesOf d) (TP.parseIntfDecls u n)
  | 0 => wait
  | n + 1 => by
    unfold TP.parseIntfDecls
    refine step quiet_cur fun t => ite (pure (by mems) (by mems)) (ite fail (bind (parseIntfDecl n t) fun o => ?_))
    cases o with
    | none => exact pure (by mems) (by mems)
    | some d => exact bind (parseIntfDecls n) fun rest => pure (by mems) (by mems)

theorem parseIntfBody (unit n : Nat) : Fw [] [] (fun ds => ds.flatMap dclIntf) (fun ds => ds.flatMap IntfDecl.refs) (TP.parseIntfBody u unit n) := by
  unfold TP.parseIntfBody
  refine bind (parseIntfDecls n) fun ds => ?_
  intro L R s a s' hs e
  obtain ⟨_, s1, e1, e⟩ := ok_bind e
  cases e
  cases e1
  rw [List.append_nil, List.append_nil] at hs
  have : Inn (ds.flatMap dclIntf ++ L) (ds.flatMap (fun d => d.refs ++ nodesOf d) ++ R) (s.cx.finishIntf u unit ds) := by
    refine hs.finishIntf unit ds fun d hd => ?_
    obtain ⟨l, hl, hd⟩ := List.mem_flatten.1 hd
    obtain ⟨x, hx, hl⟩ := List.mem_flatMap.1 hl
    exact hs.refs (⟨[], ⟨0, 0, 0⟩, ⟨0, 0, 0⟩⟩, d) (List.mem_append_left _ (List.mem_flatMap.2 ⟨x, hx, List.mem_append_right _
      (List.mem_map_of_mem (List.mem_flatten.2 ⟨l, hl, hd⟩))⟩))
  refine this.mono (fun _ h => h) fun x hx => ?_
  rcases List.mem_append.1 hx with hx | hx
  · obtain ⟨d, hd, hx⟩ := List.mem_flatMap.1 hx
    exact List.mem_append_left _ (List.mem_flatMap.2 ⟨d, hd, List.mem_append_left _ hx⟩)
  · exact List.mem_append_right _ hx

theorem parseImplUses (cu n : Nat) : Fw [] [] dclUses (fun _ => []) (TP.parseImplUses u cu n) := by
  unfold TP.parseImplUses
  exact step (quiet_current _) fun _ => step quiet_next fun _ => skip (stepD fun L R k h => h.stackAt cu) fun _ => parseOptUses n

theorem parseInit (n : Nat) : Fw [] [] dclInit InitSection.refs (TP.parseInit u n) := by
  unfold TP.parseInit
  refine step (quiet_current _) fun _ => step quiet_next fun _ => bind (stmts _ n) fun ini => step (quiet_is _) fun _ => ite ?_ (pure (by mems) (by mems))
  exact step quiet_next fun _ => bind (stmts _ n) fun fin => pure (by mems) (by mems)

theorem parseImplAndEnd (n : Nat) : Fw [] [] dclUnitBody UnitBody.refs (TP.parseImplAndEnd u n) := by
  unfold TP.parseImplAndEnd TP.parseImplBody TP.parseUnitEnd
  refine bind (F := fun b => dclSections b.1) (G := fun b => b.1.refs ++ b.2.flatMap fun is => is.flatMap ExportsItem.refs) ?_ fun b => ?_
  · exact bind (declSects n) fun ds => bind (exports n) fun ex => step quiet_optSemi fun _ => pure (by mems) (by mems)
  refine bind (F := fun i => i.toList.flatMap dclInit) (G := fun i => i.toList.flatMap InitSection.refs) ?_ fun i => pure (by mems) (by mems)
  refine bind (F := fun i => i.toList.flatMap dclInit) (G := fun i => i.toList.flatMap InitSection.refs) ?_ fun i =>
    step (quiet_current _) fun _ => step (quiet_nextIs _) fun _ => pure (by mems) (by mems)
  exact step (quiet_is _) fun _ => ite (bind (parseInit n) fun i => pure (by mems) (by mems)) (pure (by mems) (by mems))

/-- a unit with a parser of its own -/
theorem parseUnit {cu n : Nat} {s s' : PS DS} {t : UnitTree (Decl Node)} (hs : Inn [] [] s.cx) (e : TP.parseUnit u cu n s = .ok (some t) s') :
    Inn (dclUnit t) t.refs s'.cx := by
  unfold TP.parseUnit at e
  obtain ⟨hd, s1, e1, e⟩ := ok_bind e
  obtain ⟨ds, s2, e2, e⟩ := ok_bind e
  obtain ⟨es, s3, e3, e⟩ := ok_bind e
  obtain ⟨b, s4, e4, e9⟩ := ok_bind e
  have h1 := parseIdentAndUses n [] [] s _ _ hs e1
  have h2 := parseIntfBody _ n _ _ _ _ _ h1 e2
  have h3 := parseImplUses cu n _ _ _ _ _ h2 e3
  have h4 := parseImplAndEnd n _ _ _ _ _ h3 e4
  split at e9
  · cases e9
    refine h4.mono (fun x hx => ?_) (fun x hx => ?_)
    · simp only [List.append_eq, List.mem_append, List.append_nil, dclUnit, List.mem_cons, List.cons_append] at hx ⊢
      tauto
    · simp only [List.append_eq, List.mem_append, UnitTree.refs] at hx ⊢
      tauto
  · cases e9

theorem processIntf (cu : Nat) (hd : UnitHead) (es : List UsesEntry) (n : Nat) :
    Fw [] [] (fun ds => .unit hd.ident.name hd.no :: ds.flatMap dclIntf) (fun ds => ds.flatMap IntfDecl.refs) (TP.processIntf u cu hd es n) := by
  unfold TP.processIntf
  exact skip (stepP (ds := []) fun L R k k' h e => h.importUnits e) fun _ => bind (stepR fun L R k k' h e => h.setUnit e) fun _ =>
    last (parseIntfBody _ n) (by mems) (by mems)

theorem inImpl {f : α → DL} {g : α → RL} {p : P DS α} (h : Fw [] [] f g p) (cu unit : Nat) (es : List UsesEntry) :
    Fw [] [] f g (TP.inImpl u cu unit es p) := by
  intro L R s a s' hs e
  unfold TP.inImpl at e
  cases ho : s.cx.openImpl u cu unit es with
  | none => rw [ho] at e; cases e
  | some km =>
    obtain ⟨k, um⟩ := km
    rw [ho] at e
    simp only at e
    cases hp : p { s with cx := k } <;> rw [hp] at e <;> simp only [TP.R.ok.injEq, reduceCtorEq] at e
    obtain ⟨rfl, rfl⟩ := e
    exact (h L R _ _ _ (hs.openImpl ho) hp).setUnitDm _ _

theorem processImpl (cu unit n : Nat) :
    Fw [] [] (fun r => dclUses r.1 ++ dclUnitBody r.2) (fun r => r.2.refs) (TP.processImpl u cu unit n) := by
  unfold TP.processImpl
  exact bind (parseImplUses cu n) fun es => bind (inImpl (parseImplAndEnd n) cu unit es) fun b => pure (by mems) (by mems)

/-! ## Programs -/

theorem run {l : DL} {r : RL} {f : α → DL} {g : α → RL} {p : P DS α} (h : Fw l r f g p) (ld : Loader) :
    Fw l r (fun x => f x.1) (fun x => g x.1) (ld.run p) := by
  intro L R s a s' hs e
  unfold Loader.run at e
  cases hp : p ⟨ld.ts, ld.tail, { s.cx with cur := ld.cur, pending := ld.pending }⟩ <;> rw [hp] at e <;> simp only [TP.R.ok.injEq, reduceCtorEq] at e
  obtain ⟨rfl, rfl⟩ := e
  exact (h L R ⟨ld.ts, ld.tail, { s.cx with cur := ld.cur, pending := ld.pending }⟩ _ _ (hs.same rfl rfl rfl) hp).same rfl rfl rfl

theorem run_loader {p : P DS α} {ld : Loader} {s s' : PS DS} {r : α × Loader} (e : ld.run p s = .ok r s') :
    r.2.tree = ld.tree := by
  unfold Loader.run at e
  cases hp : p ⟨ld.ts, ld.tail, { s.cx with cur := ld.cur, pending := ld.pending }⟩ <;> rw [hp] at e <;> simp only [TP.R.ok.injEq, reduceCtorEq] at e
  obtain ⟨rfl, rfl⟩ := e
  rfl

variable {sep : Char} {files : Str → FileR} {lib : TopoLib} {it : List UParser → List Str}

theorem newLoaders (cp : Nat) : ∀ es, Fw0 (TP.newLoaders sep cp es)
  | [] => pure (by mems) (by mems)
  | e :: es => by
    unfold TP.newLoaders
    exact ite (newLoaders cp es) (step (fun _ _ _ e => by cases e; rfl : Quiet (askP _)) fun _ => skip (stepD fun L R k h => h.newUnitContext cp _) fun _ =>
      skip (newLoaders cp es) fun _ => pure (by mems) (by mems))

/-- a unit of which only the head has been read -/
def Fresh0 (l : Loader) : Prop := l.intf = [] ∧ l.implUses = [] ∧ l.body = ⟨.nil, [], none⟩

abbrev dclLoader (l : Loader) : DL := dclUnit l.tree
abbrev refsLoader (l : Loader) : RL := l.tree.refs

theorem fresh_refs {l : Loader} (h : Fresh0 l) : refsLoader l = [] := by
  obtain ⟨h1, h2, h3⟩ := h
  unfold refsLoader UnitTree.refs Loader.tree
  simp only [h1, h3]
  rfl

theorem loadUnit (n : Nat) (path : Str) (c : Nat) : Fw [] [] dclLoader refsLoader (TP.loadUnit u files n path c) ∧
    ∀ s l s', TP.loadUnit u files n path c s = .ok l s' → Fresh0 l := by
  unfold TP.loadUnit
  cases files path with
  | missing => exact ⟨fail, fun _ _ _ e9 => by cases e9⟩
  | unreadable => exact ⟨fail, fun _ _ _ e9 => by cases e9⟩
  | tokens ts tail =>
    have key : ∀ {s : PS DS} {ld l : Loader} {s' : PS DS} {p : P DS ((UnitHead × Bool) × List UsesEntry)}, Fresh0 ld →
        (do let r ← ld.run p; Pure.pure { r.2 with head := r.1.1.1, uses := r.1.2 } : P DS Loader) s = .ok l s' → Fresh0 l := by
      intro s ld l s' p h e
      obtain ⟨r, s1, e1, e⟩ := ok_bind e
      cases e
      have := run_loader e1
      unfold Loader.tree at this
      injection this with _ _ h3 h4 h5
      unfold Fresh0
      simp only
      rw [h3, h4, h5]
      exact h
    refine ⟨fun L R s a s' hs e => ?_, fun s l s' e => key ⟨rfl, rfl, rfl⟩ e⟩
    have hf := key ⟨rfl, rfl, rfl⟩ e
    obtain ⟨r, s1, e1, e⟩ := ok_bind e
    cases e
    have := run (step quiet_cur? fun _ => parseIdentAndUses (u := u) n) _ L R _ _ _ hs e1
    rw [fresh_refs hf]
    refine this.mono (fun x hx => ?_) (fun x hx => hx)
    rcases List.mem_append.1 hx with hx | hx
    · refine List.mem_append_left _ ?_
      simp only [dclUnit, Loader.tree, List.mem_cons, List.mem_append, List.cons_append]
      tauto
    · exact List.mem_append_right _ hx

theorem loadAll (cp n : Nat) : ∀ cs, Fw [] [] (fun ls => ls.flatMap dclLoader) (fun ls => ls.flatMap refsLoader) (TP.loadAll u files cp n cs)
  | [] => pure (by mems) (by mems)
  | (p, c) :: cs => by
    unfold TP.loadAll
    exact bind (loadUnit n p c).1 fun l => skip (stepD fun L R k h => h.same rfl rfl rfl) fun _ => bind (loadAll cp n cs) fun ls =>
      pure (by mems) (by mems)

theorem loadAll_fresh (cp n : Nat) : ∀ cs s ls s', TP.loadAll u files cp n cs s = .ok ls s' → ∀ l ∈ ls, Fresh0 l
  | [], s, ls, s', e => by cases e; exact fun _ h => by cases h
  | (p, c) :: cs, s, ls, s', e => by
    unfold TP.loadAll at e
    obtain ⟨l, s1, e1, e⟩ := ok_bind e
    obtain ⟨_, s2, e2, e⟩ := ok_bind e
    obtain ⟨ls, s3, e3, e⟩ := ok_bind e
    cases e
    intro x hx
    rcases List.mem_cons.1 hx with rfl | hx
    · exact (loadUnit n p c).2 _ _ _ e1
    · exact loadAll_fresh cp n cs _ _ _ e3 x hx

/-- the loops over the parsers -/
theorem loop {P0 P1 : Loader → Prop} {stp : Loader → P DS Loader} {lp : List Nat → List Loader → P DS (List Loader)}
    (h0 : ∀ ls, lp [] ls = Pure.pure ls) (h1 : ∀ i is ls l, ls[i]? = some l → lp (i :: is) ls = (stp l >>= fun l' => lp is (ls.set i l')))
    (h2 : ∀ i is ls, ls[i]? = none → lp (i :: is) ls = lp is ls)
    (hs : ∀ l, P0 l → Fw [] (refsLoader l) dclLoader refsLoader (stp l) ∧ ∀ s l' s', stp l s = .ok l' s' → P1 l' ∧ ∀ x ∈ dclLoader l, x ∈ dclLoader l') :
    ∀ (is : List Nat) (ls : List Loader), is.Nodup → (∀ i ∈ is, ∀ l, ls[i]? = some l → P0 l) → (∀ l ∈ ls, P0 l ∨ P1 l) →
      Fw (ls.flatMap dclLoader) (ls.flatMap refsLoader) (fun ls => ls.flatMap dclLoader) (fun ls => ls.flatMap refsLoader) (lp is ls) ∧
      ∀ s ls' s', lp is ls s = .ok ls' s' → ∀ l ∈ ls', P0 l ∨ P1 l
  | [], ls, _, _, hp => by
    rw [h0]
    exact ⟨pure (fun _ h => h) (fun _ h => h), fun _ _ _ e => by cases e; exact hp⟩
  | i :: is, ls, hn, hp0, hp => by
    rw [List.nodup_cons] at hn
    cases e : ls[i]? with
    | none =>
      rw [h2 i is ls e]
      exact loop h0 h1 h2 hs is ls hn.2 (fun j hj => hp0 j (by simp [hj])) hp
    | some l =>
      rw [h1 i is ls l e]
      obtain ⟨g1, g2⟩ := hs l (hp0 i (by simp) l e)
      have hi : i < ls.length := (List.getElem?_eq_some_iff.1 e).1
      have rest : ∀ {s l' s'}, stp l s = .ok l' s' → _ := fun {s l' s'} e1 => loop h0 h1 h2 hs is (ls.set i l') hn.2 (fun j hj l2 hl2 => by
          by_cases c : i = j
          · subst c; exact absurd hj hn.1
          · rw [List.getElem?_set_ne c] at hl2
            exact hp0 j (by simp [hj]) l2 hl2) (fun x hx => by
          rcases List.mem_or_eq_of_mem_set hx with hx | rfl
          · exact hp x hx
          · exact .inr (g2 _ _ _ e1).1)
      refine ⟨fun L R s a s' hI e1 => ?_, fun s ls' s' e1 => ?_⟩
      · obtain ⟨l', s1, e1, e2⟩ := ok_bind e1
        have hI' : Inn (ls.flatMap dclLoader ++ L) (refsLoader l ++ (ls.flatMap refsLoader ++ R)) s.cx := hI.mono (fun _ h => h) fun x hx => by
          rcases List.mem_append.1 hx with hx | hx
          · exact List.mem_append_left _ (List.mem_flatMap.2 ⟨l, List.mem_of_getElem? e, hx⟩)
          · exact hx
        have h3 := g1 (ls.flatMap dclLoader ++ L) (ls.flatMap refsLoader ++ R) s l' s1 hI' e1
        refine (rest e1).1 L R s1 a s' (h3.mono (fun x hx => ?_) (fun x hx9 => ?_)) e2
        · have hl' : l' ∈ ls.set i l' := List.mem_iff_getElem?.2 ⟨i, List.getElem?_set_self hi⟩
          rcases List.mem_append.1 hx with hx | hx
          · exact List.mem_append_left _ (List.mem_flatMap.2 ⟨l', hl', hx⟩)
          · rcases List.mem_append.1 hx with hx | hx
            · obtain ⟨y, hy, hx⟩ := List.mem_flatMap.1 hx
              obtain ⟨j, hj⟩ := List.mem_iff_getElem?.1 hy
              refine List.mem_append_left _ ?_
              by_cases c : i = j
              · subst c
                rw [e] at hj
                cases hj
                exact List.mem_flatMap.2 ⟨l', hl', (g2 _ _ _ e1).2 x hx⟩
              · exact List.mem_flatMap.2 ⟨y, List.mem_iff_getElem?.2 ⟨j, by rw [List.getElem?_set_ne c]; exact hj⟩, hx⟩
            · exact List.mem_append_right _ hx
        · rcases List.mem_append.1 hx9 with hx9 | hx
          · obtain ⟨y, hy, hx⟩ := List.mem_flatMap.1 hx9
            rcases List.mem_or_eq_of_mem_set hy with hy | rfl
            · exact List.mem_append_right _ (List.mem_append_left _ (List.mem_flatMap.2 ⟨y, hy, hx⟩))
            · exact List.mem_append_left _ hx
          · exact List.mem_append_right _ (List.mem_append_right _ hx)
      · obtain ⟨l', s1, e1, e2⟩ := ok_bind e1
        exact (rest e1).2 _ _ _ e2

/-- nothing of the implementation has been read -/
def Fresh1 (l : Loader) : Prop := l.implUses = [] ∧ l.body = ⟨.nil, [], none⟩

theorem intfStep_fw (n : Nat) (l : Loader) (h : Fresh0 l) : Fw [] (refsLoader l) dclLoader refsLoader (intfStep u n l) ∧
    ∀ s l' s', intfStep u n l s = .ok l' s' → Fresh1 l' ∧ ∀ x ∈ dclLoader l, x ∈ dclLoader l' := by
  obtain ⟨i1, i2, i3⟩ := h
  refine ⟨fun L R s a s' hs e => ?_, fun s l' s' e => ?_⟩
  · unfold intfStep at e
    obtain ⟨r, s1, e1, e⟩ := ok_bind e
    cases e
    have ht := run_loader e1
    unfold Loader.tree at ht
    injection ht with h1 h2 h3 h4 h5
    have := run (processIntf (u := u) l.cu l.head l.uses n) l L _ _ _ _ hs e1
    refine this.mono (fun x hx => ?_) (fun x hx => ?_)
    · simp only [dclUnit, Loader.tree, List.mem_cons, List.mem_append, List.cons_append, h1] at hx ⊢
      tauto
    · have hr : refsLoader l = l.intf.flatMap IntfDecl.refs ++ l.body.refs := rfl
      rw [hr]
      simp only [List.append_eq, UnitTree.refs, Loader.tree, List.mem_append, h5] at hx ⊢
      tauto
  · unfold intfStep at e
    obtain ⟨r, s1, e1, e⟩ := ok_bind e
    cases e
    have ht := run_loader e1
    unfold Loader.tree at ht
    injection ht with h1 h2 h3 h4 h5
    refine ⟨⟨h4.trans i2, h5.trans i3⟩, fun x hx => ?_⟩
    simp only [dclUnit, Loader.tree, List.mem_cons, List.mem_append, List.cons_append, h1, h2, h4, h5, i1, List.flatMap_nil, List.not_mem_nil, or_false] at hx ⊢
    tauto

theorem implStep_fw (n : Nat) (l : Loader) (h : Fresh1 l) : Fw [] (refsLoader l) dclLoader refsLoader (implStep u n l) ∧
    ∀ s l' s', implStep u n l s = .ok l' s' → True ∧ ∀ x ∈ dclLoader l, x ∈ dclLoader l' := by
  obtain ⟨i2, i3⟩ := h
  refine ⟨fun L R s a s' hs e => ?_, fun s l' s' e => ?_⟩
  · unfold implStep at e
    obtain ⟨r, s1, e1, e⟩ := ok_bind e
    cases e
    have ht := run_loader e1
    unfold Loader.tree at ht
    injection ht with h1 h2 h3 h4 h5
    have := run (processImpl (u := u) l.cu l.head.no n) l L _ _ _ _ hs e1
    refine this.mono (fun x hx => ?_) (fun x hx => ?_)
    · simp only [dclUnit, Loader.tree, List.mem_cons, List.mem_append, List.cons_append] at hx ⊢
      tauto
    · have hr : refsLoader l = l.intf.flatMap IntfDecl.refs ++ l.body.refs := rfl
      rw [hr]
      simp only [List.append_eq, UnitTree.refs, Loader.tree, List.mem_append, h3] at hx ⊢
      tauto
  · unfold implStep at e
    obtain ⟨r, s1, e1, e⟩ := ok_bind e
    cases e
    have ht := run_loader e1
    unfold Loader.tree at ht
    injection ht with h1 h2 h3 h4 h5
    refine ⟨trivial, fun x hx => ?_⟩
    simp only [dclUnit, Loader.tree, List.mem_cons, List.mem_append, List.cons_append, h1, h2, h3, i2, i3, dclUses, List.map_nil, dclUnitBody, dclSections,
      Option.toList, List.flatMap_nil, List.not_mem_nil, or_false] at hx ⊢
    tauto

theorem enterP (cp : Nat) (i : Ident) (es : List UsesEntry) (hs : List UnitHead) {L : DL} {R : RL} {s s' : PS DS} {a : Unit} (h : Inn L R s.cx)
    (hi : Dcl.program i.name ∈ L) (he : ∀ e ∈ es, Dcl.uses e.ident.name e.no ∈ L) (e : TP.enterP u cp i es hs s = .ok a s') : Inn L R s'.cx := by
  unfold TP.enterP at e
  cases e1 : s.cx.usesMap u es hs [] with
  | none => rw [e1] at e; cases e
  | some km =>
    rw [e1] at e
    obtain ⟨h1, h2⟩ := h.usesMap he Led.nil e1
    cases e2 : km.1.enterProgram u cp i hs km.2 with
    | none => simp only [e2] at e; cases e
    | some c => simp only [e2] at e; cases e; exact h1.enterProgram h2 hi e2

theorem loadUnits (hlib : TopoCorrect lib) (hit : IterOK u it) (cp : Nat) (i : Ident) (es : List UsesEntry) (n : Nat) {L : DL} {R : RL} {s s' : PS DS}
    {ls : List Loader} (h : Inn L R s.cx) (hi : Dcl.program i.name ∈ L) (he : ∀ e ∈ es, Dcl.uses e.ident.name e.no ∈ L)
    (e : TP.loadUnits u sep files lib it cp i es n s = .ok ls s') (hd : DistinctUnits u (ls.map Loader.head)) :
    Inn (ls.flatMap dclLoader ++ L) (ls.flatMap refsLoader ++ R) s'.cx := by
  unfold TP.loadUnits at e
  obtain ⟨cs, s1, e1, e⟩ := ok_bind e
  obtain ⟨ls0, s2, e2, e⟩ := ok_bind e
  cases hsort : UnitParsers.sort u lib (it (uparsers ls0)) (uparsers ls0) with
  | none => rw [hsort] at e; cases e
  | some sorted =>
    rw [hsort] at e
    obtain ⟨ls1, s3, e3, e⟩ := ok_bind e
    obtain ⟨ls2, s4, e4, e⟩ := ok_bind e
    obtain ⟨_, s5, e5, e⟩ := ok_bind e
    cases e
    have k1 : ls1.map Loader.key = ls0.map Loader.key := by
      have := intfAll_wp (u := u) (files := files) (n := n) (P0 := fun _ => True) (P1 := fun _ => True) (fun _ _ _ _ => trivial) (sorted.map UParser.id) ls0 s2
        (.inr fun _ h => h) (fun _ _ _ _ => trivial) (fun _ _ _ _ => trivial)
      change wp _ _ _ _ _ at this
      unfold wp at this
      rw [e3] at this
      exact this.2.1
    have k2 : ls.map Loader.key = ls1.map Loader.key := by
      have := implAll_wp (u := u) (files := files) (n := n) (P0 := fun _ => True) (P1 := fun _ => True) (fun _ _ _ _ => trivial) (sorted.map UParser.id) ls1 s3
        (.inr fun _ h => h) (fun _ _ _ _ => trivial) (fun _ _ _ _ => trivial)
      change wp _ _ _ _ _ at this
      unfold wp at this
      rw [e4] at this
      exact this.2.1
    have hd0 : DistinctUnits u (ls0.map Loader.head) := by
      have : ls.map Loader.head = ls0.map Loader.head := by
        simpa [List.map_map, Function.comp_def, Loader.key] using congrArg (List.map fun k => k.2.1) (k2.trans k1)
      rw [← this]; exact hd
    have hu : ∀ l ∈ ls0, (l.uses.map fun e => u.toLower e.ident.name).Nodup := by
      have := loadAll_wp (u := u) (files := files) (cp := cp) (n := n) cs s1
      change wp _ _ _ _ _ at this
      unfold wp at this
      rw [e2] at this
      exact fun l hl => (this.2.2 l hl).2
    obtain ⟨hn, -⟩ := sorted_ids hlib hit hd0 hu hsort
    have f0 := loadAll_fresh cp n cs _ _ _ e2
    have h1 := newLoaders cp es L R _ _ _ h e1
    have h2 := loadAll cp n cs L R _ _ _ h1 e2
    obtain ⟨p1, p2⟩ := loop (P0 := Fresh0) (P1 := Fresh1) (lp := intfAll u n) (stp := intfStep u n) (fun ls => rfl) (fun i is ls l h => intfAll_step h)
      (fun i is ls h => by rw [intfAll, h]) (intfStep_fw n) (sorted.map UParser.id) ls0 hn (fun i _ l hl => f0 l (List.mem_of_getElem? hl)) (fun l hl => .inl (f0 l hl))
    have h3 := p1 L R _ _ _ h2 e3
    have f1 : ∀ l ∈ ls1, Fresh1 l := fun l hl => (p2 _ _ _ e3 l hl).elim (fun h => ⟨h.2.1, h.2.2⟩) id
    obtain ⟨p3, -⟩ := loop (P0 := Fresh1) (P1 := fun _ => True) (lp := implAll u n) (stp := implStep u n) (fun ls => rfl) (fun i is ls l h => implAll_step h)
      (fun i is ls h => by rw [implAll, h]) (implStep_fw n) (sorted.map UParser.id) ls1 hn (fun i _ l hl => f1 l (List.mem_of_getElem? hl)) (fun l hl => .inr trivial)
    have h4 := p3 L R _ _ _ h3 e4
    exact enterP cp i es _ h4 (List.mem_append_right _ hi) (fun e h => List.mem_append_right _ (he e h)) e5

theorem parseProgram (hlib : TopoCorrect lib) (hit : IterOK u it) (cp n : Nat) {s s' : PS DS} {t : ProgramTree (Decl Node)} (h : Inn [] [] s.cx)
    (e : TP.parseProgram u sep files lib it cp n s = .ok t s') (hd : DistinctUnits u (t.units.map UnitTree.head)) : Inn (dclProgram t) t.refs s'.cx := by
  unfold TP.parseProgram at e
  obtain ⟨_, s1, e1, e⟩ := ok_bind e
  obtain ⟨tk, s2, e2, e⟩ := ok_bind e
  obtain ⟨_, s3, e3, e⟩ := ok_bind e
  obtain ⟨_, s4, e4, e⟩ := ok_bind e
  obtain ⟨us, s5, e5, e⟩ := ok_bind e
  obtain ⟨b, s6, e6, e⟩ := ok_bind e
  obtain ⟨_, s7, e7, e⟩ := ok_bind e
  cases e
  have q : s4.cx = s.cx := by rw [quiet_next _ _ _ e4, quiet_nextIs _ _ _ _ e3, quiet_nextIs _ _ _ _ e2, quiet_current _ _ _ _ e1]
  rw [← q] at h
  have key : Inn (us.2.flatMap dclUnit ++ (dclUses us.1 ++ [.program (Ident.ofTok tk).name])) (us.2.flatMap UnitTree.refs) s5.cx := by
    unfold TP.parseProgramUses at e5
    obtain ⟨c, s8, e8, e5⟩ := ok_bind e5
    rw [← quiet_is _ _ _ _ e8] at h
    cases c with
    | false =>
      cases e5
      exact h.mono (fun _ h => by cases h) (fun _ h => by cases h)
    | true =>
      obtain ⟨es, s9, e9, e5⟩ := ok_bind (p := TP.parseUses u n) e5
      obtain ⟨_, s10, e10, e5⟩ := ok_bind e5
      obtain ⟨ls, s11, e11, e5⟩ := ok_bind e5
      cases e5
      have h1 := parseUses n [.program (Ident.ofTok tk).name] [] _ _ _ (h.mono (fun _ h => by cases h) (fun _ h => by cases h)) e9
      rw [← quiet_next _ _ _ e10] at h1
      have h2 := loadUnits hlib hit cp (Ident.ofTok tk) es n h1 (List.mem_append_right _ (List.mem_singleton.2 rfl))
        (fun e he => List.mem_append_left _ (List.mem_map.2 ⟨e, he, rfl⟩)) e11 (by simpa [List.map_map, Function.comp_def, Loader.tree] using hd)
      refine h2.mono (fun x hx => ?_) (fun x hx => ?_)
      · rw [List.flatMap_map]; exact hx
      · rw [List.flatMap_map] at hx; exact List.mem_append_left _ hx
  have := block n _ _ _ _ _ key e6
  rw [quiet_current _ _ _ _ e7]
  refine this.mono (fun x hx => ?_) (fun x hx => ?_)
  · simp only [List.append_eq, dclProgram, List.mem_append, List.mem_cons, List.cons_append, List.not_mem_nil, or_false] at hx ⊢
    tauto
  · simp only [List.append_eq, ProgramTree.refs, List.mem_append] at hx ⊢
    tauto

end Fw

end TP
