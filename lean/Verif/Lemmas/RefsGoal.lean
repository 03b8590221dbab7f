import Verif.Lemmas.Tidy

/-!
# The references in units and programs
-/

namespace TP
open Spec Maps

variable {u : Uni} {α β : Type}

/-- all references lead to declarations of these names -/
def Proper (u : Uni) (l : Refs (Decl Node)) : Prop := ∀ p ∈ l, Refers u p.1 p.2

theorem Proper.nil : Proper u [] := fun _ h => by cases h

theorem Proper.append {l l' : Refs (Decl Node)} (h : Proper u l) (h' : Proper u l') : Proper u (l ++ l') := fun p hp =>
  (List.mem_append.1 hp).elim (h p) (h' p)

theorem Proper.flat {l : List α} {f : α → Refs (Decl Node)} (h : ∀ a ∈ l, Proper u (f a)) : Proper u (l.flatMap f) := fun p hp => by
  obtain ⟨a, ha, hp⟩ := List.mem_flatMap.1 hp
  exact h a ha p hp

/-- from tidy contexts it leads to tidy contexts, with a result in `A` -/
def TD (u : Uni) (A : α → Prop) (p : P DS α) : Prop := ∀ s a s', Tidy u s.cx → p s = .ok a s' → A a ∧ Tidy u s'.cx

abbrev TD0 (u : Uni) (p : P DS α) : Prop := TD u (fun _ => True) p

namespace TD

theorem bind {A : α → Prop} {B : β → Prop} {p : P DS α} {f : α → P DS β} (h : TD u A p) (h' : ∀ a, A a → TD u B (f a)) :
    TD u B (p >>= f) := by
  intro s b s' hs e
  change P.bind p f s = _ at e
  unfold P.bind at e
  cases hp : p s with
  | ok a s1 =>
    rw [hp] at e
    obtain ⟨h1, h2⟩ := h s a s1 hs hp
    exact h' a h1 s1 b s' h2 e
  | _ => rw [hp] at e; cases e

theorem pure {A : α → Prop} {a : α} (h : A a) : TD u A (Pure.pure a) := fun _ _ _ hs e => by cases e; exact ⟨h, hs⟩
theorem fail {A : α → Prop} : TD u A P.fail := fun _ _ _ _ e => by cases e
theorem wait {A : α → Prop} : TD u A P.wait := fun _ _ _ _ e => by cases e
theorem panic {A : α → Prop} : TD u A P.panic := fun _ _ _ _ e => by cases e

theorem mono {A B : α → Prop} {p : P DS α} (h : TD u A p) (h' : ∀ a, A a → B a) : TD u B p := fun s a s' hs e =>
  ⟨h' a (h s a s' hs e).1, (h s a s' hs e).2⟩

theorem ite {A : α → Prop} {c : Prop} [Decidable c] {p q : P DS α} (h : TD u A p) (h' : TD u A q) : TD u A (if c then p else q) := by
  split
  · exact h
  · exact h'

/-- from the parser compared with itself -/
theorem self {A : α → α → Prop} {B : α → Prop} {p : P DS α} (h : PR u Eq markAll (mark u) False (Both u) A p p) (h' : ∀ a, A a a → B a) :
    TD u B p := fun s a s' hs e => ⟨h' a (h.out hs e).1, (h.out hs e).2⟩

theorem cur : TD0 u P.cur := self PR.cur fun _ _ => trivial
theorem cur? : TD0 u P.cur? := self PR.cur? fun _ _ => trivial
theorem next : TD0 u P.next := self PR.next fun _ _ => trivial
theorem is {pred : Pred} : TD0 u (P.is pred) := by
  unfold P.is
  exact cur.bind fun _ _ => pure trivial
theorem current {pred : Pred} : TD0 u (P.current pred) := by
  unfold P.current
  refine cur?.bind fun o _ => ?_
  cases o with
  | none => exact fail
  | some t => exact ite (pure trivial) fail
theorem nextIs {pred : Pred} : TD0 u (P.nextIs pred) := next.bind fun _ _ => current

theorem askP (f : DS → α) : TD0 u (TP.askP f) := fun _ _ _ hs e => by cases e; exact ⟨trivial, hs⟩

theorem stepP {f : DS → Option DS} (h : ∀ k k', Tidy u k → f k = some k' → Tidy u k') : TD0 u (TP.stepP f) := fun s _ _ hs e => by
  unfold TP.stepP at e
  cases hf : f s.cx with
  | some c => rw [hf] at e; cases e; exact ⟨trivial, h _ _ hs hf⟩
  | none => rw [hf] at e; cases e

theorem stepR {f : DS → SetR DS} (h : ∀ k k', Tidy u k → f k = .ok k' → Tidy u k') : TD0 u (TP.stepR f) := fun s _ _ hs e => by
  unfold TP.stepR at e
  cases hf : f s.cx with
  | ok c => rw [hf] at e; cases e; exact ⟨trivial, h _ _ hs hf⟩
  | err => rw [hf] at e; cases e
  | panic => rw [hf] at e; cases e

theorem step {f : DS → DS} (h : ∀ k, Tidy u k → Tidy u (f k)) : TD0 u (TP.stepR fun k => .ok (f k)) :=
  stepR fun k k' hk e => by cases e; exact h k hk

end TD

/-! ## Operations on the context -/

namespace Tidy
variable {k : DS}

theorem newMap (h : Tidy u k) {o : MapObj Node} (ho : TidyT u (objTbl o)) : Tidy u { k with w := (k.w.newMap o).1 } := TidyM.cons h ho

theorem setUnitDm (h : Tidy u k) (i : Nat) (d : Option Nat) : Tidy u { k with w := k.w.setUnitDm i d } := h.same (setUnitDm_eqs k.w i d).1

theorem setUses (h : Tidy u k) {i : Ident} {k' : DS} (e : k.setUses u i = .ok k') : Tidy u k' :=
  h.setW (k1 := { k with items := k.items ++ [none] }) e

theorem setUnit (h : Tidy u k) {cu : Nat} {hd : UnitHead} {k' : DS} (e : k.setUnit u cu hd = .ok k') : Tidy u k' := h.setW e

theorem newUnit (h : Tidy u k) (i : Ident) : Tidy u (k.newUnit i) := h.same rfl

theorem addUnit (h : Tidy u k) (cp n : Nat) : Tidy u (k.addUnit cp n) := h.same rfl

theorem stackAt (h : Tidy u k) (cu : Nat) : Tidy u (k.stackAt cu) := by
  unfold DS.stackAt World.stack
  split
  · rename_i w c e
    split at e
    · cases e
    · cases e
      exact TidyM.cons h tidy_nil
  · exact h

theorem assignUnits {cu : Nat} : ∀ {es : List UsesEntry} {k : DS}, Tidy u k → Tidy u (k.assignUnits u cu es)
  | [], _, h => h
  | e :: es, k, h => by
    unfold DS.assignUnits
    split
    · exact assignUnits (h.same rfl)
    · exact assignUnits h

theorem importUnits (h : Tidy u k) {cu : Nat} {es : List UsesEntry} {k' : DS} (e : k.importUnits u cu es = some k') : Tidy u k' := by
  unfold DS.importUnits at e
  simp only at e
  split at e
  · cases e
    have h1 := (h.assignUnits (cu := cu) (es := es)).newMap (o := .impl []) tidy_nil
    rename_i d ms _ _
    have h2 := h1.newMap (o := .composite ((k.assignUnits u cu es).w.maps.length :: ms ++ [d])) tidy_nil
    exact h2.same rfl
  · cases e

theorem openImpl (h : Tidy u k) {cu unit : Nat} {es : List UsesEntry} {r : DS × Nat} (e : k.openImpl u cu unit es = some r) : Tidy u r.1 := by
  unfold DS.openImpl at e
  simp only at e
  split at e
  · cases e
    rename_i ctxMap unitMap ms _ _ _
    have h1 := (h.assignUnits (cu := cu) (es := es)).newMap (o := .impl []) tidy_nil
    have h2 := h1.newMap (o := .composite [(k.assignUnits u cu es).w.maps.length, unitMap]) tidy_nil
    have h3 := h2.setUnitDm unit (some ((k.assignUnits u cu es).w.maps.length + 1))
    have h4 := h3.newMap (o := .composite ((k.assignUnits u cu es).w.maps.length :: ctxMap :: ms)) tidy_nil
    exact h4.same rfl
  · cases e

theorem newUnitContext (h : Tidy u k) (cp : Nat) (path : Str) : Tidy u (k.newUnitContext cp path).1 :=
  (h.newMap (o := .chained 0 []) tidy_nil).same rfl

theorem usesMap {es : List UsesEntry} : ∀ {hs : List UnitHead} {k : DS} {m : Tbl Node} {r : DS × Tbl Node}, Tidy u k →
    TidyT u m → k.usesMap u es hs m = some r → Tidy u r.1 ∧ TidyT u r.2
  | [], k, m, r, h, hm, e => by cases e; exact ⟨h, hm⟩
  | x :: hs, k, m, r, h, hm, e => by
    unfold DS.usesMap at e
    split at e
    · cases e
    · rename_i en _
      exact usesMap (k := { k with items := k.items.set en.no (some x.no) }) (h.same rfl) (hm.set _) e

theorem enterProgram (h : Tidy u k) {cp : Nat} {i : Ident} {hs : List UnitHead} {m : Tbl Node} (hm : TidyT u m) {k' : DS}
    (e : k.enterProgram u cp i hs m = some k') : Tidy u k' := by
  unfold DS.enterProgram at e
  split at e
  · cases e
    rename_i d ms _ _
    have h1 := h.newMap (o := .impl m) hm
    have h2 := h1.newMap (o := .impl (Tbl.set u [] [⟨i.name, Node.program⟩]).1) (tidy_nil.set _)
    have h3 := h2.newMap (o := .composite ((k.w.maps.length + 1) :: k.w.maps.length :: ms ++ [d])) tidy_nil
    exact h3.same rfl
  · cases e

theorem finishIntf (h : Tidy u k) (unit : Nat) (ds : List (IntfDecl (Decl Node))) : Tidy u (k.finishIntf u unit ds) := by
  have key : TidyT u (objTbl (.impl (World.intfTable u (ds.flatMap DS.declNodes) []))) := by
    intro p hp
    rcases intfTable_mem u _ [] p hp with hp | ⟨-, hk⟩
    · cases hp
    · exact hk
  exact (h.newMap key).setUnitDm unit (some k.w.maps.length)

end Tidy

theorem tidy_init (path : Str) : Tidy u (DS.init path) := by
  intro j p hp
  match j with
  | 0 => cases hp
  | 1 => cases hp
  | j + 2 => cases hp

/-! ## What is below units and programs -/

namespace TD

theorem expr (n : Nat) : TD u (fun e => Proper u e.refs) (parseExpr u (declEnv u).toEnv n) :=
  self (exprR (selfSim u).toESim (Nat.le_refl n)).expr fun _ h => marked (fun _ => Expr.refs_tr _) (congrArg Expr.refs h)

theorem type (n : Nat) : TD u (fun e => Proper u e.refs) (parseType u (declEnv u) n) :=
  self (typeR (selfSim u) (Nat.le_refl n)).type fun _ h => marked (fun _ => PType.refs_tr _) (congrArg PType.refs h)

theorem stmts (p : Pred) [Resp u Eq markAll (mark u) p] (n : Nat) :
    TD u (fun e => Proper u (e.refs PType.refs)) (parseStmts u ((declEnv u).senv u) p n) :=
  self ((stmtR (DSim.ssim (w := False) (selfSim u)) (Nat.le_refl n)).stmts p) fun _ h =>
    marked (fun _ => Stmts.refs_tr PType.refs_tr _) (congrArg (Stmts.refs PType.refs) h)

theorem block (n : Nat) : TD u (fun b => Proper u b.refs) (parseBlock u (declEnv u) n) :=
  self (blockR (selfSim u) (Nat.le_refl n)).block fun _ h => marked (fun _ => Block.refs_tr _) (congrArg Block.refs h)

theorem declSects (n : Nat) : TD u (fun b => Proper u b.refs) (parseDeclSects u (declEnv u) n) :=
  self (blockR (selfSim u) (Nat.le_refl n)).sects fun _ h => marked (fun _ => DeclSects.refs_tr _) (congrArg DeclSects.refs h)

theorem exports (n : Nat) : TD u (fun e => Proper u (e.flatMap fun is => is.flatMap ExportsItem.refs)) (parseExports u (declEnv u) n) :=
  self (PR.parseExports (selfSim u) (Nat.le_refl n)) fun _ h =>
    marked (fun _ => refs_list (refs_list ExportsItem.refs_tr) _) (congrArg (fun e => e.flatMap fun is => is.flatMap ExportsItem.refs) h)

theorem consts (n : Nat) : TD u (fun e => Proper u (e.flatMap ConstDecl.refs)) (parseConstDecls u (declEnv u) n) :=
  self (PR.parseConstDecls (selfSim u) (Nat.le_refl n)) fun _ h =>
    marked (fun _ => refs_list ConstDecl.refs_tr _) (congrArg (fun e => e.flatMap ConstDecl.refs) h)

theorem vars (n : Nat) : TD u (fun e => Proper u (e.flatMap VarDecl.refs)) (parseVarDecls u (declEnv u) n) :=
  self (PR.parseVarDecls (selfSim u) (Nat.le_refl n)) fun _ h =>
    marked (fun _ => refs_list VarDecl.refs_tr _) (congrArg (fun e => e.flatMap VarDecl.refs) h)

theorem threadVars (n : Nat) : TD u (fun e => Proper u (e.flatMap ThreadVarDecl.refs)) (parseThreadVarDecls u (declEnv u) n) :=
  self (PR.parseThreadVarDecls (selfSim u) (Nat.le_refl n)) fun _ h =>
    marked (fun _ => refs_list ThreadVarDecl.refs_tr _) (congrArg (fun e => e.flatMap ThreadVarDecl.refs) h)

theorem types (n : Nat) : TD u (fun e => Proper u (e.flatMap TypeDecl.refs)) (parseTypeSection u (declEnv u) n) :=
  self (PR.parseTypeSection (selfSim u) (Nat.le_refl n)) fun _ h =>
    marked (fun _ => refs_list TypeDecl.refs_tr _) (congrArg (fun e => e.flatMap TypeDecl.refs) h)

theorem heading (n : Nat) : TD u (fun h => Proper u h.1.refs) (parseExportedHeading u (declEnv u) n) :=
  self (PR.parseExportedHeading (selfSim u) (Nat.le_refl n)) fun _ h => marked (fun _ => Heading.refs_tr _) (congrArg Heading.refs h.1)

/-! ## Units -/

theorem optSemi : TD0 u (TP.optSemi : P DS Unit) := self PR.optSemi fun _ _ => trivial
theorem stringFactor : TD0 u (TP.stringFactor u : P DS Str) := self PR.stringFactor fun _ _ => trivial

theorem parseUsesItem : TD0 u (TP.parseUsesItem u) := by
  unfold TP.parseUsesItem
  exact current.bind fun _ _ => next.bind fun _ _ => is.bind fun _ _ =>
    ite (next.bind fun _ _ => stringFactor.bind fun _ _ => pure trivial) (pure trivial)

theorem parseUsesItems : ∀ n, TD0 u (TP.parseUsesItems u n)
  | 0 => wait
  | n + 1 => by
    unfold TP.parseUsesItems
    refine parseUsesItem.bind fun _ _ => cur?.bind fun o _ => ?_
    cases o with
    | none => exact fail
    | some t => exact ite (pure trivial) (ite (next.bind fun _ _ => (parseUsesItems n).bind fun _ _ => pure trivial) fail)

theorem declareUses : ∀ l, TD0 u (TP.declareUses u l)
  | [] => pure trivial
  | (i, p) :: l => by
    unfold TP.declareUses
    exact (askP _).bind fun _ _ => (stepR fun k k' h e => h.setUses e).bind fun _ _ => (declareUses l).bind fun _ _ => pure trivial

theorem parseUses (n : Nat) : TD0 u (TP.parseUses u n) := by
  unfold TP.parseUses
  exact current.bind fun _ _ => next.bind fun _ _ => (parseUsesItems n).bind fun _ _ => declareUses _

theorem parseOptUses (n : Nat) : TD0 u (TP.parseOptUses u n) := by
  unfold TP.parseOptUses
  exact is.bind fun _ _ => ite ((parseUses n).bind fun _ _ => next.bind fun _ _ => pure trivial) (pure trivial)

theorem parseUnitIdent : TD0 u (TP.parseUnitIdent u) := by
  unfold TP.parseUnitIdent
  refine current.bind fun _ _ => nextIs.bind fun _ _ => (askP _).bind fun _ _ => (step fun k h => h.newUnit _).bind fun _ _ => next.bind fun _ _ => ?_
  refine bind (A := fun _ => True) (cur.bind fun _ _ => ite (next.bind fun _ _ => pure trivial) (pure trivial)) fun _ _ => ?_
  exact is.bind fun _ _ => ite (next.bind fun _ _ => pure trivial) (pure trivial)

theorem parseIdentAndUses (n : Nat) : TD0 u (TP.parseIdentAndUses u n) := by
  unfold TP.parseIdentAndUses TP.parseIntfUses
  exact parseUnitIdent.bind fun _ _ => bind (current.bind fun _ _ => next.bind fun _ _ => parseOptUses n) fun _ _ => pure trivial

theorem parseIntfDecl (n : Nat) (t : Token) : TD u (fun o => Proper u (o.toList.flatMap IntfDecl.refs)) (TP.parseIntfDecl u n t) := by
  have one : ∀ {d : IntfDecl (Decl Node)}, Proper u d.refs → Proper u ((some d).toList.flatMap IntfDecl.refs) := by
    intro d h
    simpa using h
  unfold TP.parseIntfDecl
  refine ite ?_ (ite ?_ (ite ?_ (ite ?_ (ite ?_ (pure .nil)))))
  · exact (askP _).bind fun _ _ => (types n).bind fun _ h => pure (one h)
  · exact next.bind fun _ _ => (vars n).bind fun _ h => pure (one h)
  · exact next.bind fun _ _ => (threadVars n).bind fun _ h => pure (one h)
  · exact next.bind fun _ _ => (consts n).bind fun _ h => pure (one h)
  · exact (heading n).bind fun _ h => pure (one h)

theorem parseIntfDecls : ∀ n, TD u (fun ds => Proper u (ds.flatMap IntfDecl.refs)) (TP.parseIntfDecls u n)
  | 0 => wait
  | n + 1 => by
    unfold TP.parseIntfDecls
    refine cur.bind fun t _ => ite (pure .nil) (ite fail ((parseIntfDecl n t).bind fun o h => ?_))
    cases o with
    | none => exact pure .nil
    | some d => exact (parseIntfDecls n).bind fun rest h' => pure (Proper.append (by simpa using h) h')

theorem parseIntfBody (unit n : Nat) : TD u (fun ds => Proper u (ds.flatMap IntfDecl.refs)) (TP.parseIntfBody u unit n) := by
  unfold TP.parseIntfBody
  exact (parseIntfDecls n).bind fun ds h => (step fun k hk => hk.finishIntf unit ds).bind fun _ _ => pure h

theorem parseImplUses (cu n : Nat) : TD0 u (TP.parseImplUses u cu n) := by
  unfold TP.parseImplUses
  exact current.bind fun _ _ => next.bind fun _ _ => (step fun k h => h.stackAt cu).bind fun _ _ => parseOptUses n

theorem parseInit (n : Nat) : TD u (fun i => Proper u i.refs) (TP.parseInit u n) := by
  unfold TP.parseInit
  refine current.bind fun _ _ => next.bind fun _ _ => (stmts _ n).bind fun ini h => is.bind fun _ _ => ite ?_ (pure (h.append .nil))
  exact next.bind fun _ _ => (stmts _ n).bind fun fin h' => pure (h.append (by simpa using h'))

theorem parseImplAndEnd (n : Nat) : TD u (fun b => Proper u b.refs) (TP.parseImplAndEnd u n) := by
  unfold TP.parseImplAndEnd TP.parseImplBody TP.parseUnitEnd
  refine bind (A := fun b => Proper u b.1.refs ∧ Proper u (b.2.flatMap fun is => is.flatMap ExportsItem.refs)) ?_ fun b hb => ?_
  · exact (declSects n).bind fun ds h => (exports n).bind fun ex h' => optSemi.bind fun _ _ => pure ⟨h, h'⟩
  refine bind (A := fun i => Proper u (i.toList.flatMap InitSection.refs)) ?_ fun i hi => pure ((hb.1.append hb.2).append hi)
  refine bind (A := fun i => Proper u (i.toList.flatMap InitSection.refs)) ?_ fun i hi => current.bind fun _ _ => nextIs.bind fun _ _ => pure hi
  exact is.bind fun _ _ => ite ((parseInit n).bind fun i h => pure (by simpa using h)) (pure .nil)

theorem parseUnit (cu n : Nat) : TD u (fun o => ∀ t, o = some t → Proper u t.refs) (TP.parseUnit u cu n) := by
  unfold TP.parseUnit
  refine (parseIdentAndUses n).bind fun hd _ => (parseIntfBody _ n).bind fun ds h => (parseImplUses cu n).bind fun es _ =>
    (parseImplAndEnd n).bind fun b h' => pure ?_
  intro t ht
  split at ht
  · cases ht; exact h.append h'
  · cases ht

theorem processIntf (cu : Nat) (hd : UnitHead) (es : List UsesEntry) (n : Nat) :
    TD u (fun ds => Proper u (ds.flatMap IntfDecl.refs)) (TP.processIntf u cu hd es n) := by
  unfold TP.processIntf
  exact (stepP fun k k' h e => h.importUnits e).bind fun _ _ => (stepR fun k k' h e => h.setUnit e).bind fun _ _ => parseIntfBody _ n

theorem inImpl {A : α → Prop} {p : P DS α} (h : TD u A p) (cu unit : Nat) (es : List UsesEntry) : TD u A (TP.inImpl u cu unit es p) := by
  intro s a s' hs e
  unfold TP.inImpl at e
  cases ho : s.cx.openImpl u cu unit es with
  | none => rw [ho] at e; cases e
  | some km =>
    obtain ⟨k, um⟩ := km
    rw [ho] at e
    simp only at e
    cases hp : p { s with cx := k } <;> rw [hp] at e <;> simp only [R.ok.injEq, reduceCtorEq] at e
    obtain ⟨rfl, rfl⟩ := e
    obtain ⟨h1, h2⟩ := h _ _ _ (hs.openImpl ho) hp
    exact ⟨h1, h2.setUnitDm _ _⟩

theorem processImpl (cu unit n : Nat) : TD u (fun r => Proper u r.2.refs) (TP.processImpl u cu unit n) := by
  unfold TP.processImpl
  exact (parseImplUses cu n).bind fun es _ => (inImpl (parseImplAndEnd n) cu unit es).bind fun b h => pure h

/-! ## Programs -/

theorem run {A : α → Prop} {p : P DS α} (h : TD u A p) (l : Loader) :
    TD u (fun r => A r.1 ∧ r.2.intf = l.intf ∧ r.2.body = l.body) (l.run p) := by
  intro s a s' hs e
  unfold Loader.run at e
  cases hp : p ⟨l.ts, l.tail, { s.cx with cur := l.cur, pending := l.pending }⟩ <;> rw [hp] at e <;> simp only [R.ok.injEq, reduceCtorEq] at e
  obtain ⟨rfl, rfl⟩ := e
  obtain ⟨h1, h2⟩ := h ⟨l.ts, l.tail, { s.cx with cur := l.cur, pending := l.pending }⟩ _ _ (hs.same rfl) hp
  exact ⟨⟨h1, rfl, rfl⟩, h2.same rfl⟩

variable {sep : Char} {files : Str → FileR} {lib : TopoLib} {it : List UParser → List Str}

theorem newLoaders (cp : Nat) : ∀ es, TD0 u (TP.newLoaders sep cp es)
  | [] => pure trivial
  | e :: es => by
    unfold TP.newLoaders
    exact ite (newLoaders cp es) ((askP _).bind fun _ _ => (step fun k h => h.newUnitContext cp _).bind fun _ _ => (newLoaders cp es).bind fun _ _ => pure trivial)

/-- the parts parsed so far -/
abbrev LoaderOK (u : Uni) (l : Loader) : Prop := Proper u l.tree.refs

theorem loadUnit (n : Nat) (path : Str) (c : Nat) : TD u (LoaderOK u) (TP.loadUnit u files n path c) := by
  unfold TP.loadUnit
  split
  · exact fail
  · exact fail
  · refine (run (cur?.bind fun _ _ => parseIdentAndUses n) _).bind fun r hr => pure ?_
    show Proper u (r.2.intf.flatMap IntfDecl.refs ++ r.2.body.refs)
    rw [hr.2.1, hr.2.2]
    exact .nil

theorem loadAll (cp n : Nat) : ∀ cs, TD u (fun ls => ∀ l ∈ ls, LoaderOK u l) (TP.loadAll u files cp n cs)
  | [] => pure fun _ h => by cases h
  | (p, c) :: cs => by
    unfold TP.loadAll
    refine (loadUnit n p c).bind fun l h => (step fun k h => h.addUnit cp _).bind fun _ _ => (loadAll cp n cs).bind fun ls h' => pure ?_
    intro x hx
    rcases List.mem_cons.1 hx with rfl | hx
    · exact h
    · exact h' x hx

theorem set_ok {ls : List Loader} (h : ∀ l ∈ ls, LoaderOK u l) {i : Nat} {l : Loader} (hl : LoaderOK u l) : ∀ x ∈ ls.set i l, LoaderOK u x := by
  intro x hx
  rcases List.mem_or_eq_of_mem_set hx with hx | rfl
  · exact h x hx
  · exact hl

theorem parts {l : Loader} (h : LoaderOK u l) : Proper u (l.intf.flatMap IntfDecl.refs) ∧ Proper u l.body.refs :=
  ⟨fun p hp => h p (List.mem_append_left _ hp), fun p hp => h p (List.mem_append_right _ hp)⟩

theorem intfAll (n : Nat) : ∀ is ls, (∀ l ∈ ls, LoaderOK u l) → TD u (fun ls => ∀ l ∈ ls, LoaderOK u l) (TP.intfAll u n is ls)
  | [], _, h => pure h
  | i :: is, ls, h => by
    unfold TP.intfAll
    split
    · exact intfAll n is ls h
    · rename_i l hl
      refine (run (processIntf l.cu l.head l.uses n) l).bind fun r hr => intfAll n is _ (set_ok h ?_)
      refine Proper.append hr.1 ?_
      show Proper u r.2.body.refs
      rw [hr.2.2]
      exact (parts (h l (List.mem_of_getElem? hl))).2

theorem implAll (n : Nat) : ∀ is ls, (∀ l ∈ ls, LoaderOK u l) → TD u (fun ls => ∀ l ∈ ls, LoaderOK u l) (TP.implAll u n is ls)
  | [], _, h => pure h
  | i :: is, ls, h => by
    unfold TP.implAll
    split
    · exact implAll n is ls h
    · rename_i l hl
      refine (run (processImpl l.cu l.head.no n) l).bind fun r hr => implAll n is _ (set_ok h ?_)
      refine Proper.append ?_ hr.1
      show Proper u (r.2.intf.flatMap IntfDecl.refs)
      rw [hr.2.1]
      exact (parts (h l (List.mem_of_getElem? hl))).1

theorem enterP (cp : Nat) (i : Ident) (es : List UsesEntry) (hs : List UnitHead) : TD0 u (TP.enterP u cp i es hs) := by
  intro s a s' h e
  unfold TP.enterP at e
  cases e1 : s.cx.usesMap u es hs [] with
  | none => rw [e1] at e; cases e
  | some km =>
    rw [e1] at e
    obtain ⟨h1, h2⟩ := h.usesMap tidy_nil e1
    cases e2 : km.1.enterProgram u cp i hs km.2 with
    | none => simp only [e2] at e; cases e
    | some c => simp only [e2] at e; cases e; exact ⟨trivial, h1.enterProgram h2 e2⟩

theorem loadUnits (cp : Nat) (i : Ident) (es : List UsesEntry) (n : Nat) :
    TD u (fun ls => ∀ l ∈ ls, LoaderOK u l) (TP.loadUnits u sep files lib it cp i es n) := by
  unfold TP.loadUnits
  refine (newLoaders cp es).bind fun cs _ => (loadAll cp n cs).bind fun ls h => ?_
  split
  · exact fail
  · exact (intfAll n _ ls h).bind fun ls1 h1 => (implAll n _ ls1 h1).bind fun ls2 h2 => (enterP cp i es _).bind fun _ _ => pure h2

theorem parseProgram (cp n : Nat) : TD u (fun t => Proper u t.refs) (TP.parseProgram u sep files lib it cp n) := by
  unfold TP.parseProgram TP.parseProgramUses
  refine current.bind fun _ _ => nextIs.bind fun t _ => nextIs.bind fun _ _ => next.bind fun _ _ => ?_
  refine bind (A := fun us => Proper u (us.2.flatMap UnitTree.refs)) ?_ fun us hu => (block n).bind fun b hb => current.bind fun _ _ =>
    pure (hu.append hb)
  refine is.bind fun _ _ => ite ((parseUses n).bind fun es _ => next.bind fun _ _ => (loadUnits cp _ es n).bind fun ls h => pure ?_) (pure .nil)
  refine .flat fun t ht => ?_
  obtain ⟨l, hl, rfl⟩ := List.mem_map.1 ht
  exact h l hl

end TD

end TP
