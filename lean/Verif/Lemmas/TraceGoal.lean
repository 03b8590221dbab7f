import Verif.Lemmas.TraceBlock
import Verif.Lemmas.RefsGoal

/-!
# References that are set at the end of a type section

While a program is parsed, the references of a type section are set when it ends, and never again.
-/

namespace TP
open Spec

variable {u : Uni}

/-- references stay what they are -/
def KeepsRefs (a b : DS) : Prop := ∀ (i : Nat) (r : Option (Decl Node)), a.refs[i]? = some r → b.refs[i]? = some r

/-- the reference of a type identifier to be set later is to a declaration of its name, if it has been set -/
def LaterOK (u : Uni) (k : DS) (t : TypeId (Decl Node)) : Prop :=
  ∀ i, t.ref = .later i → ∃ r, k.refs[i]? = some r ∧ ∀ d, r = some d → Refers u t.ident d

theorem KeepsRefs.refl (k : DS) : KeepsRefs k k := fun _ _ h => h
theorem KeepsRefs.trans {a b c : DS} (h : KeepsRefs a b) (h' : KeepsRefs b c) : KeepsRefs a c := fun i r e => h' i r (h i r e)
theorem KeepsRefs.same {a b : DS} (h : b.refs = a.refs) : KeepsRefs a b := fun i r e => by rw [h]; exact e

theorem LaterOK.up {a b : DS} {t : TypeId (Decl Node)} (h : KeepsRefs a b) (v : LaterOK u a t) : LaterOK u b t := fun i hi => by
  obtain ⟨r, h1, h2⟩ := v i hi
  exact ⟨r, h i r h1, h2⟩

theorem KeepsRefs.newRef (k : DS) (name : Str) : KeepsRefs k (k.newRef name).1 := fun i r h => by
  show (k.refs ++ [none])[i]? = some r
  rw [List.getElem?_append_left (List.getElem?_eq_some_iff.1 h).1]
  exact h

/-- Something about the types and the references set later that stays true. -/
structure Steady (u : Uni) (J : DS → Prop) : Prop where
  same : ∀ {a b : DS}, b.refs = a.refs → b.types = a.types → J a → J b
  newRef : ∀ {k : DS} (name : Str), J k → J (k.newRef name).1
  sect : ∀ {n : Nat} {s s' : PS DS} {ds : List (TypeDecl (Decl Node))}, Tidy u s.cx → J s.cx → parseTypeSection u (declEnv u) n s = .ok ds s' → J s'.cx

/-- nothing more -/
theorem Steady.none (u : Uni) : Steady u (fun _ => True) := ⟨fun _ _ h => h, fun _ h => h, fun _ h _ => h⟩

variable {J : DS → Prop}

theorem laterBase (S : Steady u J) : TrBase u (declEnv u) (fun k => Tidy u k ∧ J k) KeepsRefs (LaterOK u) where
  refl := KeepsRefs.refl
  trans := KeepsRefs.trans
  up := LaterOK.up
  roll h := ⟨⟨h.1.rollback, S.same (rollback_refs _).1 (rollback_types _) h.2⟩, .same (rollback_refs _).1⟩
  set hk h e := ⟨⟨h.1.set e, S.same (set_refs e).1 (set_types (by rcases hk with rfl | rfl <;> exact fun _ h => by cases h) e) h.2⟩,
    .same (set_refs e).1⟩
  newRef {c t} h _ := ⟨⟨h.1.same rfl, S.newRef _ h.2⟩, KeepsRefs.newRef c t.raw, fun i hi => by
    cases hi
    exact ⟨none, by show (c.refs ++ [none])[c.refs.length]? = _; simp, fun d hd => by cases hd⟩⟩
  now _ _ := fun i hi => by cases hi
  emb _ _ := fun i hi => by cases hi
  qual _ := fun i hi => by cases hi
  stack {c} h := ⟨⟨h.1.stack, S.same (stack_refs _).1 (stack_types _) h.2⟩, fun t => LaterOK.up (.same (stack_refs _).1)⟩
  restore {c c'} _ h' g := ⟨⟨h'.1.restore c, S.same (restore_refs _ _).1 (restore_types _ _) h'.2⟩, fun i r e => by
    change (c.restore c').refs[i]? = _
    rw [(restore_refs _ _).1]
    exact g i r (by change c.stack.refs[i]? = _; rw [(stack_refs c).1]; exact e), fun t => LaterOK.up (.same (restore_refs _ _).1)⟩

/-! ## Type sections -/

/-- the references of a section are new -/
theorem occurs_new {k0 k : DS} (h0 : k0.pending = []) (h : Occurs u k0 k) : KeepsRefs k0 k ∧ ∀ p ∈ k.pending, k0.refs[p.1]? = none := by
  have same : ∀ {k k' : DS}, k'.refs = k.refs ∧ k'.pending = k.pending → (KeepsRefs k0 k ∧ ∀ p ∈ k.pending, k0.refs[p.1]? = none) →
      KeepsRefs k0 k' ∧ ∀ p ∈ k'.pending, k0.refs[p.1]? = none := fun e h => ⟨h.1.trans (.same e.1), by rw [e.2]; exact h.2⟩
  induction h with
  | start => exact ⟨KeepsRefs.refl _, fun p hp => by rw [h0] at hp; cases hp⟩
  | rollback _ ih => exact same (rollback_refs _) ih
  | set _ e ih => exact same (set_refs e) ih
  | complete _ e ih => exact same (complete_refs e) ih
  | @newRef k name _ _ ih =>
    refine ⟨ih.1.trans (KeepsRefs.newRef k name), fun p hp => ?_⟩
    rcases List.mem_append.1 (show p ∈ k.pending ++ [(k.refs.length, name)] from hp) with hp | hp
    · exact ih.2 p hp
    · rw [List.mem_singleton.1 hp]
      by_contra hc
      obtain ⟨r, hr⟩ := Option.ne_none_iff_exists'.1 hc
      have := (List.getElem?_eq_some_iff.1 (ih.1 _ _ hr)).1
      exact Nat.lt_irrefl _ this
  | stack _ ih => exact same (stack_refs _) ih
  | restore _ _ _ ih => exact same (restore_refs _ _) ih

theorem typeSection_later (S : Steady u J) (n : Nat) : Tr (fun k => Tidy u k ∧ J k) KeepsRefs (LaterOK u) [] (parseTypeSection u (declEnv u) n) idsDecls := by
  intro s hi _ ds s' e
  have ht := (TD.types n s ds s' hi.1 e).2
  have hj := S.sect hi.1 hi.2 e
  obtain ⟨k, h1, h2, h3⟩ := typeSection_ok e
  obtain ⟨hk, hn⟩ := occurs_new rfl h1
  have hp : Pend k := occurs_pend ⟨fun i m h => (by cases h), fun i m m' h => (by cases h)⟩ h1
  have hr : s'.cx.refs = (k.runSection u).refs := by rw [h3]
  refine ⟨⟨ht, hj⟩, fun i r hir => ?_, fun t hm i hti => ?_⟩
  · rw [hr]
    unfold DS.runSection
    rw [runRefs_other u k.pending i k fun p hpp hpi => ?_]
    · exact hk i r hir
    · have := hn p hpp
      rw [hpi] at this
      exact Option.some_ne_none r (hir.symm.trans this)
  · rcases h2 t hm with ⟨-, h⟩ | ⟨_, _, _, _, h⟩ | ⟨_, _, _, _, _, h⟩ | ⟨_, j, _, _, h, hj⟩
    · rw [hti] at h; cases h
    · rw [hti] at h; cases h
    · rw [hti] at h; cases h
    · rw [hti] at h
      cases h
      have hl : ∃ r, s'.cx.refs[i]? = some r := by
        have h4 : i < (k.runSection u).refs.length := by
          have : ∀ (l : List (Nat × Str)) (k : DS), (l.foldl (DS.runRef u) k).refs.length = k.refs.length := by
            intro l
            induction l with
            | nil => exact fun _ => rfl
            | cons r l ih => intro k; rw [List.foldl_cons, ih, runRef_length]
          unfold DS.runSection
          rw [this]
          exact (List.getElem?_eq_some_iff.1 (hp.new _ _ hj)).1
        rw [hr]
        exact ⟨_, List.getElem?_eq_getElem h4⟩
      obtain ⟨r, hrr⟩ := hl
      refine ⟨r, hrr, fun d hd => ?_⟩
      have hg := resolved (u := u) hp hj
      rw [← hr, hrr, hd] at hg
      refine ht.get (name := t.ident.name) ?_
      rw [h3]
      exact hg.symm

theorem laterDecl (S : Steady u J) : TrDecl u (declEnv u) (fun k => Tidy u k ∧ J k) KeepsRefs (LaterOK u) where
  toTrBase := laterBase S
  setAll hk h e := ⟨⟨h.1.set e, S.same (set_refs e).1 (set_types hk e) h.2⟩, .same (set_refs e).1⟩
  sect := typeSection_later S

/-! ## Units -/

/-- what happens to the references set later, and what they are in the result -/
abbrev Lat (u : Uni) (J : DS → Prop) {α : Type} (hs : List (TypeId (Decl Node))) (p : P DS α) (f : α → List (TypeId (Decl Node))) : Prop :=
  Tr (fun k => Tidy u k ∧ J k) KeepsRefs (LaterOK u) hs p f

/-- the references and the types are the same -/
def SameRT (k k' : DS) : Prop := k'.refs = k.refs ∧ k'.types = k.types

theorem SameRT.trans {a b c : DS} (h : SameRT a b) (h' : SameRT b c) : SameRT a c := ⟨h'.1.trans h.1, h'.2.trans h.2⟩

namespace Lat
variable {α : Type} {hs : List (TypeId (Decl Node))}

theorem stepP (S : Steady u J) {f : DS → Option DS} (h : ∀ k k', Tidy u k → f k = some k' → Tidy u k' ∧ SameRT k k') :
    Lat u J hs (TP.stepP f) (fun _ => []) := by
  intro s hi _ a s' e
  unfold TP.stepP at e
  cases hf : f s.cx with
  | some c =>
    rw [hf] at e; cases e
    obtain ⟨h1, h2⟩ := h _ _ hi.1 hf
    exact ⟨⟨h1, S.same h2.1 h2.2 hi.2⟩, .same h2.1, fun _ h => by cases h⟩
  | none => rw [hf] at e; cases e

theorem stepR (S : Steady u J) {f : DS → SetR DS} (h : ∀ k k', Tidy u k → f k = .ok k' → Tidy u k' ∧ SameRT k k') :
    Lat u J hs (TP.stepR f) (fun _ => []) := by
  intro s hi _ a s' e
  unfold TP.stepR at e
  cases hf : f s.cx with
  | ok c =>
    rw [hf] at e; cases e
    obtain ⟨h1, h2⟩ := h _ _ hi.1 hf
    exact ⟨⟨h1, S.same h2.1 h2.2 hi.2⟩, .same h2.1, fun _ h => by cases h⟩
  | err => rw [hf] at e; cases e
  | panic => rw [hf] at e; cases e

theorem step (S : Steady u J) {f : DS → DS} (h : ∀ k, Tidy u k → Tidy u (f k)) (h' : ∀ k, SameRT k (f k)) :
    Lat u J hs (TP.stepR fun k => .ok (f k)) (fun _ => []) :=
  stepR S fun k k' hk e => by cases e; exact ⟨h k hk, h' k⟩

theorem quiet_ask (f : DS → α) : Quiet (askP f) := fun _ _ _ e => by cases e; rfl

end Lat

theorem setUses_refs {k k' : DS} {i : Ident} (e : k.setUses u i = .ok k') : SameRT k k' := by
  unfold DS.setUses at e; rw [setR_ok e]; exact ⟨rfl, rfl⟩
theorem setUnit_refs {k k' : DS} {cu : Nat} {h : UnitHead} (e : k.setUnit u cu h = .ok k') : SameRT k k' := by
  unfold DS.setUnit at e; rw [setR_ok e]; exact ⟨rfl, rfl⟩
theorem stackAt_refs (k : DS) (cu : Nat) : SameRT k (k.stackAt cu) := by
  unfold DS.stackAt; split <;> exact ⟨rfl, rfl⟩
theorem assignUnits_refs (cu : Nat) : ∀ (es : List UsesEntry) (k : DS), SameRT k (k.assignUnits u cu es)
  | [], _ => ⟨rfl, rfl⟩
  | e :: es, k => by
    unfold DS.assignUnits
    split
    · exact assignUnits_refs cu es { k with items := _ }
    · exact assignUnits_refs cu es k
theorem importUnits_refs {k k' : DS} {cu : Nat} {es : List UsesEntry} (e : k.importUnits u cu es = some k') : SameRT k k' := by
  unfold DS.importUnits at e
  simp only at e
  split at e
  · cases e; exact assignUnits_refs cu es k
  · cases e
theorem openImpl_refs {k : DS} {cu unit : Nat} {es : List UsesEntry} {r : DS × Nat} (e : k.openImpl u cu unit es = some r) : SameRT k r.1 := by
  unfold DS.openImpl at e
  simp only at e
  split at e
  · cases e; exact assignUnits_refs cu es k
  · cases e
theorem usesMap_refs {es : List UsesEntry} : ∀ {hs : List UnitHead} {k : DS} {m : Tbl Node} {r : DS × Tbl Node}, k.usesMap u es hs m = some r →
    SameRT k r.1
  | [], _, _, _, e => by cases e; exact ⟨rfl, rfl⟩
  | x :: hs, k, m, r, e => by
    unfold DS.usesMap at e
    split at e
    · cases e
    · rename_i en _
      exact usesMap_refs (k := { k with items := k.items.set en.no (some x.no) }) e
theorem enterProgram_refs {k k' : DS} {cp : Nat} {i : Ident} {hs : List UnitHead} {m : Tbl Node} (e : k.enterProgram u cp i hs m = some k') :
    SameRT k k' := by
  unfold DS.enterProgram at e
  split at e
  · cases e; exact ⟨rfl, rfl⟩
  · cases e

/-- the steps of a parser; the terms are about the parsers it calls -/
syntax "trg " "[" term,* "]" : tactic
macro_rules
  | `(tactic| trg [$ts,*]) => do
    let alts ← ts.getElems.mapM fun t => `(tactic| exact $t)
    let alts := alts.push (← `(tactic| fail))
    `(tactic| repeat' (first
      | exact Tr.fail
      | exact Tr.wait
      | refine Tr.any (by first $[| $alts:tactic]*) _
      | refine Tr.ite ?_ ?_
      | refine Tr.step (by assumption) (by first | quiet' | exact Lat.quiet_ask _) fun _ => ?_
      | refine Tr.bind (by assumption) (Tr.any (by first $[| $alts:tactic]*) _) fun _ => ?_
      | exact Tr.pure (by assumption) (by
          intro x hx
          simp only [idsIntf, idsInit, idsUnitBody, idsUnit, idsProgram, Option.toList, List.mem_append, List.mem_cons, List.not_mem_nil, List.nil_append,
            List.append_nil, or_false, false_or, List.flatMap_cons, List.flatMap_nil, id_eq] at hx ⊢
          try tauto)
      | split))

theorem usesItem_later (S : Steady u J) : Lat u J [] (parseUsesItem u) (fun _ => []) := by
  have B := laterBase S
  have q := quiet_stringFactor (κ := DS) (u := u)
  unfold parseUsesItem
  trg []

theorem usesItems_later (S : Steady u J) : ∀ n, Lat u J [] (parseUsesItems u n) (fun _ => []) := by
  have B := laterBase S
  intro n
  induction n with
  | zero => exact Tr.wait
  | succ n ih => unfold parseUsesItems; trg [usesItem_later S, ih]

theorem declareUses_later (S : Steady u J) : ∀ l, Lat u J [] (declareUses u l) (fun _ => []) := by
  have B := laterBase S
  intro l
  induction l with
  | nil => unfold declareUses; trg []
  | cons x l ih =>
    obtain ⟨i, p⟩ := x
    unfold declareUses
    trg [Lat.stepR S fun k k' h e => ⟨h.setUses e, setUses_refs e⟩, ih]

theorem parseUses_later (S : Steady u J) (n : Nat) : Lat u J [] (parseUses u n) (fun _ => []) := by
  have B := laterBase S
  unfold parseUses
  trg [usesItems_later S n, declareUses_later S _]

theorem optUses_later (S : Steady u J) (n : Nat) : Lat u J [] (parseOptUses u n) (fun _ => []) := by
  have B := laterBase S
  unfold parseOptUses
  trg [parseUses_later S n]

theorem unitIdent_later (S : Steady u J) : Lat u J [] (parseUnitIdent u) (fun _ => []) := by
  have B := laterBase S
  unfold parseUnitIdent
  have q : Quiet (do
    let t ← P.cur
    if Pred.directive u portabilityNames t then do
      P.next
      pure (some (t.value u))
    else pure none : P DS (Option Str)) := by quiets
  trg [Lat.step S (fun k h => h.newUnit _) fun k => ⟨rfl, rfl⟩]

theorem identAndUses_later (S : Steady u J) (n : Nat) : Lat u J [] (parseIdentAndUses u n) (fun _ => []) := by
  have B := laterBase S
  have : Lat u J [] (parseIntfUses u n) (fun _ => []) := by unfold parseIntfUses; trg [optUses_later S n]
  unfold parseIdentAndUses
  trg [unitIdent_later S, this]

theorem intfDecl_later (S : Steady u J) (n : Nat) (t : Token) : Lat u J [] (parseIntfDecl u n t) (fun o => o.toList.flatMap idsIntf) := by
  have B := laterBase S
  have C := laterDecl S
  unfold parseIntfDecl
  trg [typeSection_later S n, varDecls_tr C n, threadVarDecls_tr C n, constDecls_tr C n, exportedHeading_tr C n]

theorem intfDecls_later (S : Steady u J) : ∀ n, Lat u J [] (parseIntfDecls u n) (fun ds => ds.flatMap idsIntf) := by
  have B := laterBase S
  intro n
  induction n with
  | zero => exact Tr.wait
  | succ n ih => unfold parseIntfDecls; trg [intfDecl_later S n _, ih]

theorem intfBody_later (S : Steady u J) (unit n : Nat) : Lat u J [] (parseIntfBody u unit n) (fun ds => ds.flatMap idsIntf) := by
  have B := laterBase S
  unfold parseIntfBody
  trg [intfDecls_later S n, Lat.step S (fun k h => h.finishIntf unit _) fun k => ⟨rfl, rfl⟩]

theorem implUses_later (S : Steady u J) (cu n : Nat) : Lat u J [] (parseImplUses u cu n) (fun _ => []) := by
  have B := laterBase S
  unfold parseImplUses
  trg [Lat.step S (fun k h => h.stackAt cu) fun k => stackAt_refs k cu, optUses_later S n]

theorem init_later (S : Steady u J) (n : Nat) : Lat u J [] (parseInit u n) idsInit := by
  have B := laterBase S
  have C := laterDecl S
  unfold parseInit
  trg [(stmtsTr C n).stmts _]

theorem implAndEnd_later (S : Steady u J) (n : Nat) : Lat u J [] (parseImplAndEnd u n) idsUnitBody := by
  have B := laterBase S
  have C := laterDecl S
  have h1 : Lat u J [] (parseImplBody u n) (fun b => idsSections b.1) := by
    unfold parseImplBody
    trg [(blocksTr C n).sects, exports_tr C n]
  have h2 : Lat u J [] (do
      if ← P.is (kw u r!"INITIALIZATION") then do
        let i ← parseInit u n
        pure (some i)
      else pure none : P DS (Option (InitSection (Decl Node)))) (fun i => i.toList.flatMap idsInit) := by
    trg [init_later S n]
  have h3 : Lat u J [] (parseUnitEnd u n) (fun i => i.toList.flatMap idsInit) := by
    unfold parseUnitEnd
    trg [h2]
  unfold parseImplAndEnd
  trg [h1, h3]

theorem unit_later (S : Steady u J) (cu n : Nat) : Lat u J [] (parseUnit u cu n) (fun o => o.toList.flatMap idsUnit) := by
  have B := laterBase S
  unfold parseUnit
  refine Tr.bind B (identAndUses_later S n) fun hd => Tr.bind B ((intfBody_later S _ n).any _) fun ds => ?_
  refine Tr.bind B ((implUses_later S cu n).any _) fun es => Tr.bind B ((implAndEnd_later S n).any _) fun b => Tr.pure B fun x hx => ?_
  split at hx
  · simp only [Option.toList, List.flatMap_cons, List.flatMap_nil, List.append_nil, idsUnit, List.mem_append] at hx ⊢
    tauto
  · cases hx

theorem processIntf_later (S : Steady u J) (cu : Nat) (hd : UnitHead) (es : List UsesEntry) (n : Nat) :
    Lat u J [] (processIntf u cu hd es n) (fun ds => ds.flatMap idsIntf) := by
  have B := laterBase S
  unfold processIntf
  trg [Lat.stepP S fun k k' h e => ⟨h.importUnits e, importUnits_refs e⟩, Lat.stepR S fun k k' h e => ⟨h.setUnit e, setUnit_refs e⟩, intfBody_later S _ n]

theorem inImpl_later (S : Steady u J) {α : Type} {f : α → List (TypeId (Decl Node))} {p : P DS α} (h : Lat u J [] p f) (cu unit : Nat) (es : List UsesEntry) :
    Lat u J [] (inImpl u cu unit es p) f := by
  intro s hi _ a s' e
  unfold inImpl at e
  cases ho : s.cx.openImpl u cu unit es with
  | none => rw [ho] at e; cases e
  | some km =>
    obtain ⟨k, um⟩ := km
    rw [ho] at e
    simp only at e
    cases hp : p { s with cx := k } <;> rw [hp] at e <;> simp only [R.ok.injEq, reduceCtorEq] at e
    obtain ⟨rfl, rfl⟩ := e
    obtain ⟨h1, h2, h3⟩ := h _ ⟨hi.1.openImpl ho, S.same (openImpl_refs ho).1 (openImpl_refs ho).2 hi.2⟩ (fun _ h => by cases h) _ _ hp
    exact ⟨⟨h1.1.setUnitDm _ _, S.same (by rfl) (by rfl) h1.2⟩, (KeepsRefs.same (openImpl_refs ho).1).trans (h2.trans (.same rfl)), fun t ht => (h3 t ht).up (.same rfl)⟩

theorem processImpl_later (S : Steady u J) (cu unit n : Nat) : Lat u J [] (processImpl u cu unit n) (fun r => idsUnitBody r.2) := by
  have B := laterBase S
  unfold processImpl
  trg [implUses_later S cu n, inImpl_later S (implAndEnd_later S n) cu unit _]

/-! ## Programs -/

theorem run_later (S : Steady u J) {α : Type} {f : α → List (TypeId (Decl Node))} {p : P DS α} (h : Lat u J [] p f) (l : Loader)
    {hs : List (TypeId (Decl Node))} (hl : ∀ t ∈ idsUnit l.tree, t ∈ hs) : Lat u J hs (l.run p) (fun r => f r.1 ++ idsUnit r.2.tree) := by
  intro s hi hv a s' e
  unfold Loader.run at e
  cases hp : p ⟨l.ts, l.tail, { s.cx with cur := l.cur, pending := l.pending }⟩ <;> rw [hp] at e <;> simp only [R.ok.injEq, reduceCtorEq] at e
  obtain ⟨rfl, rfl⟩ := e
  obtain ⟨h1, h2, h3⟩ := h ⟨l.ts, l.tail, { s.cx with cur := l.cur, pending := l.pending }⟩ ⟨hi.1.same rfl, S.same (by rfl) (by rfl) hi.2⟩ (fun _ h => by cases h) _ _ hp
  refine ⟨⟨h1.1.same rfl, S.same (by rfl) (by rfl) h1.2⟩, fun i r e => h2 i r e, fun t ht => ?_⟩
  rcases List.mem_append.1 ht with ht | ht
  · exact (h3 t ht).up (.same rfl)
  · exact (hv t (hl t ht)).up fun i r e => h2 i r e

variable {sep : Char} {files : Str → FileR} {lib : TopoLib} {it : List UParser → List Str}

/-- the type identifiers of units -/
abbrev idsLoaders (ls : List Loader) : List (TypeId (Decl Node)) := ls.flatMap fun l => idsUnit l.tree

theorem newLoaders_later (S : Steady u J) (cp : Nat) : ∀ es, Lat u J [] (newLoaders sep cp es) (fun _ => []) := by
  have B := laterBase S
  intro es
  induction es with
  | nil => unfold newLoaders; trg []
  | cons e es ih =>
    unfold newLoaders
    trg [ih, Lat.step S (fun k h => h.newUnitContext cp _) fun k => ⟨rfl, rfl⟩]

theorem loadUnit_later (S : Steady u J) (n : Nat) (path : Str) (c : Nat) : Lat u J [] (loadUnit u files n path c) (fun l => idsUnit l.tree) := by
  have B := laterBase S
  unfold loadUnit
  split
  · exact Tr.fail
  · exact Tr.fail
  · refine Tr.bind B (run_later S (f := fun _ => []) ?_ _ ?_) fun r => Tr.pure B fun t ht => ?_
    · exact Tr.step B quiet_cur? fun _ => identAndUses_later S n
    · intro t ht; cases ht
    · exact List.mem_append_left _ ht

theorem loadAll_later (S : Steady u J) (cp n : Nat) : ∀ cs, Lat u J [] (loadAll u files cp n cs) idsLoaders := by
  have B := laterBase S
  intro cs
  induction cs with
  | nil => unfold loadAll; trg []
  | cons c cs ih =>
    obtain ⟨p, c⟩ := c
    unfold loadAll
    trg [loadUnit_later S n p c, Lat.step S (fun k h => h.addUnit cp _) fun k => ⟨rfl, rfl⟩, ih]

/-- the units after one of them has changed -/
theorem idsLoaders_set {ls : List Loader} {hs : List (TypeId (Decl Node))} (h : ∀ t ∈ idsLoaders ls, t ∈ hs) {i : Nat} {l : Loader}
    (hl : ∀ t ∈ idsUnit l.tree, t ∈ hs) : ∀ t ∈ idsLoaders (ls.set i l), t ∈ hs := by
  intro t ht
  obtain ⟨x, hx, hxt⟩ := List.mem_flatMap.1 ht
  rcases List.mem_or_eq_of_mem_set hx with hx | rfl
  · exact h t (List.mem_flatMap.2 ⟨x, hx, hxt⟩)
  · exact hl t hxt

theorem intfAll_later (S : Steady u J) (n : Nat) : ∀ is ls hs, (∀ t ∈ idsLoaders ls, t ∈ hs) → Lat u J hs (intfAll u n is ls) idsLoaders := by
  have B := laterBase S
  intro is
  induction is with
  | nil => exact fun ls hs h => Tr.pure B h
  | cons i is ih =>
    intro ls hs h
    unfold intfAll
    split
    · exact ih ls hs h
    · rename_i l hl
      refine Tr.bind B (run_later S (processIntf_later S l.cu l.head l.uses n) l ?_) fun r => ih _ _ (idsLoaders_set ?_ ?_)
      · exact fun t ht => h t (List.mem_flatMap.2 ⟨l, List.mem_of_getElem? hl, ht⟩)
      · exact fun t ht => List.mem_append_right _ (h t ht)
      · intro t ht
        rcases List.mem_append.1 ht with ht | ht
        · exact List.mem_append_left _ (List.mem_append_left _ ht)
        · exact List.mem_append_left _ (List.mem_append_right _ (List.mem_append_right _ ht))

theorem implAll_later (S : Steady u J) (n : Nat) : ∀ is ls hs, (∀ t ∈ idsLoaders ls, t ∈ hs) → Lat u J hs (implAll u n is ls) idsLoaders := by
  have B := laterBase S
  intro is
  induction is with
  | nil => exact fun ls hs h => Tr.pure B h
  | cons i is ih =>
    intro ls hs h
    unfold implAll
    split
    · exact ih ls hs h
    · rename_i l hl
      refine Tr.bind B (run_later S (processImpl_later S l.cu l.head.no n) l ?_) fun r => ih _ _ (idsLoaders_set ?_ ?_)
      · exact fun t ht => h t (List.mem_flatMap.2 ⟨l, List.mem_of_getElem? hl, ht⟩)
      · exact fun t ht => List.mem_append_right _ (h t ht)
      · intro t ht
        rcases List.mem_append.1 ht with ht | ht
        · exact List.mem_append_left _ (List.mem_append_right _ (List.mem_append_left _ ht))
        · exact List.mem_append_left _ (List.mem_append_left _ ht)

theorem enterP_later (S : Steady u J) (cp : Nat) (i : Ident) (es : List UsesEntry) (hs : List UnitHead) : Lat u J [] (enterP u cp i es hs) (fun _ => []) := by
  intro s hi _ a s' e
  have ht := (TD.enterP cp i es hs s a s' hi.1 e).2
  suffices hr : SameRT s.cx s'.cx from
    ⟨⟨ht, S.same hr.1 hr.2 hi.2⟩, .same hr.1, fun _ h => by cases h⟩
  unfold enterP at e
  cases e1 : s.cx.usesMap u es hs [] with
  | none => rw [e1] at e; cases e
  | some km =>
    rw [e1] at e
    cases e2 : km.1.enterProgram u cp i hs km.2 with
    | none => simp only [e2] at e; cases e
    | some c => simp only [e2] at e; cases e; exact (usesMap_refs e1).trans (enterProgram_refs e2)

theorem loadUnits_later (S : Steady u J) (cp : Nat) (i : Ident) (es : List UsesEntry) (n : Nat) : Lat u J [] (loadUnits u sep files lib it cp i es n) idsLoaders := by
  have B := laterBase S
  unfold loadUnits
  refine Tr.bind B (newLoaders_later S cp es) fun cs => Tr.bind B ((loadAll_later S cp n cs).any _) fun ls => ?_
  split
  · exact Tr.fail
  · refine Tr.bind B (intfAll_later S n _ ls _ fun t ht => List.mem_append_left _ ht) fun ls1 => ?_
    refine Tr.bind B (implAll_later S n _ ls1 _ fun t ht => List.mem_append_left _ ht) fun ls2 => ?_
    exact Tr.bind B ((enterP_later S cp i es _).any _) fun _ => Tr.pure B fun t ht => List.mem_append_right _ (List.mem_append_left _ ht)

theorem program_later (S : Steady u J) (cp n : Nat) : Lat u J [] (parseProgram u sep files lib it cp n) idsProgram := by
  have B := laterBase S
  have C := laterDecl S
  have : ∀ i, Lat u J [] (parseProgramUses u sep files lib it cp i n) (fun us => us.2.flatMap idsUnit) := by
    intro i
    unfold parseProgramUses
    refine Tr.step B (quiet_is _) fun c => Tr.ite ?_ (Tr.pure B fun t ht => by cases ht)
    refine Tr.bind B (parseUses_later S n) fun es => Tr.step B quiet_next fun _ => Tr.bind B ((loadUnits_later S cp i es n).any _) fun ls => Tr.pure B ?_
    intro t ht
    obtain ⟨x, hx, ht⟩ := List.mem_flatMap.1 ht
    obtain ⟨l, hl, rfl⟩ := List.mem_map.1 hx
    exact List.mem_append_left _ (List.mem_flatMap.2 ⟨l, hl, ht⟩)
  unfold parseProgram
  trg [this _, (blocksTr C n).block]

/-- what is found in the context at the end -/
theorem laterRefs_ok {k : DS} {ts : List (TypeId (Decl Node))} (h : ∀ t ∈ ts, LaterOK u k t) : Proper u (laterRefs k ts) := by
  intro p hp
  obtain ⟨t, ht, hp⟩ := List.mem_flatMap.1 hp
  cases hr : t.ref with
  | none => rw [hr] at hp; cases hp
  | now d => rw [hr] at hp; cases hp
  | later i =>
    rw [hr] at hp
    obtain ⟨r, h1, h2⟩ := h t ht i hr
    simp only [DS.ref, h1] at hp
    cases r with
    | none => cases hp
    | some d =>
      have : p = (t.ident, d) := by simpa using hp
      rw [this]
      exact h2 d rfl

end TP
