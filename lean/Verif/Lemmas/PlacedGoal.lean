import Verif.Lemmas.Placed
import Verif.Lemmas.RelGoal
import Verif.Spec.Panic

/-!
# The identifiers of units and programs stand for tokens of their files
-/

namespace TP
open Spec

variable {u : Uni} {S : Token → Prop} {α β : Type}

/-! ## What is below units and programs -/

namespace PL

theorem expr (n : Nat) : PL S (fun e => AllFrom S e.ids) (parseExpr u (declEnv u).toEnv n) :=
  self (exprR (tagSim u S).toESim (Nat.le_refl n)).expr fun _ h => tagged (fun _ => Expr.ids_tr _) (congrArg Expr.ids h)

theorem type (n : Nat) : PL S (fun e => AllFrom S e.ids) (parseType u (declEnv u) n) :=
  self (typeR (tagSim u S) (Nat.le_refl n)).type fun _ h => tagged (fun _ => PType.ids_tr _) (congrArg PType.ids h)

theorem stmts (p : Pred) [Resp u Eq (tag S 1) (tag S 2) p] (n : Nat) :
    PL S (fun e => AllFrom S (e.ids PType.ids)) (parseStmts u ((declEnv u).senv u) p n) :=
  self ((stmtR (DSim.ssim (w := False) (tagSim u S)) (Nat.le_refl n)).stmts p) fun _ h =>
    tagged (fun _ => Stmts.ids_tr PType.ids_tr _) (congrArg (Stmts.ids PType.ids) h)

theorem block (n : Nat) : PL S (fun b => AllFrom S b.ids) (parseBlock u (declEnv u) n) :=
  self (blockR (tagSim u S) (Nat.le_refl n)).block fun _ h => tagged (fun _ => Block.ids_tr _) (congrArg Block.ids h)

theorem declSects (n : Nat) : PL S (fun b => AllFrom S b.ids) (parseDeclSects u (declEnv u) n) :=
  self (blockR (tagSim u S) (Nat.le_refl n)).sects fun _ h => tagged (fun _ => DeclSects.ids_tr _) (congrArg DeclSects.ids h)

theorem exports (n : Nat) : PL S (fun e => AllFrom S (e.flatMap fun is => is.flatMap ExportsItem.ids)) (parseExports u (declEnv u) n) :=
  self (PR.parseExports (tagSim u S) (Nat.le_refl n)) fun _ h =>
    tagged (fun _ => ids_list (ids_list ExportsItem.ids_tr) _) (congrArg (fun e => e.flatMap fun is => is.flatMap ExportsItem.ids) h)

theorem consts (n : Nat) : PL S (fun e => AllFrom S (e.flatMap ConstDecl.ids)) (parseConstDecls u (declEnv u) n) :=
  self (PR.parseConstDecls (tagSim u S) (Nat.le_refl n)) fun _ h =>
    tagged (fun _ => ids_list ConstDecl.ids_tr _) (congrArg (fun e => e.flatMap ConstDecl.ids) h)

theorem vars (n : Nat) : PL S (fun e => AllFrom S (e.flatMap VarDecl.ids)) (parseVarDecls u (declEnv u) n) :=
  self (PR.parseVarDecls (tagSim u S) (Nat.le_refl n)) fun _ h =>
    tagged (fun _ => ids_list VarDecl.ids_tr _) (congrArg (fun e => e.flatMap VarDecl.ids) h)

theorem threadVars (n : Nat) : PL S (fun e => AllFrom S (e.flatMap ThreadVarDecl.ids)) (parseThreadVarDecls u (declEnv u) n) :=
  self (PR.parseThreadVarDecls (tagSim u S) (Nat.le_refl n)) fun _ h =>
    tagged (fun _ => ids_list ThreadVarDecl.ids_tr _) (congrArg (fun e => e.flatMap ThreadVarDecl.ids) h)

theorem types (n : Nat) : PL S (fun e => AllFrom S (e.flatMap TypeDecl.ids)) (parseTypeSection u (declEnv u) n) :=
  self (PR.parseTypeSection (tagSim u S) (Nat.le_refl n)) fun _ h =>
    tagged (fun _ => ids_list TypeDecl.ids_tr _) (congrArg (fun e => e.flatMap TypeDecl.ids) h)

theorem heading (n : Nat) : PL S (fun h => AllFrom S h.1.ids) (parseExportedHeading u (declEnv u) n) :=
  self (PR.parseExportedHeading (tagSim u S) (Nat.le_refl n)) fun _ h => tagged (fun _ => Heading.ids_tr _) (congrArg Heading.ids h.1)

/-! ## Units -/

theorem optSemi (u : Uni) : PL0 S (TP.optSemi : P DS Unit) := self (u := u) PR.optSemi fun _ _ => trivial
theorem stringFactor : PL0 S (TP.stringFactor u : P DS Str) := self PR.stringFactor fun _ _ => trivial

theorem parseUsesItem : PL S (fun i => FromTok S i.1) (TP.parseUsesItem u) := by
  unfold TP.parseUsesItem
  exact (current u).bind fun t ht => (next u).bind fun _ _ => (is u).bind fun _ _ =>
    ite ((next u).bind fun _ _ => stringFactor.bind fun _ _ => pure ht) (pure ht)

theorem parseUsesItems : ∀ n, PL S (fun is => AllFrom S (is.map Prod.fst)) (TP.parseUsesItems u n)
  | 0 => wait
  | n + 1 => by
    unfold TP.parseUsesItems
    refine parseUsesItem.bind fun i hi => (cur? u).bind fun o _ => ?_
    cases o with
    | none => exact fail
    | some t => exact ite (pure (.cons hi .nil)) (ite ((next u).bind fun _ _ => (parseUsesItems n).bind fun is h => pure (.cons hi h)) fail)

theorem declareUses : ∀ l, AllFrom S (l.map Prod.fst) → PL S (fun es => AllFrom S (es.map UsesEntry.ident)) (TP.declareUses u l)
  | [], _ => pure .nil
  | (i, p) :: l, h => by
    unfold TP.declareUses
    exact (askP _).bind fun _ _ => stepR.bind fun _ _ => (declareUses l fun x hx => h x (by simp [show x ∈ l.map Prod.fst from hx])).bind
      fun es h' => pure (.cons (h i (by simp)) h')

theorem parseUses (n : Nat) : PL S (fun es => AllFrom S (es.map UsesEntry.ident)) (TP.parseUses u n) := by
  unfold TP.parseUses
  exact (current u).bind fun _ _ => (next u).bind fun _ _ => (parseUsesItems n).bind fun _ h => declareUses _ h

theorem parseOptUses (n : Nat) : PL S (fun es => AllFrom S (es.map UsesEntry.ident)) (TP.parseOptUses u n) := by
  unfold TP.parseOptUses
  exact (is u).bind fun _ _ => ite ((parseUses n).bind fun _ h => (next u).bind fun _ _ => pure h) (pure .nil)

theorem parseUnitIdent : PL S (fun h => FromTok S h.1.ident) (TP.parseUnitIdent u) := by
  unfold TP.parseUnitIdent
  refine (current u).bind fun _ _ => (nextIs u).bind fun t ht => (askP _).bind fun _ _ => stepR.bind fun _ _ => (next u).bind fun _ _ => ?_
  refine bind (A := fun _ => True) ((cur u).bind fun _ _ => ite ((next u).bind fun _ _ => pure trivial) (pure trivial)) fun _ _ => ?_
  exact (is u).bind fun _ _ => ite ((next u).bind fun _ _ => pure ht) (pure ht)

theorem parseIdentAndUses (n : Nat) :
    PL S (fun r => FromTok S r.1.1.ident ∧ AllFrom S (r.2.map UsesEntry.ident)) (TP.parseIdentAndUses u n) := by
  unfold TP.parseIdentAndUses TP.parseIntfUses
  exact parseUnitIdent.bind fun _ h => bind ((current u).bind fun _ _ => (next u).bind fun _ _ => parseOptUses n) fun _ h' => pure ⟨h, h'⟩

theorem parseIntfDecl (n : Nat) (t : Token) : PL S (fun o => AllFrom S (o.toList.flatMap IntfDecl.ids)) (TP.parseIntfDecl u n t) := by
  have one : ∀ {d : IntfDecl (Decl Node)}, AllFrom S d.ids → AllFrom S ((some d).toList.flatMap IntfDecl.ids) := by
    intro d h
    simpa using h
  unfold TP.parseIntfDecl
  refine ite ?_ (ite ?_ (ite ?_ (ite ?_ (ite ?_ (pure .nil)))))
  · exact (askP _).bind fun _ _ => (types n).bind fun _ h => pure (one h)
  · exact (next u).bind fun _ _ => (vars n).bind fun _ h => pure (one h)
  · exact (next u).bind fun _ _ => (threadVars n).bind fun _ h => pure (one h)
  · exact (next u).bind fun _ _ => (consts n).bind fun _ h => pure (one h)
  · exact (heading n).bind fun _ h => pure (one h)

theorem parseIntfDecls : ∀ n, PL S (fun ds => AllFrom S (ds.flatMap IntfDecl.ids)) (TP.parseIntfDecls u n)
  | 0 => wait
  | n + 1 => by
    unfold TP.parseIntfDecls
    refine (cur u).bind fun t _ => ite (pure .nil) (ite fail ((parseIntfDecl n t).bind fun o h => ?_))
    cases o with
    | none => exact pure .nil
    | some d => exact (parseIntfDecls n).bind fun rest h' => pure (AllFrom.append (by simpa using h) h')

theorem parseIntfBody (unit n : Nat) : PL S (fun ds => AllFrom S (ds.flatMap IntfDecl.ids)) (TP.parseIntfBody u unit n) := by
  unfold TP.parseIntfBody
  exact (parseIntfDecls n).bind fun ds h => stepR.bind fun _ _ => pure h

theorem parseImplUses (cu n : Nat) : PL S (fun es => AllFrom S (es.map UsesEntry.ident)) (TP.parseImplUses u cu n) := by
  unfold TP.parseImplUses
  exact (current u).bind fun _ _ => (next u).bind fun _ _ => stepR.bind fun _ _ => parseOptUses n

theorem parseInit (n : Nat) : PL S (fun i => AllFrom S i.ids) (TP.parseInit u n) := by
  unfold TP.parseInit
  refine (current u).bind fun _ _ => (next u).bind fun _ _ => (stmts _ n).bind fun ini h => (is u).bind fun _ _ => ite ?_ (pure (h.append .nil))
  exact (next u).bind fun _ _ => (stmts _ n).bind fun fin h' => pure (h.append (by simpa using h'))

theorem parseImplAndEnd (n : Nat) : PL S (fun b => AllFrom S b.ids) (TP.parseImplAndEnd u n) := by
  unfold TP.parseImplAndEnd TP.parseImplBody TP.parseUnitEnd
  refine bind (A := fun b => AllFrom S b.1.ids ∧ AllFrom S (b.2.flatMap fun is => is.flatMap ExportsItem.ids)) ?_ fun b hb => ?_
  · exact (declSects n).bind fun ds h => (exports n).bind fun ex h' => (optSemi u).bind fun _ _ => pure ⟨h, h'⟩
  refine bind (A := fun i => AllFrom S (i.toList.flatMap InitSection.ids)) ?_ fun i hi => pure ((hb.1.append hb.2).append hi)
  refine bind (A := fun i => AllFrom S (i.toList.flatMap InitSection.ids)) ?_ fun i hi =>
    (current u).bind fun _ _ => (nextIs u).bind fun _ _ => pure hi
  exact (is u).bind fun _ _ => ite ((parseInit n).bind fun i h => pure (by simpa using h)) (pure .nil)

theorem unit_ids {hd : UnitHead} {es es' : List UsesEntry} {ds : List (IntfDecl (Decl Node))} {b : UnitBody (Decl Node)}
    (h1 : FromTok S hd.ident) (h2 : AllFrom S (es.map UsesEntry.ident)) (h3 : AllFrom S (ds.flatMap IntfDecl.ids))
    (h4 : AllFrom S (es'.map UsesEntry.ident)) (h5 : AllFrom S b.ids) : AllFrom S (UnitTree.ids ⟨hd, es, ds, es', b⟩) :=
  (((AllFrom.cons h1 h2).append h3).append h4).append h5

theorem parseUnit (cu n : Nat) : PL S (fun o => ∀ t, o = some t → AllFrom S t.ids) (TP.parseUnit u cu n) := by
  unfold TP.parseUnit
  refine (parseIdentAndUses n).bind fun hd h1 => (parseIntfBody _ n).bind fun ds h3 => (parseImplUses cu n).bind fun es h4 =>
    (parseImplAndEnd n).bind fun b h5 => pure ?_
  intro t ht
  split at ht
  · cases ht; exact unit_ids h1.1 h1.2 h3 h4 h5
  · cases ht

theorem processIntf (cu : Nat) (hd : UnitHead) (es : List UsesEntry) (n : Nat) :
    PL S (fun ds => AllFrom S (ds.flatMap IntfDecl.ids)) (TP.processIntf u cu hd es n) := by
  unfold TP.processIntf
  exact stepP.bind fun _ _ => stepR.bind fun _ _ => parseIntfBody _ n

theorem inImpl {A : α → Prop} {p : P DS α} (h : PL S A p) (cu unit : Nat) (es : List UsesEntry) : PL S A (TP.inImpl u cu unit es p) := by
  intro s a s' hs e
  unfold TP.inImpl at e
  cases ho : s.cx.openImpl u cu unit es with
  | none => rw [ho] at e; cases e
  | some km =>
    obtain ⟨k, um⟩ := km
    rw [ho] at e
    simp only at e
    cases hp : p { s with cx := k } <;> rw [hp] at e <;> simp only [R.ok.injEq, reduceCtorEq] at e
    obtain ⟨rfl, rfl⟩ := e
    have := h { s with cx := k } _ _ hs hp
    exact ⟨this.1, this.2⟩

theorem processImpl (cu unit n : Nat) :
    PL S (fun r => AllFrom S (r.1.map UsesEntry.ident) ∧ AllFrom S r.2.ids) (TP.processImpl u cu unit n) := by
  unfold TP.processImpl
  exact (parseImplUses cu n).bind fun es h => (inImpl (parseImplAndEnd n) cu unit es).bind fun b h' => pure ⟨h, h'⟩

/-! ## Programs -/

/-- the run of a parser of a unit -/
theorem run {T : Token → Prop} {A : α → Prop} {p : P DS α} (h : PL T A p) (l : Loader) (hl : Among T l.ts l.tail) :
    PL S (fun r => A r.1 ∧ Among T r.2.ts r.2.tail ∧ r.2.path = l.path ∧ r.2.tree = l.tree) (l.run p) := by
  intro s a s' hs e
  unfold Loader.run at e
  cases hp : p ⟨l.ts, l.tail, { s.cx with cur := l.cur, pending := l.pending }⟩ <;> rw [hp] at e <;> simp only [R.ok.injEq, reduceCtorEq] at e
  obtain ⟨rfl, rfl⟩ := e
  obtain ⟨h1, h2⟩ := h ⟨l.ts, l.tail, { s.cx with cur := l.cur, pending := l.pending }⟩ _ _ hl hp
  exact ⟨⟨h1, h2, rfl, rfl⟩, hs⟩

end PL

/-- a token of a file: one of its tokens or the one at its end -/
def InFile (ts : List Token) (tl : Tail) (t : Token) : Prop := t ∈ ts ∨ ∃ x p, tl = .eof x p ∧ t = eofTok x p

theorem among_file (ts : List Token) (tl : Tail) : Among (InFile ts tl) ts tl :=
  ⟨fun t ht => ⟨t, .inl ht, rfl⟩, fun x p e => ⟨_, .inr ⟨x, p, e, rfl⟩, rfl⟩⟩

/-- the identifiers are those of tokens of the file -/
def IdsOf (f : FileR) (l : List Ident) : Prop := ∃ ts tl, f = .tokens ts tl ∧ AllFrom (InFile ts tl) l

/-- the parts read so far are from the file, and the tokens to come too -/
def LoaderFrom (files : Str → FileR) (l : Loader) : Prop :=
  ∃ ts tl, files l.path = .tokens ts tl ∧ AllFrom (InFile ts tl) l.tree.ids ∧ Among (InFile ts tl) l.ts l.tail

theorem loader_parts {l : Loader} (h : AllFrom S l.tree.ids) : FromTok S l.head.ident ∧ AllFrom S (l.uses.map UsesEntry.ident) ∧
    AllFrom S (l.intf.flatMap IntfDecl.ids) ∧ AllFrom S (l.implUses.map UsesEntry.ident) ∧ AllFrom S l.body.ids := by
  have e : l.tree.ids = l.head.ident :: l.uses.map UsesEntry.ident ++ l.intf.flatMap IntfDecl.ids ++
    l.implUses.map UsesEntry.ident ++ l.body.ids := rfl
  rw [e] at h
  refine ⟨h _ (by simp), fun i hi => h i ?_, fun i hi => h i ?_, fun i hi => h i ?_, fun i hi => h i ?_⟩ <;>
    simp only [List.cons_append, List.mem_cons, List.mem_append] <;> tauto

namespace PL
variable {sep : Char} {files : Str → FileR} {lib : TopoLib} {it : List UParser → List Str}

theorem newLoaders (cp : Nat) : ∀ es, PL S (fun cs => cs.map Prod.fst = usedFiles sep es) (TP.newLoaders sep cp es)
  | [] => pure rfl
  | e :: es => by
    unfold TP.newLoaders
    by_cases hp : UsesItem.effectivePath sep e.path = []
    · have e1 : usedFiles sep (e :: es) = usedFiles sep es := by simp [usedFiles, hp]
      rw [if_pos hp, e1]
      exact newLoaders cp es
    · have e1 : usedFiles sep (e :: es) = UsesItem.effectivePath sep e.path :: usedFiles sep es := by simp [usedFiles, hp]
      rw [if_neg hp, e1]
      exact (askP _).bind fun _ _ => stepR.bind fun _ _ => (newLoaders cp es).bind fun _ h => pure (by simp [h])

theorem loadUnit (n : Nat) (path : Str) (c : Nat) : PL S (fun l => l.path = path ∧ LoaderFrom files l) (TP.loadUnit u files n path c) := by
  unfold TP.loadUnit
  split
  · exact fail
  · exact fail
  · rename_i ts tl hf
    refine (run (T := InFile ts tl) ((cur? u).bind fun _ _ => parseIdentAndUses n) _ (among_file ts tl)).bind fun r hr => pure ?_
    obtain ⟨⟨h1, h2⟩, h3, h4, h5⟩ := hr
    simp only [Loader.tree, UnitTree.mk.injEq] at h5
    obtain ⟨-, -, e1, e2, e3⟩ := h5
    refine ⟨h4, ts, tl, (congrArg files h4).trans hf, unit_ids h1 h2 ?_ ?_ ?_, h3⟩
    · show AllFrom _ (r.2.intf.flatMap IntfDecl.ids)
      rw [e1]; exact .nil
    · show AllFrom _ (r.2.implUses.map UsesEntry.ident)
      rw [e2]; exact .nil
    · show AllFrom _ r.2.body.ids
      rw [e3]; exact .nil

theorem loadAll (cp n : Nat) : ∀ cs, PL S (fun ls => ls.map Loader.path = cs.map Prod.fst ∧ ∀ l ∈ ls, LoaderFrom files l) (TP.loadAll u files cp n cs)
  | [] => pure ⟨rfl, fun _ h => by cases h⟩
  | (p, c) :: cs => by
    unfold TP.loadAll
    refine (loadUnit n p c).bind fun l h => stepR.bind fun _ _ => (loadAll cp n cs).bind fun ls h' => pure ⟨by simp [h.1, h'.1], ?_⟩
    intro x hx
    rcases List.mem_cons.1 hx with rfl | hx
    · exact h.2
    · exact h'.2 x hx

theorem set_path {ls : List Loader} {i : Nat} {l l' : Loader} (hl : ls[i]? = some l) (hp : l'.path = l.path) :
    (ls.set i l').map Loader.path = ls.map Loader.path := by
  obtain ⟨hi, rfl⟩ := List.getElem?_eq_some_iff.1 hl
  rw [List.map_set, hp]
  apply List.ext_getElem <;> simp [List.getElem_set]
  intro j hj e
  subst e
  rfl

theorem set_from {ls : List Loader} (h : ∀ l ∈ ls, LoaderFrom files l) {i : Nat} {l : Loader} (hl : LoaderFrom files l) :
    ∀ x ∈ ls.set i l, LoaderFrom files x := by
  intro x hx
  rcases List.mem_or_eq_of_mem_set hx with hx | rfl
  · exact h x hx
  · exact hl

theorem intfAll (n : Nat) : ∀ is ls, (∀ l ∈ ls, LoaderFrom files l) →
    PL S (fun ls' => ls'.map Loader.path = ls.map Loader.path ∧ ∀ l ∈ ls', LoaderFrom files l) (TP.intfAll u n is ls)
  | [], _, h => pure ⟨rfl, h⟩
  | i :: is, ls, h => by
    unfold TP.intfAll
    split
    · exact intfAll n is ls h
    · rename_i l hl
      obtain ⟨ts, tl, hf, h1, h2⟩ := h l (List.mem_of_getElem? hl)
      refine (run (processIntf l.cu l.head l.uses n) l h2).bind fun r hr => ?_
      obtain ⟨r1, r2, r3, r4⟩ := hr
      rw [← r4] at h1
      obtain ⟨p1, p2, p3, p4, p5⟩ := loader_parts h1
      have key : LoaderFrom files { r.2 with intf := r.1 } := ⟨ts, tl, (congrArg files r3).trans hf, unit_ids p1 p2 r1 p4 p5, r2⟩
      refine (intfAll n is _ (set_from h key)).mono fun ls' h' => ⟨?_, h'.2⟩
      rw [h'.1]
      exact set_path hl r3

theorem implAll (n : Nat) : ∀ is ls, (∀ l ∈ ls, LoaderFrom files l) →
    PL S (fun ls' => ls'.map Loader.path = ls.map Loader.path ∧ ∀ l ∈ ls', LoaderFrom files l) (TP.implAll u n is ls)
  | [], _, h => pure ⟨rfl, h⟩
  | i :: is, ls, h => by
    unfold TP.implAll
    split
    · exact implAll n is ls h
    · rename_i l hl
      obtain ⟨ts, tl, hf, h1, h2⟩ := h l (List.mem_of_getElem? hl)
      refine (run (processImpl l.cu l.head.no n) l h2).bind fun r hr => ?_
      obtain ⟨r1, r2, r3, r4⟩ := hr
      rw [← r4] at h1
      obtain ⟨p1, p2, p3, p4, p5⟩ := loader_parts h1
      have key : LoaderFrom files { r.2 with implUses := r.1.1, body := r.1.2 } := ⟨ts, tl, (congrArg files r3).trans hf, unit_ids p1 p2 p3 r1.1 r1.2, r2⟩
      refine (implAll n is _ (set_from h key)).mono fun ls' h' => ⟨?_, h'.2⟩
      rw [h'.1]
      exact set_path hl r3

theorem enterP (cp : Nat) (i : Ident) (es : List UsesEntry) (hs : List UnitHead) : PL0 S (TP.enterP u cp i es hs) := by
  intro s a s' h e
  unfold TP.enterP at e
  cases e1 : s.cx.usesMap u es hs [] with
  | none => rw [e1] at e; cases e
  | some km =>
    rw [e1] at e
    cases e2 : km.1.enterProgram u cp i hs km.2 with
    | none => simp only [e2] at e; cases e
    | some c => simp only [e2] at e; cases e; exact ⟨trivial, h⟩

theorem loadUnits (cp : Nat) (i : Ident) (es : List UsesEntry) (n : Nat) :
    PL S (fun ls => ls.map Loader.path = usedFiles sep es ∧ ∀ l ∈ ls, LoaderFrom files l) (TP.loadUnits u sep files lib it cp i es n) := by
  unfold TP.loadUnits
  refine (newLoaders cp es).bind fun cs hc => (loadAll cp n cs).bind fun ls h => ?_
  split
  · exact fail
  · exact (intfAll n _ ls h.2).bind fun ls1 h1 => (implAll n _ ls1 h1.2).bind fun ls2 h2 => (enterP cp i es _).bind fun _ _ =>
      pure ⟨by rw [h2.1, h1.1, h.1, hc], h2.2⟩

theorem program_ids {i : Ident} {es : List UsesEntry} {us : List (UnitTree (Decl Node))} {b : Block (Decl Node)} (h1 : FromTok S i)
    (h2 : AllFrom S (es.map UsesEntry.ident)) (h3 : AllFrom S b.ids) : AllFrom S (ProgramTree.ids ⟨i, es, us, b⟩) :=
  (AllFrom.cons h1 h2).append h3

theorem parseProgram (cp n : Nat) : PL S (fun t => AllFrom S t.ids ∧ List.Forall₂ (fun p t => IdsOf (files p) t.ids) (usedFiles sep t.uses) t.units)
    (TP.parseProgram u sep files lib it cp n) := by
  unfold TP.parseProgram TP.parseProgramUses
  refine (current u).bind fun _ _ => (nextIs u).bind fun t ht => (nextIs u).bind fun _ _ => (next u).bind fun _ _ => ?_
  refine bind (A := fun us => AllFrom S (us.1.map UsesEntry.ident) ∧ List.Forall₂ (fun p t => IdsOf (files p) t.ids) (usedFiles sep us.1) us.2)
    ?_ fun us hu => (block n).bind fun b hb => (current u).bind fun _ _ => pure ⟨program_ids ht hu.1 hb, hu.2⟩
  refine (is u).bind fun _ _ => ite ((parseUses n).bind fun es he => (next u).bind fun _ _ => (loadUnits cp _ es n).bind fun ls h => pure ⟨he, ?_⟩)
    (pure ⟨.nil, .nil⟩)
  rw [← h.1, List.forall₂_map_left_iff, List.forall₂_map_right_iff, List.forall₂_same]
  intro l hl
  obtain ⟨ts, tl, h1, h2, -⟩ := h.2 l hl
  exact ⟨ts, tl, h1, h2⟩

end PL

end TP
