import Verif.Lemmas.LocalDecl
import Verif.Model.Goal

/-!
# What a run of the parsers of units and programs does not look at
-/

namespace TP

variable {α β : Type} {u : Uni}

theorem Loc.stepP (f : DS → Option DS) : Loc (TP.stepP f) :=
  Loc.step (fun c => match f c with
    | some c => .ok () c
    | none => .panic) fun s => by
    unfold TP.stepP
    cases f s.cx <;> rfl

theorem Loc.stepR (f : DS → SetR DS) : Loc (TP.stepR f) :=
  Loc.step (fun c => match f c with
    | .ok c => .ok () c
    | .err => .err
    | .panic => .panic) fun s => by
    unfold TP.stepR
    cases f s.cx <;> rfl

theorem Loc.askP (f : DS → α) : Loc (TP.askP f) := Loc.step (fun c => .ok (f c) c) fun _ => rfl

theorem Loc.inImpl {cu unit : Nat} {es : List UsesEntry} {p : P DS α} (h : Loc p) : Loc (TP.inImpl u cu unit es p) := by
  constructor
  · intro s v s' e
    unfold TP.inImpl at e
    cases ho : s.cx.openImpl u cu unit es with
    | none => rw [ho] at e; cases e
    | some km =>
      obtain ⟨k, um⟩ := km
      rw [ho] at e
      simp only at e
      cases hp : p { s with cx := k } <;> rw [hp] at e <;> simp only [R.ok.injEq, reduceCtorEq] at e
      obtain ⟨_, rfl⟩ := e
      have := h.shr _ _ _ hp
      exact this
  · intro s e tl hs
    unfold TP.inImpl
    change OnCut e tl _ (match s.cx.openImpl u cu unit es with
      | none => .panic
      | some (k, um) =>
        match p (PS.ext { s with cx := k } e tl) with
        | .ok a s' => .ok a { s' with cx := s'.cx.closeImpl unit um }
        | .err => .err
        | .panic => .panic
        | .wait => .wait)
    cases ho : s.cx.openImpl u cu unit es with
    | none => rfl
    | some km =>
      obtain ⟨k, um⟩ := km
      simp only
      have := h.ends { s with cx := k } e tl hs
      cases hp : p { s with cx := k } with
      | ok v s' => rw [hp] at this; rw [this.2]; exact ⟨this.1, rfl⟩
      | err => rw [hp] at this; change p (PS.ext _ e tl) = _ at this; rw [this]; rfl
      | panic => rw [hp] at this; change p (PS.ext _ e tl) = _ at this; rw [this]; rfl
      | wait =>
        rw [hp] at this
        intro v s' e1
        cases h1 : p (PS.ext { s with cx := k } e tl) <;> rw [h1] at e1 <;> simp only [R.ok.injEq, reduceCtorEq] at e1
        obtain ⟨_, rfl⟩ := e1
        have := this _ _ h1
        exact this

theorem Loc.run (l : Loader) (p : P DS α) : Loc (l.run p) := Loc.read fun s => by
  unfold Loader.run
  simp only
  cases p ⟨l.ts, l.tail, { s.cx with cur := l.cur, pending := l.pending }⟩ <;> rfl

theorem Loc.enterP (cp : Nat) (i : Ident) (es : List UsesEntry) (hs : List UnitHead) : Loc (TP.enterP u cp i es hs) := Loc.read fun s => by
  unfold TP.enterP
  simp only
  cases s.cx.usesMap u es hs [] with
  | none => rfl
  | some km =>
    simp only
    cases km.1.enterProgram u cp i hs km.2 <;> rfl

macro_rules | `(tactic| loc_leaf) => `(tactic| with_reducible first
  | exact Loc.stepP _ | exact Loc.stepR _ | exact Loc.askP _ | exact Loc.run _ _ | exact Loc.enterP _ _ _ _ | exact (stmtL' _).stmts _ | exact (blockL _).declSects | fail)
macro_rules | `(tactic| loc_step) => `(tactic| with_reducible refine Loc.inImpl ?_)

theorem Loc.parseUsesItem : Loc (TP.parseUsesItem u) := by
  unfold TP.parseUsesItem
  loc

macro_rules | `(tactic| loc_leaf) => `(tactic| with_reducible exact Loc.parseUsesItem)

theorem Loc.parseUsesItems : ∀ n, Loc (TP.parseUsesItems u n)
  | 0 => Loc.wait
  | n + 1 => by
    have ih := Loc.parseUsesItems n
    unfold TP.parseUsesItems
    loc

macro_rules | `(tactic| loc_leaf) => `(tactic| with_reducible exact Loc.parseUsesItems _)

theorem Loc.declareUses : ∀ l, Loc (TP.declareUses u l)
  | [] => Loc.pure _
  | (i, p) :: l => by
    have ih := Loc.declareUses l
    unfold TP.declareUses
    loc

macro_rules | `(tactic| loc_leaf) => `(tactic| with_reducible exact Loc.declareUses _)

theorem Loc.parseUses (n : Nat) : Loc (TP.parseUses u n) := by
  unfold TP.parseUses
  loc

macro_rules | `(tactic| loc_leaf) => `(tactic| with_reducible exact Loc.parseUses _)

theorem Loc.parseOptUses (n : Nat) : Loc (TP.parseOptUses u n) := by
  unfold TP.parseOptUses
  loc

macro_rules | `(tactic| loc_leaf) => `(tactic| with_reducible exact Loc.parseOptUses _)

theorem Loc.parseUnitIdent : Loc (TP.parseUnitIdent u) := by
  unfold TP.parseUnitIdent
  loc

macro_rules | `(tactic| loc_leaf) => `(tactic| with_reducible exact Loc.parseUnitIdent)

theorem Loc.parseIntfUses (n : Nat) : Loc (TP.parseIntfUses u n) := by
  unfold TP.parseIntfUses
  loc

macro_rules | `(tactic| loc_leaf) => `(tactic| with_reducible exact Loc.parseIntfUses _)

theorem Loc.parseIdentAndUses (n : Nat) : Loc (TP.parseIdentAndUses u n) := by
  unfold TP.parseIdentAndUses
  loc

macro_rules | `(tactic| loc_leaf) => `(tactic| with_reducible exact Loc.parseIdentAndUses _)

theorem Loc.parseIntfDecl (n : Nat) (t : Token) : Loc (TP.parseIntfDecl u n t) := by
  unfold TP.parseIntfDecl
  loc

macro_rules | `(tactic| loc_leaf) => `(tactic| with_reducible exact Loc.parseIntfDecl _ _)

theorem Loc.parseIntfDecls : ∀ n, Loc (TP.parseIntfDecls u n)
  | 0 => Loc.wait
  | n + 1 => by
    have ih := Loc.parseIntfDecls n
    unfold TP.parseIntfDecls
    loc

macro_rules | `(tactic| loc_leaf) => `(tactic| with_reducible exact Loc.parseIntfDecls _)

theorem Loc.parseIntfBody (unit n : Nat) : Loc (TP.parseIntfBody u unit n) := by
  unfold TP.parseIntfBody
  loc

macro_rules | `(tactic| loc_leaf) => `(tactic| with_reducible exact Loc.parseIntfBody _ _)

theorem Loc.parseImplUses (cu n : Nat) : Loc (TP.parseImplUses u cu n) := by
  unfold TP.parseImplUses
  loc

macro_rules | `(tactic| loc_leaf) => `(tactic| with_reducible exact Loc.parseImplUses _ _)

theorem Loc.parseImplBody (n : Nat) : Loc (TP.parseImplBody u n) := by
  unfold TP.parseImplBody
  loc

macro_rules | `(tactic| loc_leaf) => `(tactic| with_reducible exact Loc.parseImplBody _)

theorem Loc.parseInit (n : Nat) : Loc (TP.parseInit u n) := by
  unfold TP.parseInit
  loc

macro_rules | `(tactic| loc_leaf) => `(tactic| with_reducible exact Loc.parseInit _)

theorem Loc.parseUnitEnd (n : Nat) : Loc (TP.parseUnitEnd u n) := by
  unfold TP.parseUnitEnd
  loc

macro_rules | `(tactic| loc_leaf) => `(tactic| with_reducible exact Loc.parseUnitEnd _)

theorem Loc.parseImplAndEnd (n : Nat) : Loc (TP.parseImplAndEnd u n) := by
  unfold TP.parseImplAndEnd
  loc

macro_rules | `(tactic| loc_leaf) => `(tactic| with_reducible exact Loc.parseImplAndEnd _)

theorem Loc.parseUnit (cu n : Nat) : Loc (TP.parseUnit u cu n) := by
  unfold TP.parseUnit
  loc

macro_rules | `(tactic| loc_leaf) => `(tactic| with_reducible exact Loc.parseUnit _ _)

theorem Loc.processIntf (cu : Nat) (h : UnitHead) (es : List UsesEntry) (n : Nat) : Loc (TP.processIntf u cu h es n) := by
  unfold TP.processIntf
  loc

macro_rules | `(tactic| loc_leaf) => `(tactic| with_reducible exact Loc.processIntf _ _ _ _)

theorem Loc.processImpl (cu unit n : Nat) : Loc (TP.processImpl u cu unit n) := by
  unfold TP.processImpl
  loc

macro_rules | `(tactic| loc_leaf) => `(tactic| with_reducible exact Loc.processImpl _ _ _)

variable {sep : Char} {files files₀ : Str → FileR} {lib : TopoLib} {it : List UParser → List Str}

theorem Loc.newLoaders (cp : Nat) : ∀ es, Loc (TP.newLoaders sep cp es)
  | [] => Loc.pure _
  | e :: es => by
    have ih := Loc.newLoaders cp es
    unfold TP.newLoaders
    dsimp only
    loc

macro_rules | `(tactic| loc_leaf) => `(tactic| with_reducible exact Loc.newLoaders _ _)

theorem Loc.loadUnit (n : Nat) (path : Str) (c : Nat) : Loc (TP.loadUnit u files n path c) := by
  unfold TP.loadUnit
  loc

macro_rules | `(tactic| loc_leaf) => `(tactic| with_reducible exact Loc.loadUnit _ _ _)

theorem Loc.loadAll (cp n : Nat) : ∀ cs, Loc (TP.loadAll u files cp n cs)
  | [] => Loc.pure _
  | (p, c) :: cs => by
    have ih := Loc.loadAll cp n cs
    unfold TP.loadAll
    loc

theorem Loc.intfAll (n : Nat) : ∀ is ls, Loc (TP.intfAll u n is ls)
  | [], _ => Loc.pure _
  | i :: is, ls => by
    have ih := Loc.intfAll n is
    unfold TP.intfAll
    repeat' first
      | exact ih _
      | loc_step

theorem Loc.implAll (n : Nat) : ∀ is ls, Loc (TP.implAll u n is ls)
  | [], _ => Loc.pure _
  | i :: is, ls => by
    have ih := Loc.implAll n is
    unfold TP.implAll
    repeat' first
      | exact ih _
      | loc_step

macro_rules | `(tactic| loc_leaf) => `(tactic| with_reducible exact Loc.loadAll _ _ _)

macro_rules | `(tactic| loc_leaf) => `(tactic| with_reducible exact Loc.intfAll _ _ _)

macro_rules | `(tactic| loc_leaf) => `(tactic| with_reducible exact Loc.implAll _ _ _)

theorem Loc.loadUnits (cp : Nat) (i : Ident) (es : List UsesEntry) (n : Nat) : Loc (TP.loadUnits u sep files lib it cp i es n) := by
  unfold TP.loadUnits
  loc

macro_rules | `(tactic| loc_leaf) => `(tactic| with_reducible exact Loc.loadUnits _ _ _ _)

theorem Loc.parseProgramUses (cp : Nat) (i : Ident) (n : Nat) : Loc (TP.parseProgramUses u sep files lib it cp i n) := by
  unfold TP.parseProgramUses
  loc

macro_rules | `(tactic| loc_leaf) => `(tactic| with_reducible exact Loc.parseProgramUses _ _ _)

theorem Loc.parseProgram (cp n : Nat) : Loc (TP.parseProgram u sep files lib it cp n) := by
  unfold TP.parseProgram
  loc

macro_rules | `(tactic| loc_leaf) => `(tactic| with_reducible exact Loc.parseProgram _ _)

end TP
