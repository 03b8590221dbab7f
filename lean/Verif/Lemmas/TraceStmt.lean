import Verif.Spec.AllTypeIds
import Verif.Lemmas.TraceSection

/-!
# The type identifiers of statements and blocks
-/

namespace TP
open Spec

variable {κ δ : Type} {u : Uni} {D : DEnv κ δ} {I : κ → Prop} {E : κ → κ → Prop} {V : κ → TypeId δ → Prop}

/-- what is in the lists -/
macro "idss" : tactic => `(tactic| (
  intro x hx
  simp only [idsStmt, idsBody, idsStmts, idsOptStmts, idsSels, idsExcBlock, idsHandlers, idsHandler, idsConsts, idsVars, idsThreadVars,
    idsBlock, idsSections, idsSection, Option.toList, List.mem_append, List.mem_cons, List.not_mem_nil, List.nil_append,
    List.append_nil, or_false, false_or, List.flatMap_cons, List.flatMap_nil, id_eq] at hx ⊢
  try tauto))

/-- the steps of a parser; the terms are about the parsers it calls -/
syntax "trs " "[" term,* "]" : tactic
macro_rules
  | `(tactic| trs [$ts,*]) => do
    let alts ← ts.getElems.mapM fun t => `(tactic| exact $t)
    let alts := alts.push (← `(tactic| fail))
    `(tactic| repeat' (first
      | exact Tr.fail
      | exact Tr.wait
      | refine Tr.any (by first $[| $alts:tactic]*) _
      | refine Tr.ite ?_ ?_
      | refine Tr.step (by assumption) (by quiet') fun _ => ?_
      | refine Tr.bind (by assumption) (Tr.any (by first $[| $alts:tactic]*) _) fun _ => ?_
      | exact Tr.pure (by assumption) (by idss)
      | split))

/-! ## Expressions -/

/-- an environment without types -/
abbrev DEnv.bare (D : DEnv κ δ) : SEnv κ δ Unit :=
  { D.toEnv with isLabel := D.isLabel, setHandler := fun _ _ _ => .err, parseType := fun _ => P.fail }

section
variable (B : TrBase u D I E V)
include B

theorem TrBase.bare (tl : Tail) : SBase u D.bare (fun _ _ _ _ => True) (fun k c => I c ∧ E k c) (fun _ => True) tl True True False where
  roll := fun _ _ h => ⟨(B.roll h.1).1, B.trans h.2 (B.roll h.1).2⟩
  get := fun l => l.elim
  member := fun l => l.elim
  nil := fun _ => trivial
  hang := fun _ => trivial
  ns := fun _ _ _ _ _ _ _ _ _ _ _ _ _ => trivial
  set := fun _ _ _ _ _ => trivial
  good := fun _ _ _ => trivial
  asm := fun _ _ _ _ _ => trivial
  type := fun _ _ _ _ _ _ _ => trivial

theorem Tr.desig (n : Nat) {hs : List (TypeId δ)} : Tr I E V hs (parseDesig u D.toEnv n) (fun _ => []) := by
  intro s hi _ a s' e
  have := (B.bare s.tail).desig (k := s.cx) (s := s) ⟨rfl, ⟨hi, B.refl _⟩, trivial⟩ (n := n) (fun _ => trivial) (f := fun e => Pure.pure e)
    (Q := fun _ s' => I s'.cx ∧ E s.cx s'.cx) (fun e s' used _ h _ => h.cx)
  rw [wp_bind] at this
  unfold wp at this
  rw [show parseDesig u D.bare.toEnv n s = .ok a s' from e] at this
  exact ⟨this.1, this.2, fun _ h => by cases h⟩

theorem Tr.qual {hs : List (TypeId δ)} : Tr I E V hs (parseQualId u D.toEnv) (fun _ => []) := by
  intro s hi _ a s' e
  have := (B.bare s.tail).qual (k := s.cx) (s := s) ⟨rfl, ⟨hi, B.refl _⟩, trivial⟩ (f := fun e => Pure.pure e)
    (Q := fun _ s' => I s'.cx ∧ E s.cx s'.cx) (fun e s' used _ h _ _ => h.cx)
  rw [wp_bind] at this
  unfold wp at this
  rw [show parseQualId u D.bare.toEnv s = .ok a s' from e] at this
  exact ⟨this.1, this.2, fun _ h => by cases h⟩

theorem args_tr (n : Nat) (d : Desig δ) : Tr I E V [] (do
    let es ← parseExprs u D.toEnv (sym r!")") n
    let _ ← P.current (sym r!")")
    P.next
    pure (.callArgs d es) : P κ (Body δ (PType δ))) (idsBody idsType) := by
  intro s hi _ a s' e
  have := (B.bare s.tail).args (k := s.cx) (s := s) ⟨rfl, ⟨hi, B.refl _⟩, trivial⟩ (n := n) (fun _ => trivial)
    (f := fun es => (Pure.pure (.callArgs d es) : P κ (Body δ (PType δ)))) (Q := fun b s' => (∃ es, b = .callArgs d es) ∧ I s'.cx ∧ E s.cx s'.cx)
    (fun es s' used _ _ h _ _ => ⟨⟨es, rfl⟩, h.cx⟩)
  unfold wp at this
  rw [show (parseExprs u D.bare.toEnv (sym r!")") n >>= fun es => P.current (sym r!")") >>= fun _ => P.next >>= fun _ =>
    (Pure.pure (.callArgs d es) : P κ (Body δ (PType δ)))) s = .ok a s' from e] at this
  obtain ⟨⟨es, rfl⟩, h1, h2⟩ := this
  exact ⟨h1, h2, fun _ h => by cases h⟩

theorem qualIds_tr : ∀ n : Nat, Tr I E V [] (parseQualIds u (D.senv u) n) (fun _ => []) := by
  intro n
  induction n with
  | zero => exact Tr.wait
  | succ n ih =>
    unfold parseQualIds
    trs [Tr.qual B, ih]

theorem caseLabel_tr (n : Nat) : Tr I E V [] (parseCaseLabel u (D.senv u) n) (fun _ => []) := by
  unfold parseCaseLabel
  trs [Tr.expr B n]

theorem caseLabels_tr : ∀ n : Nat, Tr I E V [] (parseCaseLabels u (D.senv u) n) (fun _ => []) := by
  intro n
  induction n with
  | zero => exact Tr.wait
  | succ n ih =>
    unfold parseCaseLabels
    trs [caseLabel_tr B n, ih]

theorem raise_tr (n : Nat) : Tr I E V [] (parseRaise u (D.senv u) n) (idsBody idsType) := by
  unfold parseRaise
  have : Tr I E V [] (do
      if ← P.is (Pred.upperCase u r!"AT") then pure none
      else do
        let e ← parseExpr u D.toEnv n
        pure (some e) : P κ (Option (Expr δ))) (fun _ => []) := by
    trs [Tr.expr B n]
  trs [this, Tr.expr B n]

theorem desigStmt_tr (n : Nat) : Tr I E V [] (parseDesigStmt u (D.senv u) n) (idsBody idsType) := by
  unfold parseDesigStmt
  trs [Tr.desig B n, Tr.expr B n, args_tr B n _]

end

/-! ## Statements -/

theorem quiet_asmLoop : ∀ n, Quiet (asmLoop u n : P κ Unit) := by
  intro n
  induction n with
  | zero => exact quiet_wait
  | succ n ih => unfold asmLoop; quiets

theorem quiet_asm {τ : Type} (n : Nat) : Quiet (parseAsm u n : P κ (Body δ τ)) := by
  unfold parseAsm
  exact (quiet_current _).bind fun _ => quiet_next.bind fun _ => (quiet_asmLoop n).bind fun _ => quiet_pure _

theorem quiet_label : Quiet (parseLabel u (D.senv u)) := by
  unfold parseLabel
  refine quiet_cur.bind fun t => (quiet_getDecl (D := D) _).bind fun d => ?_
  quiets

theorem quiet_handlerIdent : Quiet (parseHandlerIdent (D.senv u)) := by
  unfold parseHandlerIdent
  refine quiet_cur.bind fun t => (quiet_getDecl (D := D) _).bind fun d => ?_
  quiets

variable (u D I E V) in
/-- all that a parser does to its context -/
structure TrDecl : Prop extends TrBase u D I E V where
  setAll : ∀ {c is k c'}, (∀ t, k ≠ .type t) → I c → D.set c is k = .ok c' → I c' ∧ E c c'
  sect : ∀ n, Tr I E V [] (parseTypeSection u D n) idsDecls

theorem Tr.any_setDecl (B : TrDecl u D I E V) {is : List Ident} {k : DKind δ} {hs : List (TypeId δ)}
    (hk : ∀ t, k ≠ .type t := by intro _ h; cases h) : Tr I E V hs (TP.setDecl D is k) (fun _ => []) := by
  intro s hi _ a s' e
  unfold TP.setDecl at e
  cases e1 : D.set s.cx is k with
  | ok c =>
    rw [e1] at e; cases e
    exact ⟨(B.setAll hk hi e1).1, (B.setAll hk hi e1).2, fun _ h => by cases h⟩
  | _ => rw [e1] at e; cases e

theorem Tr.setHandler (B : TrDecl u D I E V) {i : Ident} {t : PType δ} {hs : List (TypeId δ)} :
    Tr I E V hs (TP.setHandler (D.senv u) i t) (fun _ => []) := by
  intro s hi _ a s' e
  unfold TP.setHandler at e
  cases e1 : (D.senv u).setHandler s.cx i t with
  | ok c =>
    rw [e1] at e; cases e
    exact ⟨(B.setAll (by intro _ h; cases h) hi e1).1, (B.setAll (by intro _ h; cases h) hi e1).2, fun _ h => by cases h⟩
  | _ => rw [e1] at e; cases e

variable (u D I E V) in
/-- all parsers of statements with fuel `n` -/
structure StmtsTr (n : Nat) : Prop where
  stmt : Tr I E V [] (parseStmt u (D.senv u) n) (idsStmt idsType)
  body : Tr I E V [] (parseBody u (D.senv u) n) (idsBody idsType)
  stmts : ∀ p, Tr I E V [] (parseStmts u (D.senv u) p n) (idsStmts idsType)
  compound : Tr I E V [] (parseCompound u (D.senv u) n) (idsBody idsType)
  if' : Tr I E V [] (parseIf u (D.senv u) n) (idsBody idsType)
  case' : Tr I E V [] (parseCase u (D.senv u) n) (idsBody idsType)
  sels : Tr I E V [] (parseSels u (D.senv u) n) (idsSels idsType)
  repeat' : Tr I E V [] (parseRepeat u (D.senv u) n) (idsBody idsType)
  while' : Tr I E V [] (parseWhile u (D.senv u) n) (idsBody idsType)
  for' : Tr I E V [] (parseFor u (D.senv u) n) (idsBody idsType)
  with' : Tr I E V [] (parseWith u (D.senv u) n) (idsBody idsType)
  try' : Tr I E V [] (parseTry u (D.senv u) n) (idsBody idsType)
  excBlock : Tr I E V [] (parseExcBlock u (D.senv u) n) (idsExcBlock idsType)
  excElse : Tr I E V [] (parseExcElse u (D.senv u) n) (idsOptStmts idsType)
  handlers : Tr I E V [] (parseHandlers u (D.senv u) n) (idsHandlers idsType)
  handler : Tr I E V [] (parseHandler u (D.senv u) n) (idsHandler idsType)

theorem stmtsTr (C : TrDecl u D I E V) : ∀ n, StmtsTr u D I E V n := by
  have B := C.toTrBase
  intro n
  induction n with
  | zero =>
    constructor
    all_goals intros
    all_goals first
      | (unfold parseStmt; exact Tr.wait) | (unfold parseBody; exact Tr.wait) | (unfold parseStmts; exact Tr.wait)
      | (unfold parseCompound; exact Tr.wait) | (unfold parseIf; exact Tr.wait) | (unfold parseCase; exact Tr.wait)
      | (unfold parseSels; exact Tr.wait) | (unfold parseRepeat; exact Tr.wait) | (unfold parseWhile; exact Tr.wait)
      | (unfold parseFor; exact Tr.wait) | (unfold parseWith; exact Tr.wait) | (unfold parseTry; exact Tr.wait)
      | (unfold parseExcBlock; exact Tr.wait) | (unfold parseExcElse; exact Tr.wait) | (unfold parseHandlers; exact Tr.wait)
      | (unfold parseHandler; exact Tr.wait)
  | succ n ih =>
    constructor
    case stmt =>
      unfold parseStmt
      refine Tr.step B quiet_label fun _ => ?_
      trs [ih.body]
    case body =>
      unfold parseBody
      have h1 : Tr I E V [] (parseInherited u) (idsBody (δ := δ) idsType) := by unfold parseInherited; trs []
      have h2 : Tr I E V [] (parseGoto u (D.senv u)) (idsBody (δ := δ) idsType) := by unfold parseGoto; trs []
      have h3 : Tr I E V [] (parseAsm u n) (idsBody (δ := δ) idsType) := by
        unfold parseAsm
        refine Tr.step B (quiet_current _) fun _ => Tr.step B quiet_next fun _ => Tr.step B (quiet_asmLoop n) fun _ => ?_
        trs []
      trs [h1, h2, h3, ih.compound, ih.if', ih.case', ih.repeat', ih.while', ih.for', ih.with', ih.try', raise_tr B n, desigStmt_tr B n]
    case stmts => intro p; unfold parseStmts; trs [ih.stmt, ih.stmts _]
    case compound => unfold parseCompound; trs [ih.stmts _]
    case if' => unfold parseIf; trs [Tr.expr B n, ih.stmt]
    case case' => unfold parseCase; trs [Tr.expr B n, ih.sels, ih.stmts _]
    case sels => unfold parseSels; trs [caseLabels_tr B n, ih.stmt, ih.sels]
    case repeat' => unfold parseRepeat; trs [Tr.expr B n, ih.stmts _]
    case while' => unfold parseWhile; trs [Tr.expr B n, ih.stmt]
    case for' => unfold parseFor; trs [Tr.qual B, Tr.expr B n, ih.stmt]
    case with' => unfold parseWith; trs [qualIds_tr B n, ih.stmt]
    case try' => unfold parseTry; trs [ih.stmts _, ih.excBlock]
    case excBlock => unfold parseExcBlock; trs [ih.handlers, ih.excElse, ih.stmts _]
    case excElse => unfold parseExcElse; trs [ih.stmts _]
    case handlers => unfold parseHandlers; trs [ih.handler, ih.handlers]
    case handler =>
      unfold parseHandler
      refine Tr.step B (quiet_current _) fun _ => Tr.step B quiet_next fun _ => Tr.step B quiet_handlerIdent fun i => ?_
      refine Tr.bind B (Tr.any (typesTr B (2 * n)).type _) fun ty => ?_
      cases i with
      | none => trs [ih.stmt]
      | some i => trs [Tr.setHandler C, ih.stmt]

end TP
