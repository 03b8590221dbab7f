import Verif.Lemmas.RestrictType

/-!
# What statements and declarations declare
-/

namespace TP
open Spec

variable {κ δ : Type} {u : Uni} {D : DEnv κ δ} {S : Dcl δ → Prop} {F : κ → Prop} {okS : κ → List Ident → DKind δ → Prop} {okC : κ → Ident → PType δ → Prop}

local notation "D'" => (DEnv.restrict D okS okC)

/-- what is in the lists -/
macro "dclss" : tactic => `(tactic| (
  intros
  rename_i x hx
  simp only [dclStmt, dclBody, dclStmts, dclOptStmts, dclSels, dclExcBlock, dclHandlers, dclHandler, dclConst, dclVar, dclThreadVar, dclTypeDecl,
    dclBlock, dclSections, dclSection, dcls, List.map_cons, List.map_nil, Option.toList, List.mem_append, List.mem_cons, List.not_mem_nil, List.nil_append,
    List.append_nil, or_false, false_or, List.flatMap_cons, List.flatMap_nil, List.cons_append, id_eq] at hx ⊢
  try tauto))

/-- the steps of a parser; the terms are about the parsers it calls -/
syntax "res " "[" term,* "]" : tactic
macro_rules
  | `(tactic| res [$ts,*]) => do
    let alts ← ts.getElems.mapM fun t => `(tactic| exact $t)
    let alts := alts.push (← `(tactic| fail))
    `(tactic| repeat' (first
      | exact Re.fail
      | exact Re.wait
      | refine Re.last (by first $[| $alts:tactic]*) (by dclss; done)
      | refine Re.ite ?_ ?_
      | refine Re.step (by quiet') fun _ => ?_
      | refine Re.bind (by first $[| $alts:tactic]*) fun _ => ?_
      | exact Re.pure (by dclss; done)
      | split))

section
variable (B : ReBase u D S F okS okC)
include B

theorem qual_re : Re S F [] (parseQualId u D.toEnv) (parseQualId u (D').toEnv) (fun _ => []) := Re.calm (Tr.qual B.calm)

theorem qualIds_re : ∀ n : Nat, Re S F [] (parseQualIds u (D.senv u) n) (parseQualIds u (DEnv.senv u (D')) n) (fun _ => []) := by
  intro n
  induction n with
  | zero => exact Re.wait
  | succ n ih =>
    unfold parseQualIds
    res [qual_re B, ih]

theorem caseLabel_re (n : Nat) : Re S F [] (parseCaseLabel u (D.senv u) n) (parseCaseLabel u (DEnv.senv u (D')) n) (fun _ => []) :=
  Re.calm (caseLabel_tr B.calm n)

theorem caseLabels_re : ∀ n : Nat, Re S F [] (parseCaseLabels u (D.senv u) n) (parseCaseLabels u (DEnv.senv u (D')) n) (fun _ => []) := by
  intro n
  induction n with
  | zero => exact Re.wait
  | succ n ih =>
    unfold parseCaseLabels
    res [caseLabel_re B n, ih]

theorem raise_re (n : Nat) : Re S F [] (parseRaise u (D.senv u) n) (parseRaise u (DEnv.senv u (D')) n) dclBody := Re.calm (raise_tr B.calm n)

theorem desigStmt_re (n : Nat) : Re S F [] (parseDesigStmt u (D.senv u) n) (parseDesigStmt u (DEnv.senv u (D')) n) dclBody :=
  Re.calm (desigStmt_tr B.calm n)

theorem setHandler_re (i : Ident) (t : PType δ) :
    Re S F [] (setHandler (D.senv u) i t) (setHandler (DEnv.senv u (D')) i t) (fun _ => [.named .handler i]) := by
  have : Re S F [] (setDecl D [i] .handler) (setDecl (D') [i] .handler) _ := Re.setDecl B
  exact this

end

/-! ## Statements -/

variable (u D S F okS okC) in
/-- all parsers of statements with fuel `n` -/
structure StmtsRe (n : Nat) : Prop where
  stmt : Re S F [] (parseStmt u (D.senv u) n) (parseStmt u (DEnv.senv u (D')) n) dclStmt
  body : Re S F [] (parseBody u (D.senv u) n) (parseBody u (DEnv.senv u (D')) n) dclBody
  stmts : ∀ p, Re S F [] (parseStmts u (D.senv u) p n) (parseStmts u (DEnv.senv u (D')) p n) dclStmts
  compound : Re S F [] (parseCompound u (D.senv u) n) (parseCompound u (DEnv.senv u (D')) n) dclBody
  if' : Re S F [] (parseIf u (D.senv u) n) (parseIf u (DEnv.senv u (D')) n) dclBody
  case' : Re S F [] (parseCase u (D.senv u) n) (parseCase u (DEnv.senv u (D')) n) dclBody
  sels : Re S F [] (parseSels u (D.senv u) n) (parseSels u (DEnv.senv u (D')) n) dclSels
  repeat' : Re S F [] (parseRepeat u (D.senv u) n) (parseRepeat u (DEnv.senv u (D')) n) dclBody
  while' : Re S F [] (parseWhile u (D.senv u) n) (parseWhile u (DEnv.senv u (D')) n) dclBody
  for' : Re S F [] (parseFor u (D.senv u) n) (parseFor u (DEnv.senv u (D')) n) dclBody
  with' : Re S F [] (parseWith u (D.senv u) n) (parseWith u (DEnv.senv u (D')) n) dclBody
  try' : Re S F [] (parseTry u (D.senv u) n) (parseTry u (DEnv.senv u (D')) n) dclBody
  excBlock : Re S F [] (parseExcBlock u (D.senv u) n) (parseExcBlock u (DEnv.senv u (D')) n) dclExcBlock
  excElse : Re S F [] (parseExcElse u (D.senv u) n) (parseExcElse u (DEnv.senv u (D')) n) dclOptStmts
  handlers : Re S F [] (parseHandlers u (D.senv u) n) (parseHandlers u (DEnv.senv u (D')) n) dclHandlers
  handler : Re S F [] (parseHandler u (D.senv u) n) (parseHandler u (DEnv.senv u (D')) n) dclHandler

set_option maxHeartbeats 1000000 in
theorem stmtsRe (B : ReBase u D S F okS okC) : ∀ n, StmtsRe u D S F okS okC n := by
  intro n
  induction n with
  | zero =>
    constructor
    all_goals intros
    all_goals first
      | (unfold parseStmt; exact Re.wait) | (unfold parseBody; exact Re.wait) | (unfold parseStmts; exact Re.wait)
      | (unfold parseCompound; exact Re.wait) | (unfold parseIf; exact Re.wait) | (unfold parseCase; exact Re.wait)
      | (unfold parseSels; exact Re.wait) | (unfold parseRepeat; exact Re.wait) | (unfold parseWhile; exact Re.wait)
      | (unfold parseFor; exact Re.wait) | (unfold parseWith; exact Re.wait) | (unfold parseTry; exact Re.wait)
      | (unfold parseExcBlock; exact Re.wait) | (unfold parseExcElse; exact Re.wait) | (unfold parseHandlers; exact Re.wait)
      | (unfold parseHandler; exact Re.wait)
  | succ n ih =>
    constructor
    case stmt =>
      unfold parseStmt
      refine Re.step quiet_label fun _ => ?_
      res [ih.body]
    case body =>
      unfold parseBody
      have h1 : Re S F [] (parseInherited u) (parseInherited u) (dclBody (δ := δ)) := by unfold parseInherited; res []
      have h2 : Re S F [] (parseGoto u (D.senv u)) (parseGoto u (DEnv.senv u (D'))) (dclBody (δ := δ)) := by unfold parseGoto; res []
      have h3 : Re S F [] (parseAsm u n) (parseAsm u n) (dclBody (δ := δ)) := by
        unfold parseAsm
        refine Re.step (quiet_current _) fun _ => Re.step quiet_next fun _ => Re.step (quiet_asmLoop n) fun _ => ?_
        res []
      res [h1, h2, h3, ih.compound, ih.if', ih.case', ih.repeat', ih.while', ih.for', ih.with', ih.try', raise_re B n, desigStmt_re B n]
    case stmts => intro p; unfold parseStmts; res [ih.stmt, ih.stmts _]
    case compound => unfold parseCompound; res [ih.stmts _]
    case if' => unfold parseIf; res [expr_re B n, ih.stmt]
    case case' => unfold parseCase; res [expr_re B n, ih.sels, ih.stmts _]
    case sels => unfold parseSels; res [caseLabels_re B n, ih.stmt, ih.sels]
    case repeat' => unfold parseRepeat; res [expr_re B n, ih.stmts _]
    case while' => unfold parseWhile; res [expr_re B n, ih.stmt]
    case for' => unfold parseFor; res [qual_re B, expr_re B n, ih.stmt]
    case with' => unfold parseWith; res [qualIds_re B n, ih.stmt]
    case try' => unfold parseTry; res [ih.stmts _, ih.excBlock]
    case excBlock => unfold parseExcBlock; res [ih.handlers, ih.excElse, ih.stmts _]
    case excElse => unfold parseExcElse; res [ih.stmts _]
    case handlers => unfold parseHandlers; res [ih.handler, ih.handlers]
    case handler =>
      unfold parseHandler
      refine Re.step (quiet_current _) fun _ => Re.step quiet_next fun _ => Re.step quiet_handlerIdent fun i => ?_
      refine Re.bind (typesRe B (2 * n)).type fun ty => ?_
      cases i with
      | none => res [ih.stmt]
      | some i => res [setHandler_re B _ _, ih.stmt]

end TP
