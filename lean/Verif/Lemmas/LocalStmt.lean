import Verif.Lemmas.Local

/-!
# What a run of the parsers of statements, types and declarations does not look at
-/

namespace TP

variable {κ δ τ α β : Type} {u : Uni}

section
variable {S : SEnv κ δ τ}

theorem Loc.setHandler (i : Ident) (t : τ) : Loc (TP.setHandler S i t) :=
  Loc.step (fun k => match S.setHandler k i t with
    | .ok c => .ok () c
    | .err => .err
    | .panic => .panic) fun s => by
    unfold TP.setHandler
    cases S.setHandler s.cx i t <;> rfl

macro_rules | `(tactic| loc_leaf) => `(tactic| with_reducible exact Loc.setHandler _ _)

theorem Loc.parseQualIds : ∀ n, Loc (TP.parseQualIds u S n)
  | 0 => Loc.wait
  | n + 1 => by
    have ih := Loc.parseQualIds n
    unfold TP.parseQualIds
    loc

macro_rules | `(tactic| loc_leaf) => `(tactic| with_reducible exact Loc.parseQualIds _)

theorem Loc.parseCaseLabel (n : Nat) : Loc (TP.parseCaseLabel u S n) := by
  unfold TP.parseCaseLabel
  loc

macro_rules | `(tactic| loc_leaf) => `(tactic| with_reducible exact Loc.parseCaseLabel _)

theorem Loc.parseCaseLabels : ∀ n, Loc (TP.parseCaseLabels u S n)
  | 0 => Loc.wait
  | n + 1 => by
    have ih := Loc.parseCaseLabels n
    unfold TP.parseCaseLabels
    loc

macro_rules | `(tactic| loc_leaf) => `(tactic| with_reducible exact Loc.parseCaseLabels _)

theorem Loc.parseRaise (n : Nat) : Loc (TP.parseRaise u S n) := by
  unfold TP.parseRaise
  loc

macro_rules | `(tactic| loc_leaf) => `(tactic| with_reducible exact Loc.parseRaise _)

theorem Loc.asmLoop : ∀ n, Loc (TP.asmLoop u n : P κ Unit)
  | 0 => Loc.wait
  | n + 1 => by
    have ih := Loc.asmLoop n
    unfold TP.asmLoop
    loc

macro_rules | `(tactic| loc_leaf) => `(tactic| with_reducible exact Loc.asmLoop _)

theorem Loc.parseAsm (n : Nat) : Loc (TP.parseAsm u n : P κ (Body δ τ)) := by
  unfold TP.parseAsm
  loc

macro_rules | `(tactic| loc_leaf) => `(tactic| with_reducible exact Loc.parseAsm _)

theorem Loc.parseInherited : Loc (TP.parseInherited u : P κ (Body δ τ)) := by
  unfold TP.parseInherited
  loc

macro_rules | `(tactic| loc_leaf) => `(tactic| with_reducible exact Loc.parseInherited)

theorem Loc.parseGoto : Loc (TP.parseGoto u S) := by
  unfold TP.parseGoto
  loc

macro_rules | `(tactic| loc_leaf) => `(tactic| with_reducible exact Loc.parseGoto)

theorem Loc.parseDesigStmt (n : Nat) : Loc (TP.parseDesigStmt u S n) := by
  unfold TP.parseDesigStmt
  loc

macro_rules | `(tactic| loc_leaf) => `(tactic| with_reducible exact Loc.parseDesigStmt _)

theorem Loc.parseHandlerIdent : Loc (TP.parseHandlerIdent S) := by
  unfold TP.parseHandlerIdent
  loc

macro_rules | `(tactic| loc_leaf) => `(tactic| with_reducible exact Loc.parseHandlerIdent)

theorem Loc.parseLabel : Loc (TP.parseLabel u S) := by
  unfold TP.parseLabel
  loc

macro_rules | `(tactic| loc_leaf) => `(tactic| with_reducible exact Loc.parseLabel)

variable (HT : ∀ n, Loc (S.parseType n))
include HT
set_option hygiene false in
macro_rules | `(tactic| loc_leaf) => `(tactic| exact HT _)

variable (u S) in
/-- the parsers of statements -/
structure StmtL (n : Nat) : Prop where
  stmt : Loc (parseStmt u S n)
  body : Loc (parseBody u S n)
  stmts : ∀ p, Loc (parseStmts u S p n)
  compound : Loc (parseCompound u S n)
  ifS : Loc (parseIf u S n)
  caseS : Loc (parseCase u S n)
  sels : Loc (parseSels u S n)
  repeatS : Loc (parseRepeat u S n)
  whileS : Loc (parseWhile u S n)
  forS : Loc (parseFor u S n)
  withS : Loc (parseWith u S n)
  tryS : Loc (parseTry u S n)
  excBlock : Loc (parseExcBlock u S n)
  excElse : Loc (parseExcElse u S n)
  handlers : Loc (parseHandlers u S n)
  handler : Loc (parseHandler u S n)

set_option hygiene false in
macro_rules | `(tactic| loc_leaf) => `(tactic| with_reducible first
  | exact ih.stmt | exact ih.body | exact ih.stmts _ | exact ih.compound | exact ih.ifS | exact ih.caseS | exact ih.sels | exact ih.repeatS | exact ih.whileS | exact ih.forS | exact ih.withS | exact ih.tryS | exact ih.excBlock | exact ih.excElse | exact ih.handlers | exact ih.handler | fail)

set_option maxHeartbeats 1000000 in
theorem stmtL : ∀ n, StmtL u S n
  | 0 => by constructor <;> intros <;> first | exact Loc.wait | (rename_i h; cases h)
  | n + 1 => by
    have ih := stmtL n
    exact {
      stmt := by
        unfold parseStmt; loc,
      body := by
        unfold parseBody; loc,
      stmts := by
        intros; unfold parseStmts; loc,
      compound := by
        unfold parseCompound; loc,
      ifS := by
        unfold parseIf; loc,
      caseS := by
        unfold parseCase; loc,
      sels := by
        unfold parseSels; loc,
      repeatS := by
        unfold parseRepeat; loc,
      whileS := by
        unfold parseWhile; loc,
      forS := by
        unfold parseFor; loc,
      withS := by
        unfold parseWith; loc,
      tryS := by
        unfold parseTry; loc,
      excBlock := by
        unfold parseExcBlock; loc,
      excElse := by
        unfold parseExcElse; loc,
      handlers := by
        unfold parseHandlers; loc,
      handler := by
        unfold parseHandler; loc }

end

end TP
