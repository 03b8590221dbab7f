import Verif.Lemmas.RelExpr

/-!
# Two runs of the parser of statements
-/

namespace TP
open Spec

variable {κ₁ κ₂ δ₁ δ₂ ε τ₁ τ₂ υ : Type}
variable {u : Uni} {nm : Str → Str → Prop} {m₁ : Tr δ₁ ε} {m₂ : Tr δ₂ ε} {w : Prop} {K : κ₁ → κ₂ → Prop}
variable {f : τ₁ → υ} {g : τ₂ → υ} {S₁ : SEnv κ₁ δ₁ τ₁} {S₂ : SEnv κ₂ δ₂ τ₂}

local notation "PP" => PR u nm m₁ m₂ w K

/-- the outcomes of entering a declaration are related -/
def SetRR (K : κ₁ → κ₂ → Prop) : SetR κ₁ → SetR κ₂ → Prop
  | .ok k, .ok l => K k l
  | .err, .err => True
  | .panic, .panic => True
  | _, _ => False

/-- what is needed by the parser of statements -/
structure SSim (u : Uni) (nm : Str → Str → Prop) (m₁ : Tr δ₁ ε) (m₂ : Tr δ₂ ε) (w : Prop) (K : κ₁ → κ₂ → Prop) (f : τ₁ → υ) (g : τ₂ → υ)
    (S₁ : SEnv κ₁ δ₁ τ₁) (S₂ : SEnv κ₂ δ₂ τ₂) : Prop extends ESim u nm m₁ m₂ K S₁.toEnv S₂.toEnv where
  isLabel : ∀ {d e}, SameD m₁ m₂ d e → S₁.isLabel d = S₂.isLabel e
  setHandler : ∀ {k l i j x y}, K k l → m₁.id i = m₂.id j → f x = g y → SetRR K (S₁.setHandler k i x) (S₂.setHandler l j y)
  parseType : ∀ {n m}, n ≤ m → PR u nm m₁ m₂ w K (EqR f g) (S₁.parseType n) (S₂.parseType m)

theorem CaseLabel.tr_single {δ : Type} (m : Tr δ ε) (e : Expr δ) : CaseLabel.tr m (.single e) = .single (e.tr m) := rfl
theorem CaseLabel.tr_range {δ : Type} (m : Tr δ ε) (lo hi : Expr δ) : CaseLabel.tr m (.range lo hi) = .range (lo.tr m) (hi.tr m) := rfl

macro_rules | `(tactic| rel_done) => `(tactic|
  (show _ = _; simp only [CaseLabel.tr_single, CaseLabel.tr_range, CaseLabels.tr, QualIds.tr, Stmt.tr, Body.tr, Stmts.tr, OptStmts.tr, Sels.tr, ExcBlock.tr, Handlers.tr, Handler.tr, Option.map_some, Option.map_none, *]))

macro_rules | `(tactic| rel_intro) => `(tactic| (intro a b hab; obtain ⟨hab⟩ | _ := (hab : Option.Rel (EqR _ _) a b)))

theorem PR.setHandler (S : SSim u nm m₁ m₂ w K f g S₁ S₂) {i j : Ident} {x : τ₁} {y : τ₂} (h1 : m₁.id i = m₂.id j) (h2 : f x = g y) :
    PP (fun _ _ => True) (TP.setHandler S₁ i x) (TP.setHandler S₂ j y) := by
  intro s t hs
  have := S.setHandler hs.cx h1 h2
  unfold TP.setHandler
  cases h : S₁.setHandler s.cx i x <;> cases h' : S₂.setHandler t.cx j y <;> rw [h, h'] at this <;> try exact this.elim
  · exact ⟨trivial, hs.ts, this⟩
  · trivial
  · trivial

set_option hygiene false in
macro_rules | `(tactic| rel_leaf) => `(tactic| first
  | exact (exprR S.toESim hnm).expr | exact (exprR S.toESim hnm).exprs _ | exact (exprR S.toESim hnm).desig
  | exact PR.parseQualId S.toESim | fail)

theorem PR.parseQualIds (S : SSim u nm m₁ m₂ w K f g S₁ S₂) : ∀ {n m : Nat}, n ≤ m →
    PP (EqR (QualIds.tr m₁) (QualIds.tr m₂)) (TP.parseQualIds u S₁ n) (TP.parseQualIds u S₂ m)
  | 0, _, _ => PR.wait
  | n + 1, m + 1, h => by
    have ih := PR.parseQualIds S (Nat.le_of_succ_le_succ h)
    unfold TP.parseQualIds
    rel

theorem PR.parseCaseLabel (S : SSim u nm m₁ m₂ w K f g S₁ S₂) {n m : Nat} (hnm : n ≤ m) :
    PP (EqR (CaseLabel.tr m₁) (CaseLabel.tr m₂)) (TP.parseCaseLabel u S₁ n) (TP.parseCaseLabel u S₂ m) := by
  unfold TP.parseCaseLabel
  rel

theorem PR.parseCaseLabels (S : SSim u nm m₁ m₂ w K f g S₁ S₂) : ∀ {n m : Nat}, n ≤ m →
    PP (EqR (CaseLabels.tr m₁) (CaseLabels.tr m₂)) (TP.parseCaseLabels u S₁ n) (TP.parseCaseLabels u S₂ m)
  | 0, _, _ => PR.wait
  | n + 1, m + 1, h => by
    have ih := PR.parseCaseLabels S (Nat.le_of_succ_le_succ h)
    have := PR.parseCaseLabel S (Nat.le_of_succ_le_succ h)
    unfold TP.parseCaseLabels
    rel

theorem PR.asmLoop : ∀ {n m : Nat}, n ≤ m → PP (fun _ _ => True) (TP.asmLoop u n) (TP.asmLoop u m)
  | 0, _, _ => PR.wait
  | n + 1, m + 1, h => by
    have ih := PR.asmLoop (Nat.le_of_succ_le_succ h)
    unfold TP.asmLoop
    rel

section
variable (S : SSim u nm m₁ m₂ w K f g S₁ S₂)
include S

theorem PR.parseRaise {n m : Nat} (hnm : n ≤ m) :
    PP (EqR (Body.tr m₁ f) (Body.tr m₂ g)) (TP.parseRaise u S₁ n) (TP.parseRaise u S₂ m) := by
  unfold TP.parseRaise
  have h0 : PP (EqR (Option.map (Expr.tr m₁)) (Option.map (Expr.tr m₂)))
      (do
      if ← P.is (Pred.upperCase u r!"AT") then Pure.pure none
      else do
        let e ← parseExpr u S₁.toEnv n
        Pure.pure (some e))
      (do
      if ← P.is (Pred.upperCase u r!"AT") then Pure.pure none
      else do
        let e ← parseExpr u S₂.toEnv m
        Pure.pure (some e)) := by rel
  rel

omit S in
theorem PR.parseAsm {n m : Nat} (hnm : n ≤ m) :
    PP (EqR (Body.tr m₁ f) (Body.tr m₂ g)) (TP.parseAsm u n) (TP.parseAsm u m) := by
  unfold TP.parseAsm
  have := PR.asmLoop (u := u) (nm := nm) (m₁ := m₁) (m₂ := m₂) (w := w) (K := K) hnm
  rel

omit S in
theorem PR.parseInherited :
    PP (EqR (Body.tr m₁ f) (Body.tr m₂ g)) (TP.parseInherited u) (TP.parseInherited u) := by
  unfold TP.parseInherited
  rel

theorem PR.parseGoto :
    PP (EqR (Body.tr m₁ f) (Body.tr m₂ g)) (TP.parseGoto u S₁) (TP.parseGoto u S₂) := by
  unfold TP.parseGoto
  refine PR.current.bind fun _ _ _ => PR.nextIs.bind ?_
  rel_intro
  rename_i hab _ _
  refine (PR.getDecl S.toESim hab.val).bind ?_
  rintro _ _ (hde | _)
  · have hr := hde.refer _ _ hab .val .val
    rel
  · rel

theorem PR.parseDesigStmt {n m : Nat} (hnm : n ≤ m) :
    PP (EqR (Body.tr m₁ f) (Body.tr m₂ g)) (TP.parseDesigStmt u S₁ n) (TP.parseDesigStmt u S₂ m) := by
  unfold TP.parseDesigStmt
  rel

theorem PR.parseHandlerIdent :
    PP (Option.Rel (EqR m₁.id m₂.id)) (TP.parseHandlerIdent S₁) (TP.parseHandlerIdent S₂) := by
  unfold TP.parseHandlerIdent
  refine PR.cur.bind ?_
  rel_intro
  rename_i hab hid _
  refine (PR.getDecl S.toESim hab.raw).bind ?_
  rintro _ _ (hde | _)
  · refine PR.ite (by simp only [S.isType hde.same]) (fun _ _ => PR.pure .none) (fun _ _ => ?_)
    exact PR.nextIs.bind fun _ _ _ => PR.next.bind fun _ _ _ => PR.pure (.some hid)
  · refine PR.ite rfl (fun _ _ => PR.pure .none) (fun _ _ => ?_)
    exact PR.nextIs.bind fun _ _ _ => PR.next.bind fun _ _ _ => PR.pure (.some hid)

theorem PR.parseLabel :
    PP (EqR (Option.map m₁.id) (Option.map m₂.id)) (TP.parseLabel u S₁) (TP.parseLabel u S₂) := by
  unfold TP.parseLabel
  refine PR.cur.bind ?_
  rel_intro
  rename_i hab hid _
  refine (PR.getDecl S.toESim hab.val).bind ?_
  rintro _ _ (hde | _)
  · refine PR.ite (by simp only [S.isLabel hde.same]) (fun _ _ => ?_) (fun _ _ => PR.pure rfl)
    exact PR.nextIs.bind fun _ _ _ => PR.next.bind fun _ _ _ => PR.pure (congrArg some hid)
  · refine PR.ite rfl (fun _ _ => ?_) (fun _ _ => PR.pure rfl)
    exact PR.nextIs.bind fun _ _ _ => PR.next.bind fun _ _ _ => PR.pure (congrArg some hid)
end

/-- the parsers of statements, with `n` and `m` steps -/
structure StmtR (u : Uni) (nm : Str → Str → Prop) (m₁ : Tr δ₁ ε) (m₂ : Tr δ₂ ε) (w : Prop) (K : κ₁ → κ₂ → Prop) (f : τ₁ → υ) (g : τ₂ → υ)
    (S₁ : SEnv κ₁ δ₁ τ₁) (S₂ : SEnv κ₂ δ₂ τ₂) (n m : Nat) : Prop where
  stmt : PR u nm m₁ m₂ w K (EqR (Stmt.tr m₁ f) (Stmt.tr m₂ g)) (parseStmt u S₁ n) (parseStmt u S₂ m)
  body : PR u nm m₁ m₂ w K (EqR (Body.tr m₁ f) (Body.tr m₂ g)) (parseBody u S₁ n) (parseBody u S₂ m)
  stmts : ∀ (p : Pred) [Resp u nm m₁ m₂ p], PR u nm m₁ m₂ w K (EqR (Stmts.tr m₁ f) (Stmts.tr m₂ g)) (parseStmts u S₁ p n) (parseStmts u S₂ p m)
  compound : PR u nm m₁ m₂ w K (EqR (Body.tr m₁ f) (Body.tr m₂ g)) (parseCompound u S₁ n) (parseCompound u S₂ m)
  if_ : PR u nm m₁ m₂ w K (EqR (Body.tr m₁ f) (Body.tr m₂ g)) (parseIf u S₁ n) (parseIf u S₂ m)
  case : PR u nm m₁ m₂ w K (EqR (Body.tr m₁ f) (Body.tr m₂ g)) (parseCase u S₁ n) (parseCase u S₂ m)
  sels : PR u nm m₁ m₂ w K (EqR (Sels.tr m₁ f) (Sels.tr m₂ g)) (parseSels u S₁ n) (parseSels u S₂ m)
  repeat_ : PR u nm m₁ m₂ w K (EqR (Body.tr m₁ f) (Body.tr m₂ g)) (parseRepeat u S₁ n) (parseRepeat u S₂ m)
  while_ : PR u nm m₁ m₂ w K (EqR (Body.tr m₁ f) (Body.tr m₂ g)) (parseWhile u S₁ n) (parseWhile u S₂ m)
  for_ : PR u nm m₁ m₂ w K (EqR (Body.tr m₁ f) (Body.tr m₂ g)) (parseFor u S₁ n) (parseFor u S₂ m)
  with_ : PR u nm m₁ m₂ w K (EqR (Body.tr m₁ f) (Body.tr m₂ g)) (parseWith u S₁ n) (parseWith u S₂ m)
  try_ : PR u nm m₁ m₂ w K (EqR (Body.tr m₁ f) (Body.tr m₂ g)) (parseTry u S₁ n) (parseTry u S₂ m)
  excBlock : PR u nm m₁ m₂ w K (EqR (ExcBlock.tr m₁ f) (ExcBlock.tr m₂ g)) (parseExcBlock u S₁ n) (parseExcBlock u S₂ m)
  excElse : PR u nm m₁ m₂ w K (EqR (OptStmts.tr m₁ f) (OptStmts.tr m₂ g)) (parseExcElse u S₁ n) (parseExcElse u S₂ m)
  handlers : PR u nm m₁ m₂ w K (EqR (Handlers.tr m₁ f) (Handlers.tr m₂ g)) (parseHandlers u S₁ n) (parseHandlers u S₂ m)
  handler : PR u nm m₁ m₂ w K (EqR (Handler.tr m₁ f) (Handler.tr m₂ g)) (parseHandler u S₁ n) (parseHandler u S₂ m)

theorem stmtR_zero (m : Nat) : StmtR u nm m₁ m₂ w K f g S₁ S₂ 0 m := by
  constructor <;> intros <;> exact PR.wait

set_option hygiene false in
macro_rules | `(tactic| rel_leaf) => `(tactic| first
  | exact ih.stmt | exact ih.body | exact ih.stmts _ | exact ih.compound | exact ih.if_ | exact ih.case | exact ih.sels | exact ih.repeat_ | exact ih.while_
  | exact ih.for_ | exact ih.with_ | exact ih.try_ | exact ih.excBlock | exact ih.excElse | exact ih.handlers | exact ih.handler
  | exact PR.parseQualIds S hnm | exact PR.parseCaseLabels S hnm | exact PR.parseRaise S hnm | exact PR.parseAsm hnm
  | exact PR.parseInherited | exact PR.parseGoto S | exact PR.parseDesigStmt S hnm | exact PR.parseLabel S | fail)

theorem stmtR_succ (S : SSim u nm m₁ m₂ w K f g S₁ S₂) {n m : Nat} (hnm : n ≤ m) (ih : StmtR u nm m₁ m₂ w K f g S₁ S₂ n m) :
    StmtR u nm m₁ m₂ w K f g S₁ S₂ (n + 1) (m + 1) where
  stmt := by unfold parseStmt; rel
  body := by
    unfold parseBody
    refine PR.cur.bind ?_
    rel_intro
    dsimp only
    rel
  stmts p hp := by unfold parseStmts; rel
  compound := by unfold parseCompound; rel
  if_ := by unfold parseIf; rel
  case := by unfold parseCase; rel
  sels := by unfold parseSels; rel
  repeat_ := by unfold parseRepeat; rel
  while_ := by unfold parseWhile; rel
  for_ := by
    unfold parseFor
    refine PR.current.bind fun _ _ _ => PR.next.bind fun _ _ _ => (PR.parseQualId S.toESim).bind ?_
    rel_intro
    refine PR.current.bind fun _ _ _ => PR.next.bind fun _ _ _ => (exprR S.toESim hnm).expr.bind ?_
    rel_intro
    refine PR.cur.bind ?_
    intro a b hab
    have hd : (a.value u == r!"DOWNTO") = (b.value u == r!"DOWNTO") := by
      rw [Bool.eq_iff_iff]
      simpa using hab.fix r!"DOWNTO" (by decide)
    rel
  with_ := by unfold parseWith; rel
  try_ := by unfold parseTry; rel
  excBlock := by unfold parseExcBlock; rel
  excElse := by unfold parseExcElse; rel
  handlers := by unfold parseHandlers; rel
  handler := by
    unfold parseHandler
    refine PR.current.bind fun _ _ _ => PR.next.bind fun _ _ _ => (PR.parseHandlerIdent S).bind ?_
    rel_intro
    · rename_i i j hij
      refine (S.parseType hnm).bind ?_
      rel_intro
      rename_i ty ty' hty
      refine (PR.setHandler S hij hty).bind fun _ _ _ => ?_
      rel
    · refine (S.parseType hnm).bind ?_
      rel_intro
      refine PR.current.bind fun _ _ _ => PR.next.bind fun _ _ _ => ih.stmt.bind ?_
      rel_intro
      rel

theorem stmtR (S : SSim u nm m₁ m₂ w K f g S₁ S₂) : ∀ {n m : Nat}, n ≤ m → StmtR u nm m₁ m₂ w K f g S₁ S₂ n m
  | 0, m, _ => stmtR_zero m
  | _ + 1, _ + 1, h => stmtR_succ S (Nat.le_of_succ_le_succ h) (stmtR S (Nat.le_of_succ_le_succ h))

end TP
