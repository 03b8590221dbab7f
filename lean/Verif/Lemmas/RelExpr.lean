import Verif.Lemmas.Rel

/-!
# Two runs of the parser of expressions
-/

namespace TP
open Spec

variable {κ₁ κ₂ δ₁ δ₂ ε : Type}
variable {u : Uni} {nm : Str → Str → Prop} {m₁ : Tr δ₁ ε} {m₂ : Tr δ₂ ε} {w : Prop} {K : κ₁ → κ₂ → Prop}
variable {E₁ : Env κ₁ δ₁} {E₂ : Env κ₂ δ₂}

local notation "PP" => PR u nm m₁ m₂ w K

theorem IdentRef.tr_mk {δ : Type} (m : Tr δ ε) (i : Ident) (r : Option δ) : IdentRef.tr m ⟨i, r⟩ = ⟨m.id i, r.map (m.decl i)⟩ := rfl
theorem QualId.tr_mk {δ : Type} (m : Tr δ ε) (n : Option (IdentRef δ)) (i : IdentRef δ) :
    QualId.tr m ⟨n, i⟩ = ⟨n.map (·.tr m), i.tr m⟩ := rfl

macro_rules | `(tactic| rel_done) => `(tactic|
  (show _ = _; simp only [Expr.tr, RelTail.tr, SExpr.tr, AddTail.tr, Term.tr, MulTail.tr, Factor.tr, Desig.tr, Items.tr, Exprs.tr, SetElems.tr, SetElem.tr, QualId.tr_mk, IdentRef.tr_mk, Option.map_some, Option.map_none, *]))

theorem PR.parseQualId (S : ESim u nm m₁ m₂ K E₁ E₂) :
    PP (EqR (QualId.tr m₁) (QualId.tr m₂)) (TP.parseQualId u E₁) (TP.parseQualId u E₂) := by
  unfold TP.parseQualId
  refine PR.current.bind ?_
  rintro a b ⟨hab, -, -⟩
  have hid := hab.id
  have h0 : PP (EqR (QualId.tr m₁) (QualId.tr m₂)) (do P.next; let r ← TP.getDecl E₁ a.raw; Pure.pure ⟨none, ⟨Ident.ofTok a, r⟩⟩)
      (do P.next; let r ← TP.getDecl E₂ b.raw; Pure.pure ⟨none, ⟨Ident.ofTok b, r⟩⟩) := by
    refine PR.next.bind fun _ _ _ => (PR.getDecl S hab.raw).bind ?_
    intro r r' hr
    refine PR.pure ?_
    cases hr with
    | none => rel_done
    | some hr =>
      have := hr.refer a b hab .raw .raw
      rel_done
  refine (PR.getDecl S hab.val).bind ?_
  intro d e hde
  cases hde with
  | none => exact h0
  | some hde =>
    rename_i d e
    refine PR.ite (by rw [S.isNamespace hde.same, S.isUses hde.same]) (fun _ _ => ?_) (fun _ _ => h0)
    refine PR.nextIs.bind fun _ _ _ => PR.nextIs.bind ?_
    rintro a' b' ⟨hab', -, -⟩
    have hid' := hab'.id
    intro s t hs
    have := S.member hs.cx hde.same hab'.val
    dsimp only
    cases hd : E₁.member s.cx d (a'.value u) <;> cases he : E₂.member t.cx e (b'.value u) <;> rw [hd, he] at this <;>
      try exact this.elim
    · rename_i x y
      have h1 := hde.refer a b hab .val .val
      have h2 := DeclR.refer this a' b' hab' .val .val
      exact PR.bind PR.next (fun _ _ _ => PR.pure (by rel_done)) s t hs
    · trivial
    · trivial

/-- the parsers of expressions, with `n` and `m` steps -/
structure ExprR (u : Uni) (nm : Str → Str → Prop) (m₁ : Tr δ₁ ε) (m₂ : Tr δ₂ ε) (w : Prop) (K : κ₁ → κ₂ → Prop) (E₁ : Env κ₁ δ₁)
    (E₂ : Env κ₂ δ₂) (n m : Nat) : Prop where
  expr : PR u nm m₁ m₂ w K (EqR (Expr.tr m₁) (Expr.tr m₂)) (parseExpr u E₁ n) (parseExpr u E₂ m)
  relTail : PR u nm m₁ m₂ w K (EqR (RelTail.tr m₁) (RelTail.tr m₂)) (parseRelTail u E₁ n) (parseRelTail u E₂ m)
  sexpr : PR u nm m₁ m₂ w K (EqR (SExpr.tr m₁) (SExpr.tr m₂)) (parseSExpr u E₁ n) (parseSExpr u E₂ m)
  addTail : PR u nm m₁ m₂ w K (EqR (AddTail.tr m₁) (AddTail.tr m₂)) (parseAddTail u E₁ n) (parseAddTail u E₂ m)
  term : PR u nm m₁ m₂ w K (EqR (Term.tr m₁) (Term.tr m₂)) (parseTerm u E₁ n) (parseTerm u E₂ m)
  mulTail : PR u nm m₁ m₂ w K (EqR (MulTail.tr m₁) (MulTail.tr m₂)) (parseMulTail u E₁ n) (parseMulTail u E₂ m)
  factor : PR u nm m₁ m₂ w K (EqR (Factor.tr m₁) (Factor.tr m₂)) (parseFactor u E₁ n) (parseFactor u E₂ m)
  desigFactor : PR u nm m₁ m₂ w K (EqR (Factor.tr m₁) (Factor.tr m₂)) (parseDesigFactor u E₁ n) (parseDesigFactor u E₂ m)
  desig : PR u nm m₁ m₂ w K (EqR (Desig.tr m₁) (Desig.tr m₂)) (parseDesig u E₁ n) (parseDesig u E₂ m)
  items : PR u nm m₁ m₂ w K (EqR (Items.tr m₁) (Items.tr m₂)) (parseItems u E₁ n) (parseItems u E₂ m)
  exprs : ∀ (p : Pred) [Resp u nm m₁ m₂ p], PR u nm m₁ m₂ w K (EqR (Exprs.tr m₁) (Exprs.tr m₂)) (parseExprs u E₁ p n) (parseExprs u E₂ p m)
  setCons : PR u nm m₁ m₂ w K (EqR (SetElems.tr m₁) (SetElems.tr m₂)) (parseSetCons u E₁ n) (parseSetCons u E₂ m)
  setElems : PR u nm m₁ m₂ w K (EqR (SetElems.tr m₁) (SetElems.tr m₂)) (parseSetElems u E₁ n) (parseSetElems u E₂ m)
  setElem : PR u nm m₁ m₂ w K (EqR (SetElem.tr m₁) (SetElem.tr m₂)) (parseSetElem u E₁ n) (parseSetElem u E₂ m)

theorem exprR_zero (m : Nat) : ExprR u nm m₁ m₂ w K E₁ E₂ 0 m := by
  constructor <;> intros <;> exact PR.wait

set_option hygiene false in
macro_rules | `(tactic| rel_leaf) => `(tactic| first
  | exact ih.expr | exact ih.relTail | exact ih.sexpr | exact ih.addTail | exact ih.term | exact ih.mulTail | exact ih.factor | exact ih.desigFactor
  | exact ih.desig | exact ih.items | exact ih.exprs _ | exact ih.setCons | exact ih.setElems | exact ih.setElem | fail)

theorem exprR_succ (S : ESim u nm m₁ m₂ K E₁ E₂) {n m : Nat} (ih : ExprR u nm m₁ m₂ w K E₁ E₂ n m) :
    ExprR u nm m₁ m₂ w K E₁ E₂ (n + 1) (m + 1) where
  expr := by unfold parseExpr; rel
  relTail := by unfold parseRelTail; rel
  sexpr := by unfold parseSExpr; rel
  addTail := by unfold parseAddTail; rel
  term := by unfold parseTerm; rel
  mulTail := by unfold parseMulTail; rel
  factor := by
    unfold parseFactor
    refine PR.cur.bind ?_
    intro a b hab
    have hid := TokR.id hab; have hstr := TokR.str hab
    dsimp only
    rel
    refine (PR.getDecl S hab.val).bind ?_
    rintro d e (hde | _)
    · have hr := hde.refer a b hab .val .val
      refine PR.ite (by rw [S.isType hde.same]) (fun _ _ => ?_) (fun _ _ => ih.desigFactor)
      refine PR.rollbackPoint.bind fun s0 t0 hs => ?_
      rel
      exact (PR.rollbackTo S hs).bind fun _ _ _ => ih.desigFactor
    · exact ih.desigFactor
  desigFactor := by unfold parseDesigFactor; rel
  desig := by
    unfold parseDesig
    refine PR.current.bind fun _ _ _ => (PR.parseQualId S).bind ?_
    rel_intro
    rel
  items := by unfold parseItems; rel
  exprs p hp := by unfold parseExprs; rel
  setCons := by unfold parseSetCons; rel
  setElems := by unfold parseSetElems; rel
  setElem := by unfold parseSetElem; rel

theorem exprR (S : ESim u nm m₁ m₂ K E₁ E₂) : ∀ {n m : Nat}, n ≤ m → ExprR u nm m₁ m₂ w K E₁ E₂ n m
  | 0, m, _ => exprR_zero m
  | _ + 1, _ + 1, h => exprR_succ S (exprR S (Nat.le_of_succ_le_succ h))

end TP
