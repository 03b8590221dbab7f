import Verif.Lemmas.ExprComplete
import Verif.Props.C33

/-!
# C34  Expression parsing is complete for its grammar and yields the intended tree

The grammar is that of the trees: an `Expr` is a list of simple expressions joined by relational operators, each of
these a list of terms joined by additive operators, each of these a list of factors joined by multiplicative
operators.  So finding the tree again from its leaves means that the operators bind in this order, that operators of
one level group in order and that parentheses override.
-/

namespace TP.Props
open TP Spec

section
variable {κ δ : Type} (u : Uni) (E : Env κ δ)

/-- Every tree with names that fit the context is found again from its leaves, whatever follows, provided the next
token cannot continue an expression.  Nothing of what follows is consumed. -/
theorem C34_complete_partial (k : κ) (L : Lawful E k) (e : Expr δ) (hf : FitsExpr u E k e) (used rest : List Token)
    (hl : Leaves u (flatExpr e) used) (tail : Tail) (t : Token) (ht : PS.tok? ⟨rest, tail, k⟩ = some t)
    (hs : StopsExpr u t) :
    ∃ k', Rolls E k k' ∧ ∃ N, ∀ n, N ≤ n → parseExpr u E n ⟨used ++ rest, tail, k⟩ = .ok e ⟨rest, tail, k'⟩ := by
  obtain ⟨s', a, N, h⟩ := expr_complete (tl := tail) L.answers e hf ⟨used ++ rest, tail, k⟩ used rest ⟨rfl, Rolls.refl k, trivial⟩ rfl hl
    ⟨t, ht, hs⟩
  refine ⟨s'.cx, a.cx, N, fun n hn => ?_⟩
  rw [h n hn]
  have h1 := a.ts
  have h2 := a.tail
  simp only at h1 h2
  have h3 := List.append_cancel_left h1
  obtain ⟨x, y, z⟩ := s'
  simp only at h2 h3
  rw [h2, h3]

/-- The tree is determined by the tokens: the grammar is unambiguous. -/
theorem C34_unambiguous_partial (k : κ) (L : Lawful E k) (e e' : Expr δ) (hf : FitsExpr u E k e) (hf' : FitsExpr u E k e')
    (used : List Token) (hl : Leaves u (flatExpr e) used) (hl' : Leaves u (flatExpr e') used) : e = e' := by
  have hst : StopsExpr u (eofTok [] ⟨1, 1, 0⟩) := by
    have no : ∀ s, ¬ IsSym s (eofTok [] ⟨1, 1, 0⟩) := fun s h => by cases h.1
    have nk : ∀ s, ¬ IsKw u s (eofTok [] ⟨1, 1, 0⟩) := fun s h => by cases h.1
    have nop : ∀ a b, ¬ IsOp u a b (eofTok [] ⟨1, 1, 0⟩) := by
      rintro a b (⟨s, -, h⟩ | ⟨s, -, h⟩)
      · exact no s h
      · exact nk s h
    exact ⟨⟨⟨⟨no _, no _, no _, no _⟩, nop _ _⟩, nop _ _⟩, nop _ _⟩
  obtain ⟨k1, -, N1, h1⟩ := C34_complete_partial u E k L e hf used [] hl (.eof [] ⟨1, 1, 0⟩) _ rfl hst
  obtain ⟨k2, -, N2, h2⟩ := C34_complete_partial u E k L e' hf' used [] hl' (.eof [] ⟨1, 1, 0⟩) _ rfl hst
  have := (h1 (max N1 N2) (by omega)).symm.trans (h2 (max N1 N2) (by omega))
  injection this

/-- Acceptance, exactly: what is followed by a token that cannot continue an expression is accepted with a tree if
and only if it is the sequence of leaves of that tree and the names fit. -/
theorem C34_iff_partial (k : κ) (L : Lawful E k) (e : Expr δ) (used rest : List Token) (tail : Tail) (t : Token)
    (ht : PS.tok? ⟨rest, tail, k⟩ = some t) (hs : StopsExpr u t) :
    (∃ n k', parseExpr u E n ⟨used ++ rest, tail, k⟩ = .ok e ⟨rest, tail, k'⟩) ↔
    (FitsExpr u E k e ∧ Leaves u (flatExpr e) used) := by
  constructor
  · rintro ⟨n, k', h⟩
    obtain ⟨used', h1, h2, h3, -⟩ := C33_names u E k L _ tail n e _ h
    have := List.append_cancel_right h1
    subst this
    exact ⟨h3, h2⟩
  · rintro ⟨hf, hl⟩
    obtain ⟨k', -, N, h⟩ := C34_complete_partial u E k L e hf used rest hl tail t ht hs
    exact ⟨N, k', h N (Nat.le_refl _)⟩

end

/-! ## Examples: precedence, grouping, parentheses -/

/-- the variable `v` as a factor -/
def exVar (v : Str) : Factor (Decl NodeKind) :=
  .desig (.mk ⟨none, ⟨Ident.ofTok (exTok .ident v), none⟩⟩ .nil)

def exTerm (v : Str) : Term (Decl NodeKind) := .mk (exVar v) .nil

/-- what is parsed -/
def treeOf {σ α : Type} : R σ α → Option α
  | .ok a _ => some a
  | _ => none

def exParse (l : List (TType × Str)) : Option (Expr (Decl NodeKind)) :=
  treeOf (parseExpr asciiUni (worldEnv asciiUni) 200 ⟨exToks l, .eof [] ⟨1, 1, 0⟩, exWorld⟩)

/-- `a + b * c` is `a + (b * c)` -/
example : exParse [(.ident, r!"a"), (.symbol, r!"+"), (.ident, r!"b"), (.symbol, r!"*"), (.ident, r!"c")] =
    some (.mk (.mk none (exTerm r!"a") (.cons r!"+" (.mk (exVar r!"b") (.cons r!"*" (exVar r!"c") .nil)) .nil)) .nil) := by
  rfl

/-- `a * b + c` is `(a * b) + c` -/
example : exParse [(.ident, r!"a"), (.symbol, r!"*"), (.ident, r!"b"), (.symbol, r!"+"), (.ident, r!"c")] =
    some (.mk (.mk none (.mk (exVar r!"a") (.cons r!"*" (exVar r!"b") .nil)) (.cons r!"+" (exTerm r!"c") .nil)) .nil) := by
  rfl

/-- `(a + b) * c` -/
example : exParse [(.symbol, r!"("), (.ident, r!"a"), (.symbol, r!"+"), (.ident, r!"b"), (.symbol, r!")"), (.symbol, r!"*"),
      (.ident, r!"c")] =
    some (.mk (.mk none (.mk (.paren (.mk (.mk none (exTerm r!"a") (.cons r!"+" (exTerm r!"b") .nil)) .nil))
      (.cons r!"*" (exVar r!"c") .nil)) .nil) .nil) := by
  rfl

/-- `a = b or c` is `a = (b or c)` -/
example : exParse [(.ident, r!"a"), (.symbol, r!"="), (.ident, r!"b"), (.reserved, r!"or"), (.ident, r!"c")] =
    some (.mk (.mk none (exTerm r!"a") .nil)
      (.cons r!"=" (.mk none (exTerm r!"b") (.cons r!"OR" (exTerm r!"c") .nil)) .nil)) := by
  rfl

/-- The hypotheses of the theorem can be met. -/
example : FitsExpr asciiUni (worldEnv asciiUni) exWorld
    (.mk (.mk none (exTerm r!"a") (.cons r!"+" (exTerm r!"b") .nil)) .nil) := by
  obtain ⟨_, -, -, h, -⟩ := C33_names asciiUni (worldEnv asciiUni) exWorld (lawful_world asciiUni exWorld exWorld_plain)
    (exToks [(.ident, r!"a"), (.symbol, r!"+"), (.ident, r!"b")]) (.eof [] ⟨1, 1, 0⟩) 200
    (.mk (.mk none (exTerm r!"a") (.cons r!"+" (exTerm r!"b") .nil)) .nil) ⟨[], .eof [] ⟨1, 1, 0⟩, exWorld⟩ rfl
  exact h

/-- a stackable context on top of `exWorld` -/
def exStackable : PCtx NodeKind :=
  ⟨⟨[.impl [], .chained 0 [(r!"x", ⟨r!"x", .other⟩)], .embedded], [], [.stackable none 0 2, .program r!"p.dpr" [] 1]⟩, 1⟩

/-- `Integer + Integer(1)`, the second factor being `f` -/
def exCast (f : Ident → Expr (Decl NodeKind) → Factor (Decl NodeKind)) (r : Option (Decl NodeKind)) : Expr (Decl NodeKind) :=
  .mk (.mk none (.mk (.desig (.mk ⟨none, ⟨Ident.ofTok (exTok .ident r!"Integer"), r⟩⟩ .nil)) .nil)
    (.cons r!"+" (.mk (f (Ident.ofTok (exTok .ident r!"Integer")) (.mk (.mk none (.mk (.num r!"1") .nil) .nil) .nil)) .nil) .nil)) .nil

def exCastToks : List Token := exToks [(.ident, r!"Integer"), (.symbol, r!"+"), (.ident, r!"Integer"), (.symbol, r!"("),
  (.numInt, r!"1"), (.symbol, r!")")]

/-- In a stackable context a type name that is not followed by a parenthesis makes the parser forget the declarations of
the enclosing context: in `Integer + Integer(1)` the type cast is taken for a call. -/
theorem C34_refuted : ∃ (k : PCtx NodeKind) (e e' : Expr (Decl NodeKind)) (used : List Token) (tail : Tail) (n : Nat)
    (k' : PCtx NodeKind), FitsExpr asciiUni (worldEnv asciiUni) k e ∧ Leaves asciiUni (flatExpr e) used ∧
    (∃ t, PS.tok? ⟨[], tail, k⟩ = some t ∧ t.typ = .eof) ∧
    parseExpr asciiUni (worldEnv asciiUni) n ⟨used, tail, k⟩ = .ok e' ⟨[], tail, k'⟩ ∧ e' ≠ e := by
  refine ⟨exStackable, exCast (fun i e => .cast ⟨i, some ⟨r!"Integer", .type⟩⟩ e) (some ⟨r!"Integer", .type⟩),
    exCast (fun i e => .call (.mk ⟨none, ⟨i, none⟩⟩ .nil) (.one e)) none, exCastToks, .eof [] ⟨1, 1, 0⟩, 200, _, ?_, ?_, ⟨_, rfl, rfl⟩,
    rfl, by simp [exCast]⟩
  · have g : (worldEnv asciiUni).get exStackable r!"Integer" = some ⟨r!"Integer", .type⟩ := rfl
    have m : ∀ v : Str, asciiUni.toUpper v ≠ r!"TRUE" ∧ asciiUni.toUpper v ≠ r!"FALSE" → ¬ Manifest asciiUni v :=
      fun v h h' => h'.elim h.1 h.2
    have q : ¬ Qualifies (worldEnv asciiUni) exStackable r!"Integer" := by
      rintro ⟨d, h, h'⟩
      cases g.symm.trans h
      cases h'
    simp only [exCast, FitsExpr, FitsSExpr, FitsRel, FitsTerm, FitsMul, FitsAdd, FitsFactor, FitsDesig, FitsItems, FitsQual]
    exact ⟨⟨nofun, ⟨⟨⟨⟨q, g.symm⟩, trivial⟩, m _ (by decide)⟩, trivial⟩, .inl (by decide),
      ⟨⟨⟨_, g, rfl, rfl⟩, m _ (by decide), ⟨nofun, ⟨m _ (by decide), trivial⟩, trivial⟩, trivial⟩, trivial⟩, trivial⟩, trivial⟩
  · exact ⟨⟨rfl, rfl⟩, ⟨rfl, rfl⟩, ⟨rfl, rfl⟩, ⟨rfl, rfl⟩, ⟨.inl rfl, rfl⟩, ⟨rfl, rfl⟩, trivial⟩

end TP.Props
