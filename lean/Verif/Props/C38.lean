import Verif.Lemmas.StmtSound
import Verif.Lemmas.StmtPieces
import Verif.Props.C33
import Verif.Props.C47

/-!
# C38  Statement parsing is lossless

False in one place: the type of an exception handler can be an array type, and then the word `PACKED` may be written on
both sides.
-/

namespace TP.Props
open TP Spec

section
variable {κ δ τ : Type} (u : Uni) (S : SEnv κ δ τ)

/-- The type parser (of exception handlers) is lossless with respect to `fty`. -/
def TypeLossless (fty : τ → List Piece) : Prop :=
  ∀ n s ty s', S.parseType n s = .ok ty s' → s'.tail = s.tail ∧ ∃ used, s.ts = used ++ s'.ts ∧ Pieces u (fty ty) used

/-- Whenever `ParseStatement` returns a tree, the tokens consumed are exactly the pieces of the tree in order.  For every
context, whatever it answers and whatever its `Set` does.  What is missing: the type parser is a parameter. -/
theorem C38_lossless_partial (fty : τ → List Piece) (hty : TypeLossless u S fty) (k : κ) (ts : List Token) (tail : Tail)
    (n : Nat) (st : Stmt δ τ) (s' : PS κ) (h : parseStmt u S n ⟨ts, tail, k⟩ = .ok st s') :
    ∃ used, ts = used ++ s'.ts ∧ Pieces u (flatStmt fty st) used ∧ s'.tail = tail := by
  have B : SBase u S (fun _ ty ts _ => Pieces u (fty ty) ts) (fun _ _ => True) (fun _ => True) tail True True False := by
    refine ⟨fun _ _ _ => trivial, False.elim, False.elim, fun _ => trivial, fun _ => trivial, fun _ _ _ _ _ _ _ _ _ _ _ _ _ => trivial,
      ?_, fun _ _ _ => trivial, fun _ _ _ _ _ => trivial, ?_⟩
    · intro k c _ i ty
      split
      · exact ⟨k, trivial, False.elim⟩
      · trivial
      · trivial
    · intro n s k hs _ _ _
      unfold wp
      split
      · rename_i ty s' e
        obtain ⟨h1, used, h2, h3⟩ := hty n s ty s' e
        exact ⟨used, k, ⟨h2, h1⟩, trivial, h3⟩
      all_goals trivial
  have := (stmt_sound B n).stmt ⟨ts, tail, k⟩ k ⟨rfl, trivial, trivial⟩ (fun _ => trivial)
  unfold wp at this
  rw [h] at this
  obtain ⟨used, k', h1, -, h2, -⟩ := this
  exact ⟨used, h1.ts, stmt_pieces (fun k ty ts k' h => h) st k used k' h2, h1.tail⟩

/-- The same for statement lists, as in the body of a routine: the list ends in front of its terminator. -/
theorem C38_list_partial (fty : τ → List Piece) (hty : TypeLossless u S fty) (term : Pred)
    (hterm : ∀ t, term t = true → ¬ IsSym r!";" t) (k : κ) (ts : List Token) (tail : Tail)
    (n : Nat) (st : Stmts δ τ) (s' : PS κ) (h : parseStmts u S term n ⟨ts, tail, k⟩ = .ok st s') :
    ∃ used, ts = used ++ s'.ts ∧ Pieces u (flatStmts fty st) used ∧ s'.tail = tail ∧
      ∃ t, s'.tok? = some t ∧ term t = true := by
  have B : SBase u S (fun _ ty ts _ => Pieces u (fty ty) ts) (fun _ _ => True) (fun _ => True) tail True True False := by
    refine ⟨fun _ _ _ => trivial, False.elim, False.elim, fun _ => trivial, fun _ => trivial, fun _ _ _ _ _ _ _ _ _ _ _ _ _ => trivial,
      ?_, fun _ _ _ => trivial, fun _ _ _ _ _ => trivial, ?_⟩
    · intro k c _ i ty
      split
      · exact ⟨k, trivial, False.elim⟩
      · trivial
      · trivial
    · intro n s k hs _ _ _
      unfold wp
      split
      · rename_i ty s' e
        obtain ⟨h1, used, h2, h3⟩ := hty n s ty s' e
        exact ⟨used, k, ⟨h2, h1⟩, trivial, h3⟩
      all_goals trivial
  have := (stmt_sound B n).stmts term hterm ⟨ts, tail, k⟩ k ⟨rfl, trivial, trivial⟩ (fun _ => trivial)
  unfold wp at this
  rw [h] at this
  obtain ⟨used, k', h1, -, h2, h3⟩ := this
  exact ⟨used, h1.ts, stmts_pieces (fun k ty ts k' h => h) st k used k' h2, h1.tail, h3⟩

end

section
variable {κ δ : Type} (u : Uni) (D : DEnv κ δ)

/-- With the type parser of the code.  What is missing: the grammar of types is that of `Verif/Spec/Type.lean`, where the
word `PACKED` may stand on both sides of an array type. -/
theorem C38_statement_partial (n : Nat) (s s' : PS κ) (st : Stmt δ (PType δ))
    (h : parseStmt u (D.senv u) n s = .ok st s') :
    ∃ used, s.ts = used ++ s'.ts ∧ Pieces u (flatStmt (fun ty => [.type (typeTokens u ty)]) st) used ∧ s'.tail = s.tail := by
  have := (stmt_sound (anyBase u D s.tail).s n).stmt s s.cx ⟨rfl, trivial, trivial⟩ (fun _ => trivial)
  unfold wp at this
  rw [h] at this
  obtain ⟨used, k', h1, -, h2, -⟩ := this
  exact ⟨used, h1.ts, stmt_pieces (fun k ty ts k' h => pieces_one h) st _ used k' h2, h1.tail⟩

/-- Statement lists with the type parser of the code. -/
theorem C38_statements_partial (term : Pred) (hterm : ∀ t, term t = true → ¬ IsSym r!";" t) (n : Nat) (s s' : PS κ)
    (st : Stmts δ (PType δ)) (h : parseStmts u (D.senv u) term n s = .ok st s') :
    ∃ used, s.ts = used ++ s'.ts ∧ Pieces u (flatStmts (fun ty => [.type (typeTokens u ty)]) st) used ∧ s'.tail = s.tail ∧
      ∃ t, s'.tok? = some t ∧ term t = true := by
  have := (stmt_sound (anyBase u D s.tail).s n).stmts term hterm s s.cx ⟨rfl, trivial, trivial⟩ (fun _ => trivial)
  unfold wp at this
  rw [h] at this
  obtain ⟨used, k', h1, -, h2, h3⟩ := this
  exact ⟨used, h1.ts, stmts_pieces (fun k ty ts k' h => pieces_one h) st _ used k' h2, h1.tail, h3⟩

end

/-! ## Examples -/

/-- a statement of such a text -/
def exStatement (text : Str) : R (PS DS) (Stmt (Decl Node) (PType (Decl Node))) :=
  parseStmt asciiUni ((declEnv asciiUni).senv asciiUni) 400 (exText text)

example : textLeft (exStatement r!"try x := 1; except on e: Foo do y(1); on f: Bar do raise e; else z := 2; end;") =
    some [r!";"] := by krfl

/-- A token of the text is not in the tree: with and without the first `packed` the tree is the same. -/
theorem C38_refuted :
    (treeRead (exStatement r!"try x := 1; except on e: packed array of Integer packed do y := 1; end;")).isSome = true ∧
    treeRead (exStatement r!"try x := 1; except on e: packed array of Integer packed do y := 1; end;") =
    treeRead (exStatement r!"try x := 1; except on e:        array of Integer packed do y := 1; end;") := by
  refine ⟨?_, ?_⟩ <;> krfl

/-- statements in `exWorld`: types are single identifiers, handler names are not declared, there are no labels -/
def exS : SEnv (PCtx NodeKind) (Decl NodeKind) Token where
  toEnv := worldEnv asciiUni
  isLabel _ := false
  setHandler k _ _ := .ok k
  parseType _ := do
    let t ← P.current (Pred.typ .ident)
    P.next
    pure t

theorem exS_lossless : TypeLossless asciiUni exS fun t => [.tok (.ident ⟨t.raw, t.start, t.stop⟩)] := by
  intro n s ty s' h
  have : wp (exS.parseType n) s (fun ty s' => s'.tail = s.tail ∧ ∃ used, s.ts = used ++ s'.ts ∧
      Pieces asciiUni [.tok (.ident ⟨ty.raw, ty.start, ty.stop⟩)] used) True True := by
    refine wp_current_bind (fun _ => trivial) fun t ht hp => ?_
    have hp' : t.typ = .ident := by simpa [Pred.typ] using hp
    obtain ⟨ts, hts⟩ := tok_cons ht (by rw [hp']; decide)
    refine wp_next_cons hts (fun _ => trivial) fun s' h1 h2 _ => ?_
    exact ⟨h2, [t], by rw [hts, h1]; rfl, [t], [], rfl, ⟨t, rfl, hp', rfl⟩, rfl⟩
  unfold wp at this
  rw [h] at this
  exact this

/-- `try if x then x := 1 else x(2); x except on Integer do raise; else x end` -/
def exStmt : List Token := exToks
  [(.reserved, r!"try"), (.reserved, r!"if"), (.ident, r!"x"), (.reserved, r!"then"), (.ident, r!"x"), (.symbol, r!":="),
   (.numInt, r!"1"), (.reserved, r!"else"), (.ident, r!"x"), (.symbol, r!"("), (.numInt, r!"2"), (.symbol, r!")"),
   (.symbol, r!";"), (.ident, r!"x"), (.reserved, r!"except"), (.ident, r!"on"), (.ident, r!"Integer"), (.reserved, r!"do"),
   (.reserved, r!"raise"), (.symbol, r!";"), (.reserved, r!"else"), (.ident, r!"x"), (.reserved, r!"end")]

example : leftOf (parseStmt asciiUni exS 300
    ⟨exStmt ++ exToks [(.symbol, r!";"), (.ident, r!"y")], .eof [] ⟨1, 1, 0⟩, exWorld⟩) =
    some (exToks [(.symbol, r!";"), (.ident, r!"y")]) := by decide +kernel

end TP.Props
