import Verif.Spec.Stmt
import Verif.Lemmas.Wp

/-!
# Derivations read as sequences of pieces
-/

namespace TP
open Spec

variable {κ δ τ : Type} {u : Uni}

theorem pieces_append {a b : List Piece} {x y : List Token} (h : Pieces u a x) (h' : Pieces u b y) :
    Pieces u (a ++ b) (x ++ y) := by
  induction a generalizing x with
  | nil => cases h; exact h'
  | cons p a ih =>
    obtain ⟨v, w, rfl, h1, h2⟩ := h
    exact ⟨v, w ++ y, by rw [List.append_assoc], h1, ih h2⟩

theorem pieces_cons {l : Leaf} {b : List Piece} {t : Token} {y : List Token} (h : l.Is u t) (h' : Pieces u b y) :
    Pieces u (.tok l :: b) (t :: y) := ⟨[t], y, rfl, ⟨t, rfl, h⟩, h'⟩

theorem pieces_one {p : Piece} {y : List Token} (h : p.Is u y) : Pieces u [p] y :=
  ⟨y, [], (List.append_nil _).symm, h, rfl⟩

theorem pieces_tok {l : Leaf} {t : Token} (h : l.Is u t) : Pieces u [.tok l] [t] := pieces_cons h rfl

theorem pieces_toks {ls : List Leaf} {x : List Token} (h : Leaves u ls x) : Pieces u (toks ls) x := by
  induction ls generalizing x with
  | nil => cases x with | nil => rfl | cons => exact h.elim
  | cons l ls ih =>
    cases x with
    | nil => exact h.elim
    | cons t x => exact pieces_cons h.1 (ih h.2)

theorem pieces_semi {b : Bool} {z : List Token} (h : z = [] ∧ b = false ∨ ∃ t, z = [t] ∧ IsSym r!";" t) :
    Pieces u [if b then sy r!";" else .optSemi] z := by
  refine pieces_one ?_
  rcases h with ⟨rfl, rfl⟩ | ⟨t, rfl, h⟩
  · exact .inl rfl
  · cases b
    · exact .inr ⟨t, rfl, h⟩
    · exact ⟨t, rfl, h⟩

section
variable {S : SEnv κ δ τ} {L : Prop} {DTy : κ → τ → List Token → κ → Prop} {fty : τ → List Piece}

theorem qualIds_leaves {k : κ} : ∀ {qs : QualIds δ} {ts : List Token}, DQualIds u S L k qs ts → Leaves u (flatQualIds qs) ts
  | .one _, _, h => h.1
  | .cons _ _, _, h => by
    obtain ⟨x, t, y, rfl, h1, h2, h3⟩ := h
    exact leaves_append h1.1 (leaves_cons h2 (qualIds_leaves h3))

theorem caseLabel_leaves {k : κ} : ∀ {l : CaseLabel δ} {ts : List Token}, DCaseLabel u S L k l ts →
    Leaves u (flatCaseLabel l) ts
  | .single _, _, h => h.1
  | .range _ _, _, h => by
    obtain ⟨x, t, y, rfl, h1, h2, h3⟩ := h
    exact leaves_append h1.1 (leaves_cons h2 h3.1)

theorem caseLabels_leaves {k : κ} : ∀ {l : CaseLabels δ} {ts : List Token}, DCaseLabels u S L k l ts →
    Leaves u (flatCaseLabels l) ts
  | .one _, _, h => caseLabel_leaves h
  | .cons _ _, _, h => by
    obtain ⟨x, t, y, rfl, h1, h2, h3⟩ := h
    exact leaves_append (caseLabel_leaves h1) (leaves_cons h2 (caseLabels_leaves h3))

theorem raise_pieces {k : κ} {obj addr : Option (Expr δ)} {ts : List Token} (h : DRaise u S L k obj addr ts) :
    Pieces u (flatRaise obj addr) ts := by
  obtain ⟨t, x, y, rfl, ht, hx, hy⟩ := h
  refine pieces_cons ht (pieces_append ?_ ?_)
  · cases obj with
    | none => exact hx
    | some e => exact pieces_toks hx.1.1
  · cases addr with
    | none => exact hy
    | some e =>
      obtain ⟨t, z, rfl, h1, h2⟩ := hy
      exact pieces_cons h1 (pieces_toks h2.1)

variable (hty : ∀ k ty ts k', DTy k ty ts k' → Pieces u (fty ty) ts)
include hty

mutual
theorem stmt_pieces : ∀ (st : Stmt δ τ) (k : κ) (ts : List Token) (k' : κ), DStmt u S L DTy k st ts k' →
    Pieces u (flatStmt fty st) ts
  | .mk none b, k, ts, k', h => by
    rw [DStmt] at h
    exact body_pieces b k ts k' h.1
  | .mk (some i) b, k, ts, k', h => by
    rw [DStmt] at h
    obtain ⟨t, c, x, rfl, h1, h2, -, h3⟩ := h
    exact pieces_cons h1 (pieces_cons h2 (body_pieces b k x k' h3))
theorem body_pieces : ∀ (st : Body δ τ) (k : κ) (ts : List Token) (k' : κ), DBody u S L DTy k st ts k' →
    Pieces u (flatBody fty st) ts
  | .assign d e, k, ts, k', h => by
    rw [DBody] at h
    obtain ⟨-, x, t, y, rfl, h1, h2, h3⟩ := h
    exact pieces_append (pieces_toks h1.1) (pieces_cons h2 (pieces_toks h3.1))
  | .call d, k, ts, k', h => by
    rw [DBody] at h
    exact pieces_toks h.2.1
  | .callArgs d args, k, ts, k', h => by
    rw [DBody] at h
    obtain ⟨-, x, t, y, c, rfl, h1, h2, h3, h4⟩ := h
    exact pieces_append (pieces_toks h1.1) (pieces_cons h2 (pieces_append (pieces_toks h3.1) (pieces_tok h4)))
  | .inherited, k, ts, k', h => by
    rw [DBody] at h
    obtain ⟨-, t, rfl, h1⟩ := h
    exact pieces_tok h1
  | .goto i ref, k, ts, k', h => by
    rw [DBody] at h
    obtain ⟨-, t, l, rfl, h1, h2, h3, -⟩ := h
    exact pieces_cons h1 (pieces_tok ⟨h2, h3⟩)
  | .compound l, k, ts, k', h => by
    rw [DBody] at h
    obtain ⟨t, x, c, rfl, h1, h2, h3⟩ := h
    exact pieces_cons h1 (pieces_append (stmts_pieces l _ _ _ h2) (pieces_tok h3))
  | .ifThen c s, k, ts, k', h => by
    rw [DBody] at h
    obtain ⟨t, x, th, y, rfl, h1, h2, h3, h4⟩ := h
    exact pieces_cons h1 (pieces_append (pieces_toks h2.1) (pieces_cons h3 (stmt_pieces s _ _ _ h4)))
  | .ifElse c s1 s2, k, ts, k', h => by
    rw [DBody] at h
    obtain ⟨t, x, th, y, e, z, k1, rfl, h1, h2, h3, h4, -, -, h5, h6⟩ := h
    exact pieces_cons h1 (pieces_append (pieces_toks h2.1) (pieces_cons h3 (pieces_append (stmt_pieces s1 _ _ _ h4)
      (pieces_cons h5 (stmt_pieces s2 _ _ _ h6)))))
  | .case e sels els, k, ts, k', h => by
    rw [DBody] at h
    obtain ⟨t, x, th, y, z, c, k1, rfl, h1, h2, h3, h4, h5, h6⟩ := h
    exact pieces_cons h1 (pieces_append (pieces_toks h2.1) (pieces_cons h3 (pieces_append (sels_pieces sels _ _ _ h4)
      (pieces_append (else_pieces els _ _ _ h5) (pieces_tok h6)))))
  | .repeat l c, k, ts, k', h => by
    rw [DBody] at h
    obtain ⟨t, x, th, y, rfl, h1, h2, h3, h4⟩ := h
    exact pieces_cons h1 (pieces_append (stmts_pieces l _ _ _ h2) (pieces_cons h3 (pieces_toks h4.1)))
  | .while c s, k, ts, k', h => by
    rw [DBody] at h
    obtain ⟨t, x, th, y, rfl, h1, h2, h3, h4⟩ := h
    exact pieces_cons h1 (pieces_append (pieces_toks h2.1) (pieces_cons h3 (stmt_pieces s _ _ _ h4)))
  | .for q down lo hi s, k, ts, k', h => by
    rw [DBody] at h
    obtain ⟨t, x, a, y, o, z, d, w, rfl, h1, h2, h3, h4, h5, h6, h7, h8⟩ := h
    exact pieces_cons h1 (pieces_append (pieces_toks h2.1) (pieces_cons h3 (pieces_append (pieces_toks h4.1)
      (pieces_cons h5 (pieces_append (pieces_toks h6.1) (pieces_cons h7 (stmt_pieces s _ _ _ h8)))))))
  | .with qs s, k, ts, k', h => by
    rw [DBody] at h
    obtain ⟨t, x, th, y, rfl, h1, h2, h3, h4⟩ := h
    exact pieces_cons h1 (pieces_append (pieces_toks (qualIds_leaves h2)) (pieces_cons h3 (stmt_pieces s _ _ _ h4)))
  | .tryExcept l b, k, ts, k', h => by
    rw [DBody] at h
    obtain ⟨t, x, th, y, k1, rfl, h1, h2, h3, h4⟩ := h
    exact pieces_cons h1 (pieces_append (stmts_pieces l _ _ _ h2) (pieces_cons h3 (exc_pieces b _ _ _ h4)))
  | .tryFinally l1 l2, k, ts, k', h => by
    rw [DBody] at h
    obtain ⟨t, x, th, y, c, k1, rfl, h1, h2, h3, h4, h5⟩ := h
    exact pieces_cons h1 (pieces_append (stmts_pieces l1 _ _ _ h2) (pieces_cons h3 (pieces_append
      (stmts_pieces l2 _ _ _ h4) (pieces_tok h5))))
  | .raise obj addr, k, ts, k', h => by
    rw [DBody] at h
    exact raise_pieces h.2
  | .asm, k, ts, k', h => by
    rw [DBody] at h
    obtain ⟨-, t, f, body, c, rfl, h1, h2, h3⟩ := h
    exact pieces_cons h1 ⟨f :: body, [c], rfl, ⟨f, body, rfl, h2⟩, pieces_tok h3⟩
theorem stmts_pieces : ∀ (st : Stmts δ τ) (k : κ) (ts : List Token) (k' : κ), DStmts u S L DTy k st ts k' →
    Pieces u (flatStmts fty st) ts
  | .one s, k, ts, k', h => by
    rw [DStmts] at h
    rcases h with ⟨h1, h2⟩ | ⟨x, t, rfl, h1, h2⟩
    · have := pieces_append (stmt_pieces s _ _ _ h2) (pieces_semi (u := u) (b := bareRaise s) (z := []) (.inl ⟨rfl, h1⟩))
      rw [List.append_nil] at this
      exact this
    · exact pieces_append (stmt_pieces s _ _ _ h1) (pieces_semi (.inr ⟨t, rfl, h2⟩))
  | .cons s rest, k, ts, k', h => by
    rw [DStmts] at h
    obtain ⟨x, t, y, k1, rfl, h1, h2, h3⟩ := h
    exact pieces_append (stmt_pieces s _ _ _ h1) (pieces_cons h2 (stmts_pieces rest _ _ _ h3))
theorem else_pieces : ∀ (st : OptStmts δ τ) (k : κ) (ts : List Token) (k' : κ), DElse u S L DTy k st ts k' →
    Pieces u (flatElse fty st) ts
  | .none, k, ts, k', h => by
    rw [DElse] at h
    exact h.1
  | .some l, k, ts, k', h => by
    rw [DElse] at h
    obtain ⟨t, x, rfl, h1, h2⟩ := h
    exact pieces_cons h1 (stmts_pieces l _ _ _ h2)
theorem sels_pieces : ∀ (st : Sels δ τ) (k : κ) (ts : List Token) (k' : κ), DSels u S L DTy k st ts k' →
    Pieces u (flatSels fty st) ts
  | .one ls s, k, ts, k', h => by
    rw [DSels] at h
    obtain ⟨x, t, y, c, rfl, h1, h2, h3, h4⟩ := h
    exact pieces_append (pieces_toks (caseLabels_leaves h1)) (pieces_cons h2 (pieces_append (stmt_pieces s _ _ _ h3)
      (pieces_tok h4)))
  | .cons ls s rest, k, ts, k', h => by
    rw [DSels] at h
    obtain ⟨x, t, y, c, z, k1, rfl, h1, h2, h3, h4, h5⟩ := h
    exact pieces_append (pieces_toks (caseLabels_leaves h1)) (pieces_cons h2 (pieces_append (stmt_pieces s _ _ _ h3)
      (pieces_cons h4 (sels_pieces rest _ _ _ h5))))
theorem exc_pieces : ∀ (st : ExcBlock δ τ) (k : κ) (ts : List Token) (k' : κ), DExc u S L DTy k st ts k' →
    Pieces u (flatExc fty st) ts
  | .plain l, k, ts, k', h => by
    rw [DExc] at h
    obtain ⟨x, c, rfl, h1, h2, -⟩ := h
    exact pieces_append (stmts_pieces l _ _ _ h1) (pieces_tok h2)
  | .handlers hs .none, k, ts, k', h => by
    rw [DExc] at h
    obtain ⟨x, y, c, rfl, h1, h2, h3⟩ := h
    refine pieces_append (handlers_pieces hs _ _ _ _ h1) ⟨y, [c], rfl, ?_, pieces_tok h3⟩
    rcases h2 with h2 | ⟨t, -, -, h2, h2', -⟩
    · exact .inl h2
    · exact .inr ⟨t, h2, h2'⟩
  | .handlers hs (.some l), k, ts, k', h => by
    rw [DExc] at h
    obtain ⟨x, t, y, c, k1, rfl, h1, h2, h3, h4⟩ := h
    exact pieces_append (handlers_pieces hs _ _ _ _ h1) (pieces_cons h2 (pieces_append (stmts_pieces l _ _ _ h3)
      (pieces_tok h4)))
theorem handlers_pieces : ∀ (st : Handlers δ τ) (e : Bool) (k : κ) (ts : List Token) (k' : κ),
    DHandlers u S L DTy k e st ts k' → Pieces u (flatHandlers fty e st) ts
  | .one h, e, k, ts, k', d => by
    rw [DHandlers] at d
    exact handler_pieces h _ _ _ _ d
  | .cons h rest, e, k, ts, k', d => by
    rw [DHandlers] at d
    obtain ⟨x, y, k1, rfl, h1, h2⟩ := d
    exact pieces_append (handler_pieces h _ _ _ _ h1) (handlers_pieces rest _ _ _ _ h2)
theorem handler_pieces : ∀ (st : Handler δ τ) (e : Bool) (k : κ) (ts : List Token) (k' : κ),
    DHandler u S L DTy k e st ts k' → Pieces u (flatHandler fty e st) ts
  | .mk none ty s, e, k, ts, k', h => by
    rw [DHandler] at h
    obtain ⟨t, x, d, y, z, k1, rfl, h1, h2, -, h3, h4, h5⟩ := h
    refine pieces_cons h1 (pieces_append (x := []) rfl (pieces_append (hty _ _ _ _ h2) (pieces_cons h3 (pieces_append
      (stmt_pieces s _ _ _ h4) (pieces_semi ?_)))))
    rcases h5 with ⟨h5, h6, h7⟩ | h5
    · exact .inl ⟨h5, by rw [h6, h7]; rfl⟩
    · exact .inr h5
  | .mk (some i) ty s, e, k, ts, k', h => by
    rw [DHandler] at h
    obtain ⟨t, n, c, x, d, y, z, k1, k2, rfl, h1, h2, -, h2', h3, -, h4, h5, h6⟩ := h
    refine pieces_cons h1 (pieces_append (x := [n, c]) (pieces_cons h2 (pieces_tok h2')) (pieces_append (hty _ _ _ _ h3)
      (pieces_cons h4 (pieces_append (stmt_pieces s _ _ _ h5) (pieces_semi ?_)))))
    rcases h6 with ⟨h6, h7, h8⟩ | h6
    · exact .inl ⟨h6, by rw [h7, h8]; rfl⟩
    · exact .inr h6
end

end

end TP
