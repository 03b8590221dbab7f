import Verif.Lemmas.Shapes

/-!
# C10  Comments are delimited correctly

Two deviations from the claim: `(*)` counts as a complete comment (`C10_refuted`), and a NUL rune ends a comment
(hence the hypotheses of the `_partial` theorems).
-/

namespace TP.Props
open TP Cursor Spec

/-- The text `txt` in front of the cursor is a comment of its own: it is one Comment token if comments are
loaded, and otherwise a call does what it does after `txt`, whatever `txt` contains. -/
def CommentAt (u : Uni) (order : List (Char × Char)) (c : Cursor) (txt : Str) : Prop :=
  (∀ fl : Flags, fl.loadComment = true →
    ∃ t, Gets u order fl c (adv txt.length c) (some t) ∧ t.typ = .comment ∧ t.raw = txt) ∧
  (∀ fl : Flags, fl.loadComment = false →
    ∀ c' o, Gets u order fl c c' o ↔ Gets u order fl (adv txt.length c) c' o)

variable (u : Uni) (order : List (Char × Char)) (ho : IsOrder order)
include ho

theorem commentAt_of_lexOne {c : Cursor} (hc : Reachable c) {txt r : Str} (hrest : c.rest = txt ++ r)
    (hl : lexOne u (txt ++ r) = .tok .comment txt.length) : CommentAt u order c txt := by
  rw [← hrest] at hl
  constructor
  · intro fl hf
    refine ⟨_, gets_here ho hc.wf hl ?_, rfl, ?_⟩
    · simp [Flags.skips, skipped, hf]
    · rw [mkTok_raw _ (lexOne_bounds hl).2.1, hrest]; exact List.take_left' rfl
  · intro fl hf c' o
    rw [gets_iff ho hc.wf, hl]
    have : fl.skips .comment = true := by simp [Flags.skips, skipped, hf]
    simp [this]

/-- `{ body }` -/
theorem C10_brace_partial (c : Cursor) (hc : Reachable c) (body r : Str) (hrest : c.rest = '{' :: body ++ '}' :: r)
    (hb : '}' ∉ body) (h0 : NUL ∉ body) : CommentAt u order c ('{' :: body ++ ['}']) := by
  have e : '{' :: body ++ '}' :: r = ('{' :: body ++ ['}']) ++ r := by simp
  rw [e] at hrest
  refine commentAt_of_lexOne u order ho hc hrest ?_
  rw [← e, List.cons_append, lexOne_brace, lenUntil_append]
  · congr 1; simp
  · intro x hx
    simp only [Bool.or_eq_false_iff, beq_eq_false_iff_ne]
    exact ⟨fun e => hb (e ▸ hx), fun e => h0 (e ▸ hx)⟩
  · intro x hx; simp at hx; subst hx; decide

/-- an open `{` runs to the end of the text -/
theorem C10_brace_open_partial (c : Cursor) (hc : Reachable c) (body : Str) (hrest : c.rest = '{' :: body)
    (hb : '}' ∉ body) (h0 : NUL ∉ body) : CommentAt u order c ('{' :: body) := by
  have e : '{' :: body = ('{' :: body) ++ [] := by simp
  rw [e] at hrest
  refine commentAt_of_lexOne u order ho hc hrest ?_
  have h := lenUntil_append (stop := fun c => c == '}' || c == NUL) (w := body) (r := []) (by
    intro x hx
    simp only [Bool.or_eq_false_iff, beq_eq_false_iff_ne]
    exact ⟨fun e => hb (e ▸ hx), fun e => h0 (e ▸ hx)⟩) (by simp)
  rw [List.append_nil] at h
  rw [List.append_nil, lexOne_brace, h]
  congr 1; simp

/-- `// body` up to, but without, the line feed -/
theorem C10_slash_partial (c : Cursor) (hc : Reachable c) (body r : Str) (hrest : c.rest = '/' :: '/' :: body ++ r)
    (hb : '\n' ∉ body) (h0 : NUL ∉ body) (hr : r = [] ∨ r.head? = some '\n') :
    CommentAt u order c ('/' :: '/' :: body) := by
  refine commentAt_of_lexOne u order ho hc hrest ?_
  rw [List.cons_append, List.cons_append, lexOne_slash, lenUntil_append]
  · congr 1; simp; omega
  · intro x hx
    simp only [Bool.or_eq_false_iff, beq_eq_false_iff_ne]
    exact ⟨fun e => hb (e ▸ hx), fun e => h0 (e ▸ hx)⟩
  · intro x hx
    rcases hr with rfl | hr
    · simp at hx
    · rw [hr] at hx; injection hx with hx; subst hx; decide

/-- `(* body *)` up to the first closer, provided `body` does not begin with `)` -/
theorem C10_paren_partial (c : Cursor) (hc : Reachable c) (body r : Str)
    (hrest : c.rest = '(' :: '*' :: body ++ '*' :: ')' :: r)
    (hb : NoStarParen body) (hp : body.head? ≠ some ')') (h0 : NUL ∉ body) :
    CommentAt u order c ('(' :: '*' :: body ++ r!"*)") := by
  have e : '(' :: '*' :: body ++ '*' :: ')' :: r = ('(' :: '*' :: body ++ r!"*)") ++ r := by simp
  rw [e] at hrest
  refine commentAt_of_lexOne u order ho hc hrest ?_
  have hn : NoStarParen ('*' :: body) := by
    intro p q e
    cases p with
    | nil => simp at e; rw [e] at hp; simp at hp
    | cons x p => simp at e; exact hb p q e.2
  have := starLen_found (r := r) hn (by simp [h0]; decide)
  rw [← e, List.cons_append, List.cons_append, lexOne_paren, ← List.cons_append, this]
  congr 1; simp; omega

/-- an open `(*` runs to the end of the text -/
theorem C10_paren_open_partial (c : Cursor) (hc : Reachable c) (body : Str) (hrest : c.rest = '(' :: '*' :: body)
    (hb : NoStarParen body) (hp : body.head? ≠ some ')') (h0 : NUL ∉ body) :
    CommentAt u order c ('(' :: '*' :: body) := by
  have e : '(' :: '*' :: body = ('(' :: '*' :: body) ++ [] := by simp
  rw [e] at hrest
  refine commentAt_of_lexOne u order ho hc hrest ?_
  have hn : NoStarParen ('*' :: body) := by
    intro p q e
    cases p with
    | nil => simp at e; rw [e] at hp; simp at hp
    | cons x p => simp at e; exact hb p q e.2
  rw [List.append_nil, lexOne_paren, starLen_open hn (by simp [h0]; decide)]
  congr 1; simp; omega

omit ho in
/-- The full claim is false: in `(*)a*)` the first closer after the opener `(*` is at the end, but the comment
returned is `(*)`. -/
theorem C10_refuted : ∃ c' t, Gets asciiUni doubleSymbols Flags.all (Cursor.new r!"(*)a*)") c' (some t) ∧
    t.typ = .comment ∧ t.raw = r!"(*)" ∧ c'.rest = r!"a*)" :=
  ⟨⟨r!"(*)a*)", ⟨1, 4, 3⟩, false⟩, ⟨.comment, r!"(*)a*)", ⟨1, 1, 0⟩, ⟨1, 4, 3⟩⟩, ⟨9, by decide⟩, rfl,
    by decide, by decide⟩

omit ho in
/-- non-vacuity: a body full of would-be tokens, stars and parentheses. -/
example : (Cursor.new r!"(* '(x) ** { *)y").rest = '(' :: '*' :: r!" '(x) ** { " ++ '*' :: ')' :: r!"y" ∧
    (r!" '(x) ** { ").head? ≠ some ')' ∧ NUL ∉ r!" '(x) ** { " ∧ NoStarParen r!" '(x) ** { " := by
  refine ⟨rfl, by decide, by decide, ?_⟩
  intro p q e
  have : ∀ n ≤ 11, ¬ ((r!" '(x) ** { ").drop n).take 2 = r!"*)" := by decide
  have h := this p.length (by have := congrArg List.length e; simp at this; omega)
  rw [e, List.drop_left' rfl] at h
  exact h rfl

end TP.Props
