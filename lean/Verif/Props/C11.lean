import Verif.Lemmas.Shapes
import Verif.Props.C03

/-!
# C11  String literals are delimited correctly

For Object Pascal's literals the claim is false: a doubled quote ends the token (`C11_refuted_doubled`), and a
backslash in front of the closing quote hides it (`C11_refuted_backslash`).  `C11_exact` says where a literal
ends; `C11_plain_partial` is the part of the claim that holds.
-/

namespace TP.Props
open TP Cursor Spec

variable (u : Uni) (order : List (Char × Char)) (ho : IsOrder order) (fl : Flags)
include ho

/-- A literal ends at the first quote that is not preceded by a backslash: if every quote in `body` has a
backslash in front of it and `body` does not end in a backslash, `'body'` is one token. -/
theorem C11_exact (c : Cursor) (hc : Reachable c) (body r : Str) (hrest : c.rest = '\'' :: body ++ '\'' :: r)
    (hb : NeverCloses body) (hl : body.getLast? ≠ some '\\') :
    ∃ c' t, Gets u order fl c c' (some t) ∧ t.typ = .charString ∧ t.raw = '\'' :: body ++ ['\''] ∧ c'.rest = r := by
  have h1 : ∀ pre post, body = pre ++ '\'' :: post → pre.getLast?.getD NUL = '\\' := by
    intro pre post e; rw [hb pre post e]; rfl
  have h2 : body.getLast?.getD NUL ≠ '\\' := by
    cases hg : body.getLast? with
    | none => decide
    | some x => rw [hg] at hl; simpa using hl
  have hq := quoteLen_found (r := r) h1 h2
  have hlx := lexOne_quote u (body ++ '\'' :: r)
  rw [hq] at hlx
  have hrest' : c.rest = ('\'' :: body ++ ['\'']) ++ r := by rw [hrest]; simp
  have hlx' : lexOne u c.rest = .tok .charString ('\'' :: body ++ ['\'']).length := by
    rw [hrest, List.cons_append, hlx]; simp; omega
  refine ⟨_, _, gets_here ho hc.wf hlx' (skips_false (by simp) (by simp)), rfl, ?_, ?_⟩
  · rw [mkTok_raw _ (lexOne_bounds hlx').2.1, hrest']; exact List.take_left' rfl
  · rw [adv_rest, hrest']; exact List.drop_left' rfl

/-- Missing for the full claim: bodies with quotes or backslashes. -/
theorem C11_plain_partial (c : Cursor) (hc : Reachable c) (body r : Str)
    (hrest : c.rest = '\'' :: body ++ '\'' :: r) (hb : '\'' ∉ body) (hl : '\\' ∉ body) :
    ∃ c' t, Gets u order fl c c' (some t) ∧ t.typ = .charString ∧ t.raw = '\'' :: body ++ ['\''] ∧ c'.rest = r := by
  refine C11_exact u order ho fl c hc body r hrest ?_ ?_
  · intro pre post e; exfalso; apply hb; rw [e]; simp
  · intro h; exact hl (List.mem_of_getLast? h)

/-- Every string token is such a literal. -/
theorem C11_conv (c c' : Cursor) (hc : Reachable c) (t : Token) (h : Gets u order fl c c' (some t))
    (ht : t.typ = .charString) :
    ∃ body, t.raw = '\'' :: body ++ ['\''] ∧ NeverCloses body ∧ body.getLast? ≠ some '\\' := by
  obtain ⟨_, ⟨h1, _⟩ | ⟨j, k, h1, h2, h3, h4, h5, h6, h7⟩⟩ := gets_tok ho hc.wf h
  · rw [h1] at ht; cases ht
  · rw [ht] at h4
    obtain ⟨a, s, e, _, rfl, m, h8, h9⟩ := lexOne_kind h4
    rw [adv_rest] at e
    have key : ∀ (s : Str) (last : Char) (m : Nat), quoteLen last s = some m →
        ∃ body, s.take m = body ++ ['\''] ∧
          (∀ pre post, body = pre ++ '\'' :: post → pre.getLast?.getD last = '\\') ∧
          body.getLast?.getD last ≠ '\\' := by
      intro s
      induction s with
      | nil => intro last m h; simp [quoteLen] at h
      | cons x s ih =>
        intro last m h
        simp only [quoteLen] at h
        split at h
        · rename_i hh
          injection h with h; subst h
          refine ⟨[], by simp [hh.2], by simp, by simpa using hh.1⟩
        · rename_i hh
          cases hq : quoteLen x s with
          | none => rw [hq] at h; cases h
          | some n =>
            rw [hq] at h; simp at h; subst h
            obtain ⟨body, b1, b2, b3⟩ := ih x n hq
            have hcons : ∀ pre : Str, (x :: pre).getLast?.getD last = pre.getLast?.getD x := by
              intro pre
              cases pre with
              | nil => rfl
              | cons y pre => rw [List.getLast?_cons_cons, List.getLast?_cons]; rfl
            refine ⟨x :: body, by simp [b1], ?_, ?_⟩
            · intro pre post e
              cases pre with
              | nil =>
                simp at e
                apply Classical.byContradiction; intro hn
                exact hh ⟨by simpa using hn, e.1⟩
              | cons y pre =>
                simp at e
                rw [← e.1, hcons]; exact b2 pre post e.2
            · rw [hcons]; exact b3
    obtain ⟨body, b1, b2, b3⟩ := key s NUL m h8
    refine ⟨body, ?_, ?_, ?_⟩
    · rw [h7, e, h9, Nat.add_comm, List.take_succ_cons, b1]; rfl
    · intro pre post e
      have := b2 pre post e
      cases hp : pre.getLast? with
      | none => rw [hp] at this; exact absurd this (by decide)
      | some y => rw [hp] at this; simp at this; rw [this]
    · intro hn; rw [hn] at b3; exact b3 rfl

omit ho in
/-- The full claim is false: the literal `'a''b'` is returned as two tokens. -/
theorem C11_refuted_doubled : ∃ t1 t2 c', Run asciiUni doubleSymbols Flags.none (Cursor.new r!"'a''b'") [t1, t2] c' ∧
    c'.rest = [] ∧ t1.view = (.charString, r!"'a'") ∧ t2.view = (.charString, r!"'b'") :=
  ⟨⟨.charString, r!"'a''b'", ⟨1, 1, 0⟩, ⟨1, 4, 3⟩⟩, ⟨.charString, r!"'a''b'", ⟨1, 4, 3⟩, ⟨1, 7, 6⟩⟩,
    ⟨r!"'a''b'", ⟨1, 7, 6⟩, false⟩, run_of_tokensN (fuel := 9) (n := 2) (by decide), by decide, by decide, by decide⟩

/-- The full claim is false: on the complete literal `'\'` followed by a semicolon a call never returns. -/
theorem C11_refuted_backslash : ∀ fuel, getNext u order fl fuel (Cursor.new r!"'\\';") = none :=
  C03_diverges u order ho fl _ (.new _) r!"\\';" rfl (by rw [← neverCloses_iff]; decide)

omit ho in
/-- non-vacuity -/
example : (Cursor.new r!"'ab' x").rest = '\'' :: r!"ab" ++ '\'' :: r!" x" ∧ '\'' ∉ r!"ab" ∧ '\\' ∉ r!"ab" := by
  decide

end TP.Props
