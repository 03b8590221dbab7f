import Verif.Spec.Ranked
import Verif.Lemmas.StmtSound
import Verif.Props.C40

/-!
# C46  Statement parsing terminates
-/

namespace TP.Props
open TP Spec

section
variable {κ δ τ : Type} (u : Uni) (S : SEnv κ δ τ)

/-- The type parser returns after a number of steps proportional to the number of tokens left. -/
def TypeTerminates : Prop :=
  ∀ n s, s.tail ≠ .hang → 10 * s.ts.length + 10 ≤ n → S.parseType n s ≠ .wait

/-- The type parser only moves forward. -/
def TypeForward : Prop :=
  ∀ n s ty s', S.parseType n s = .ok ty s' → s'.tail = s.tail ∧ s'.ts <:+ s.ts

/-- The parser returns from every finite token stream in which the assembler blocks are closed: an explicit number of
steps suffices.  For every context, whatever it answers.  What is missing: unclosed assembler blocks (refuted below), and
the type parser is a parameter. -/
theorem C46_terminates_partial (hterm : TypeTerminates S) (hfwd : TypeForward S) (k : κ) (ts : List Token) (tail : Tail)
    (htail : tail ≠ .hang) (hasm : AsmClosed u ts) (n : Nat) (hn : 10 * ts.length + 9 ≤ n) :
    parseStmt u S n ⟨ts, tail, k⟩ ≠ .wait := by
  have B : SBase u S (fun _ _ _ _ => True) (fun _ _ => True) (AsmClosed u) tail True False False := by
    refine ⟨fun _ _ _ => trivial, False.elim, False.elim, fun _ => trivial, htail, fun _ _ _ _ _ _ _ _ _ _ _ _ _ => trivial,
      ?_, fun _ _ => asmClosed_tail u, ?_, ?_⟩
    · intro k c _ i ty
      split
      · exact ⟨k, trivial, False.elim⟩
      · trivial
      · trivial
    · intro t ts h ht hno
      obtain ⟨x, h1, h2⟩ := h t ts List.suffix_rfl ht
      exact hno x h1 h2
    · intro n s k hs _ _ hf
      have := hterm n s (hs ▸ htail) (Nat.le_of_not_lt hf)
      unfold wp
      split
      · rename_i ty s' e
        obtain ⟨h1, used, h2⟩ := hfwd n s ty s' e
        exact ⟨used, k, ⟨h2.symm, h1⟩, trivial, trivial⟩
      · trivial
      · trivial
      · rename_i e; exact this e
  intro e
  have := (stmt_sound B n).stmt ⟨ts, tail, k⟩ k ⟨rfl, trivial, hasm⟩ (fun h => absurd hn (by simpa using h))
  unfold wp at this
  rw [e] at this
  exact this

/-- More fuel does not change the outcome `wait`, so this is a parse that never ends: any statement `ASM` without its
`END`. -/
theorem C46_refuted (a f : Token) (ts : List Token) (x : Str) (p : Pos) (k : κ) (ha : IsKw u r!"ASM" a)
    (hb : ∀ t ∈ ts, ¬ IsKw u r!"END" t) (hl : ¬ IsLabelName S k r!"ASM") (n : Nat) :
    parseStmt u S n ⟨a :: f :: ts, .eof x p, k⟩ = .wait := by
  cases n with
  | zero => rfl
  | succ n =>
    have hv : a.value u = r!"ASM" := (value_reserved ha.1).trans ha.2
    have e1 : parseLabel u S ⟨a :: f :: ts, .eof x p, k⟩ = .ok none ⟨a :: f :: ts, .eof x p, k⟩ := by
      unfold parseLabel
      show P.bind P.cur _ _ = _
      simp only [P.bind, cur_run (s := (⟨a :: f :: ts, .eof x p, k⟩ : PS κ)) rfl]
      show P.bind (getDecl _ _) _ _ = _
      simp only [P.bind, get_run, hv]
      cases hg : S.get k r!"ASM" with
      | none => rfl
      | some d =>
        have : S.isLabel d = false := by
          rw [← Bool.not_eq_true]; exact fun h => hl ⟨d, hg, h⟩
        simp only [this, Bool.false_eq_true, if_false]
        rfl
    rw [parseStmt]
    show P.bind _ _ _ = _
    simp only [P.bind, e1]
    show P.bind _ _ _ = _
    suffices parseBody u S n ⟨a :: f :: ts, .eof x p, k⟩ = .wait by simp only [P.bind, this]
    cases n with
    | zero => rfl
    | succ n =>
      rw [parseBody]
      show P.bind P.cur _ _ = _
      simp only [P.bind, cur_run (s := (⟨a :: f :: ts, .eof x p, k⟩ : PS κ)) rfl, hv, ha.1]
      exact C40_refuted_loop u a f ts x p k ha hb n

end

/-! ## Examples -/

theorem exS_forward : TypeForward exS := by
  intro n s ty s' h
  obtain ⟨h1, used, h2, -⟩ := exS_lossless n s ty s' h
  exact ⟨h1, used, h2.symm⟩

theorem exS_terminates : TypeTerminates exS := by
  intro n s hs _ e
  have : wp (exS.parseType n) s (fun _ _ => True) True False := by
    refine wp_current_bind hs fun t ht hp => ?_
    have hp' : t.typ = .ident := by simpa [Pred.typ] using hp
    obtain ⟨ts, hts⟩ := tok_cons ht (by rw [hp']; decide)
    exact wp_next_cons hts hs fun s' _ _ _ => trivial
  unfold wp at this
  rw [e] at this
  exact this

/-- `asm x end` is closed, and so is every list without `ASM` -/
example : AsmClosed asciiUni (exToks [(.reserved, r!"asm"), (.ident, r!"x"), (.reserved, r!"end")]) := by
  intro a rest h ha
  rw [List.suffix_iff_eq_drop] at h
  match hn : (a :: rest).length, h with
  | 1, h => cases h; exact absurd ha.2 (by decide +kernel)
  | 2, h => cases h; exact nomatch ha.1
  | 3, h => cases h; exact ⟨_, List.mem_singleton.2 rfl, rfl, by decide +kernel⟩
  | 0, h => cases hn
  | n + 4, h =>
    have := congrArg List.length h
    rw [List.length_drop, hn] at this
    have e : (exToks [(.reserved, r!"asm"), (.ident, r!"x"), (.reserved, r!"end")]).length = 3 := rfl
    omega

/-- the parser does not return from `asm end` -/
example (n : Nat) : parseStmt asciiUni exS n
    ⟨exToks [(.reserved, r!"asm"), (.reserved, r!"end")], .eof [] ⟨1, 1, 0⟩, exWorld⟩ = .wait :=
  C46_refuted asciiUni exS (exTok .reserved r!"asm") (exTok .reserved r!"end") [] _ _ exWorld
    ⟨rfl, by decide +kernel⟩ (by simp) (fun ⟨_, _, h⟩ => nomatch h) n

end TP.Props
