import Verif.Model.TextTokens
import Verif.Lemmas.Stream

/-!
# The computed token stream is the one the parser gets
-/

namespace TP
open Cursor Spec Props

theorem lexFrom_delivers {u : Uni} {order : List (Char × Char)} (ho : IsOrder order) {fuel : Nat} :
    ∀ {n : Nat} {c : Cursor} {ts : List Token} {tl : Tail}, Reachable c →
      lexFrom u order fuel n c = some (ts, tl) → Delivers u order c ts tl := by
  intro n
  induction n with
  | zero => intro c ts tl _ h; cases h
  | succ n ih =>
    intro c ts tl hc h
    rw [lexFrom] at h
    cases e : getNext u order ⟨false, false⟩ fuel c with
    | none => rw [e] at h; cases h
    | some r =>
      obtain ⟨c', o⟩ := r
      rw [e] at h
      have hg : Gets u order Flags.none c c' o := ⟨fuel, e⟩
      cases o with
      | none =>
        simp only [Option.some.injEq, Prod.mk.injEq] at h
        obtain ⟨rfl, rfl⟩ := h
        exact ⟨(fun _ h => by cases h), c, .nil c, c', hg, fun c3 o =>
          C12_stuck_forever u order ho Flags.none Flags.none c c' c3 hc hg o⟩
      | some t =>
        simp only at h
        by_cases ht : t.typ = .eof
        · rw [if_pos ht] at h
          simp only [Option.some.injEq, Prod.mk.injEq] at h
          obtain ⟨rfl, rfl⟩ := h
          obtain ⟨_, ⟨_, h2, h3, h4⟩ | ⟨_, _, _, _, _, _, _, h6, _⟩⟩ := gets_tok ho hc.wf hg
          · have e : t = eofTok t.text t.stop := by
              obtain ⟨ty, x, a, b⟩ := t
              simp only at ht h2
              subst ht h2; rfl
            refine ⟨(fun _ h => by cases h), c, .nil c, c', ?_, ?_⟩
            · rw [← e]; exact hg
            · intro c3 o
              rw [gets_iff ho (gets_wf ho hc.wf hg), h3, ← e, h4]
          · exact absurd ht h6
        · rw [if_neg ht] at h
          cases e2 : lexFrom u order fuel n c' with
          | none => rw [e2] at h; cases h
          | some r =>
            obtain ⟨ts', tl'⟩ := r
            rw [e2] at h
            simp only [Option.some.injEq, Prod.mk.injEq] at h
            obtain ⟨rfl, rfl⟩ := h
            obtain ⟨h1, c2, h2, h3⟩ := ih (gets_reachable ho hc hg) e2
            refine ⟨fun x hx => ?_, c2, .cons hg h2, h3⟩
            rcases List.mem_cons.1 hx with rfl | hx
            · exact ht
            · exact h1 x hx

theorem lex_delivers {u : Uni} {text : Str} {n : Nat} {ts : List Token} {tl : Tail}
    (h : lex u text n = some (ts, tl)) : Delivers u doubleSymbols (Cursor.new text) ts tl :=
  lexFrom_delivers (List.Perm.refl _) (.new text) h

end TP
