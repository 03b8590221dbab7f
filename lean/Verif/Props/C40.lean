import Verif.Lemmas.ExprComplete
import Verif.Lemmas.StmtBase
import Verif.Props.C38

/-!
# C40  Assembler blocks end at their END
-/

namespace TP.Props
open TP Spec

section
variable {κ δ τ : Type} (u : Uni)

theorem next_cons (t t' : Token) (ts : List Token) (tl : Tail) (k : κ) :
    P.next ⟨t :: t' :: ts, tl, k⟩ = .ok () ⟨t' :: ts, tl, k⟩ := rfl

theorem is_cons (pred : Pred) (t : Token) (ts : List Token) (tl : Tail) (k : κ) :
    P.is pred ⟨t :: ts, tl, k⟩ = .ok (pred t) ⟨t :: ts, tl, k⟩ := rfl

theorem kw_false {c : Str} {t : Token} (h : ¬ IsKw u c t) : kw u c t = false := by
  rw [← Bool.not_eq_true]; exact fun h' => h (kw_iff.1 h')

theorem asmLoop_found (f e : Token) (body rest : List Token) (tl : Tail) (k : κ) (hb : ∀ x ∈ body, ¬ IsKw u r!"END" x)
    (he : IsKw u r!"END" e) (hr : rest = [] → tl ≠ .hang) (n : Nat) (hn : body.length + 1 ≤ n) :
    asmLoop u n ⟨f :: (body ++ e :: rest), tl, k⟩ = .ok () ⟨rest, tl, k⟩ := by
  induction body generalizing f n with
  | nil =>
    obtain ⟨m, rfl⟩ : ∃ m, n = m + 1 := ⟨n - 1, by simp at hn; omega⟩
    rw [asmLoop]
    show P.bind P.next _ _ = _
    simp only [List.nil_append, P.bind, next_cons]
    show P.bind (P.is _) _ _ = _
    simp only [P.bind, is_cons, kw_iff.2 he, if_true]
    cases rest with
    | cons => rfl
    | nil => cases tl with
      | hang => exact absurd rfl (hr rfl)
      | _ => rfl
  | cons b body ih =>
    obtain ⟨m, rfl⟩ : ∃ m, n = m + 1 := ⟨n - 1, by simp at hn; omega⟩
    rw [asmLoop]
    show P.bind P.next _ _ = _
    simp only [List.cons_append, P.bind, next_cons]
    show P.bind (P.is _) _ _ = _
    simp only [P.bind, is_cons, kw_false u (hb b (by simp)), Bool.false_eq_true, if_false]
    exact ih b (fun x hx => hb x (by simp [hx])) m (by simp at hn; omega)

theorem asmLoop_lost (ts : List Token) (x : Str) (p : Pos) (k : κ) (hb : ∀ t ∈ ts.tail, ¬ IsKw u r!"END" t) (n : Nat) :
    asmLoop u n ⟨ts, .eof x p, k⟩ = .wait := by
  induction n generalizing ts with
  | zero => rfl
  | succ n ih =>
    show P.bind P.next _ _ = _
    have : ∀ ts', (∀ t ∈ ts', ¬ IsKw u r!"END" t) →
        (P.is (kw u r!"END") >>= fun b => if b then P.next else asmLoop u n : P κ Unit) ⟨ts', .eof x p, k⟩ = .wait := by
      intro ts' h
      cases ts' with
      | nil =>
        show P.bind (P.is _) _ _ = _
        have e : P.is (kw u r!"END") (⟨[], .eof x p, k⟩ : PS κ) = .ok false ⟨[], .eof x p, k⟩ := rfl
        simp only [P.bind, e, Bool.false_eq_true, if_false]
        exact ih [] (by simp)
      | cons t ts' =>
        show P.bind (P.is _) _ _ = _
        simp only [P.bind, is_cons, kw_false u (h t (by simp)), Bool.false_eq_true, if_false]
        exact ih (t :: ts') (fun x hx => h x (by simp at hx; simp [hx]))
    cases ts with
    | nil => exact this [] (by simp)
    | cons t ts =>
      cases ts with
      | nil => exact this [] (by simp)
      | cons t' ts => exact this (t' :: ts) hb

theorem parseAsm_eq (a f : Token) (ts : List Token) (tl : Tail) (k : κ) (ha : IsKw u r!"ASM" a) (n : Nat) :
    (parseAsm u n : P κ (Body δ τ)) ⟨a :: f :: ts, tl, k⟩ =
      (asmLoop u n >>= fun _ => pure .asm : P κ (Body δ τ)) ⟨f :: ts, tl, k⟩ := by
  unfold parseAsm
  have e : P.current (kw u r!"ASM") (⟨a :: f :: ts, tl, k⟩ : PS κ) = .ok a ⟨a :: f :: ts, tl, k⟩ :=
    current_run rfl (kw_iff.2 ha)
  show P.bind _ _ _ = _
  simp only [P.bind, e]
  show P.bind P.next _ _ = _
  simp only [P.bind, next_cons]

/-- `ASM`, any token, tokens that are not `END`, `END`: the statement ends there.  `rest` is what follows. -/
theorem C40_consumes_partial (a f e : Token) (body rest : List Token) (tl : Tail) (k : κ) (ha : IsKw u r!"ASM" a)
    (hb : ∀ x ∈ body, ¬ IsKw u r!"END" x) (he : IsKw u r!"END" e) (hr : rest = [] → tl ≠ .hang) (n : Nat)
    (hn : body.length + 1 ≤ n) :
    (parseAsm u n : P κ (Body δ τ)) ⟨a :: f :: (body ++ e :: rest), tl, k⟩ = .ok .asm ⟨rest, tl, k⟩ := by
  rw [parseAsm_eq u a f _ tl k ha n]
  show P.bind _ _ _ = _
  unfold P.bind
  rw [asmLoop_found u f e body rest tl k hb he hr n hn]
  rfl

/-- Whenever `ParseAssemblerStatement` succeeds it has consumed `ASM`, one token of any kind and everything up to and
including the first `END` after that.  Missing with respect to C40: the token after `ASM` is not looked at. -/
theorem C40_shape_partial (ts : List Token) (tl : Tail) (k : κ) (n : Nat) (b : Body δ τ) (s' : PS κ)
    (h : (parseAsm u n : P κ (Body δ τ)) ⟨ts, tl, k⟩ = .ok b s') :
    b = .asm ∧ ∃ a f body e, ts = a :: f :: (body ++ e :: s'.ts) ∧ IsKw u r!"ASM" a ∧
      (∀ x ∈ body, ¬ IsKw u r!"END" x) ∧ IsKw u r!"END" e ∧ s'.tail = tl ∧ s'.cx = k := by
  have hloop : ∀ n (s s' : PS κ), asmLoop u n s = .ok () s' → ∃ f body e, s.ts = f :: (body ++ e :: s'.ts) ∧
      (∀ x ∈ body, ¬ IsKw u r!"END" x) ∧ IsKw u r!"END" e ∧ s'.tail = s.tail ∧ s'.cx = s.cx := by
    intro n
    induction n with
    | zero => intro s s' h; cases h
    | succ n ih =>
      rintro ⟨ts, tl, k⟩ s' h
      have none : ts.tail = [] → False := by
        intro e
        cases tl with
        | eof x p => rw [asmLoop_lost u ts x p k (by rw [e]; simp)] at h; cases h
        | nil => 
          cases ts with
          | nil => cases h
          | cons t ts => cases ts with
            | nil => cases h
            | cons => cases e
        | hang => 
          cases ts with
          | nil => cases h
          | cons t ts => cases ts with
            | nil => cases h
            | cons => cases e
      match ts, none with
      | [], none => exact (none rfl).elim
      | [_], none => exact (none rfl).elim
      | f :: t :: ts, _ =>
        rw [asmLoop] at h
        change P.bind P.next _ _ = _ at h
        simp only [P.bind, next_cons] at h
        change P.bind (P.is _) _ _ = _ at h
        simp only [P.bind, is_cons] at h
        by_cases c : IsKw u r!"END" t
        · simp only [kw_iff.2 c, if_true] at h
          refine ⟨f, [], t, ?_, by simp, c, ?_⟩
          · cases ts with
            | cons => cases h; rfl
            | nil => cases tl <;> cases h <;> rfl
          · cases ts with
            | cons => cases h; exact ⟨rfl, rfl⟩
            | nil => cases tl <;> cases h <;> exact ⟨rfl, rfl⟩
        · simp only [kw_false u c, Bool.false_eq_true, if_false] at h
          obtain ⟨f', body, e, h1, h2, h3, h4⟩ := ih _ _ h
          injection h1 with h1 h1'
          subst h1
          refine ⟨f, t :: body, e, by rw [h1']; rfl, ?_, h3, h4⟩
          intro x hx
          rcases List.mem_cons.1 hx with rfl | hx
          · exact c
          · exact h2 x hx
  have hcur : ∃ a, (⟨ts, tl, k⟩ : PS κ).tok? = some a ∧ IsKw u r!"ASM" a := by
    have : wp (parseAsm u n : P κ (Body δ τ)) ⟨ts, tl, k⟩
        (fun _ _ => ∃ a, (⟨ts, tl, k⟩ : PS κ).tok? = some a ∧ IsKw u r!"ASM" a) True True := by
      refine wp_current_bind (fun _ => trivial) fun t ht hp => ?_
      unfold wp
      split
      · exact ⟨t, ht, kw_iff.1 hp⟩
      all_goals trivial
    unfold wp at this
    rw [h] at this
    exact this
  obtain ⟨a, h1, h2⟩ := hcur
  obtain ⟨ts', hts⟩ := tok_cons h1 (kw_ne_eof h2)
  change ts = _ at hts
  subst hts
  have h3 : (P.next >>= fun _ => asmLoop u n >>= fun _ => pure Body.asm : P κ (Body δ τ)) ⟨a :: ts', tl, k⟩ = .ok b s' := by
    rw [← h]
    unfold parseAsm
    show _ = P.bind _ _ _
    rw [P.bind, current_run h1 (kw_iff.2 h2)]
  have h4 : ∀ s0 : PS κ, (asmLoop u n >>= fun _ => pure Body.asm : P κ (Body δ τ)) s0 = .ok b s' →
      b = .asm ∧ asmLoop u n s0 = .ok () s' := by
    intro s0 h
    change P.bind _ _ _ = _ at h
    unfold P.bind at h
    split at h
    · rename_i e; cases h; exact ⟨rfl, e⟩
    all_goals cases h
  have h5 : ∀ s0 : PS κ, P.next (⟨a :: ts', tl, k⟩ : PS κ) = .ok () s0 → s0 = ⟨ts', tl, k⟩ := by
    intro s0 h
    cases ts' with
    | cons => cases h; rfl
    | nil => cases tl <;> cases h <;> rfl
  change P.bind _ _ _ = _ at h3
  unfold P.bind at h3
  split at h3
  · rename_i e
    rw [h5 _ e] at h3
    obtain ⟨rfl, h6⟩ := h4 _ h3
    obtain ⟨f, body, e, g1, g2, g3, g4, g5⟩ := hloop n _ _ h6
    exact ⟨rfl, a, f, body, e, by rw [← g1], h2, g2, g3, g4, g5⟩
  all_goals cases h3

/-- Without a matching `END` before the end of the file the loop never ends: no amount of fuel suffices. -/
theorem C40_refuted_loop (a f : Token) (ts : List Token) (x : Str) (p : Pos) (k : κ) (ha : IsKw u r!"ASM" a)
    (hb : ∀ t ∈ ts, ¬ IsKw u r!"END" t) (n : Nat) :
    (parseAsm u n : P κ (Body δ τ)) ⟨a :: f :: ts, .eof x p, k⟩ = .wait := by
  rw [parseAsm_eq u a f _ _ k ha n]
  show P.bind _ _ _ = _
  unfold P.bind
  rw [asmLoop_lost u (f :: ts) x p k hb]

end

/-- `asm end ; x end ;`: the statement does not end at its first `END`. -/
theorem C40_refuted_first : ∃ (ts : List Token) (rest : List Token),
    ts = exToks [(.reserved, r!"asm"), (.reserved, r!"end"), (.symbol, r!";"), (.ident, r!"x"), (.reserved, r!"end")] ++ rest ∧
    leftOf ((parseAsm asciiUni 10 : P Nat (Body Unit Unit)) ⟨ts, .eof [] ⟨1, 1, 0⟩, 0⟩) = some rest :=
  ⟨_, exToks [(.symbol, r!";")], rfl, by decide +kernel⟩

/-- `asm` at the end of a file -/
example (n : Nat) : (parseAsm asciiUni n : P Nat (Body Unit Unit))
    ⟨exToks [(.reserved, r!"asm"), (.ident, r!"nop"), (.symbol, r!";")], .eof [] ⟨1, 1, 0⟩, 0⟩ = .wait :=
  C40_refuted_loop asciiUni (exTok .reserved r!"asm") (exTok .ident r!"nop") [exTok .symbol r!";"] _ _ 0
    ⟨rfl, by decide +kernel⟩ (by intro t ht; rw [List.mem_singleton.1 ht]; exact fun h => nomatch h.1) n

/-- an ordinary block -/
example : leftOf ((parseAsm asciiUni 10 : P Nat (Body Unit Unit)) ⟨exToks [(.reserved, r!"ASM"), (.ident, r!"mov"),
    (.ident, r!"eax"), (.symbol, r!","), (.numInt, r!"1"), (.reserved, r!"End"), (.symbol, r!";")], .eof [] ⟨1, 1, 0⟩, 0⟩) =
    some (exToks [(.symbol, r!";")]) := by decide +kernel

end TP.Props
