import Verif.Model.Decls

/-!
# What a run of the parser does not look at

`Loc p`: cut the tokens off somewhere, so that the call that would read on does not return.  If `p` returns, it does the same with
any tokens behind the cut; if it does not, then with tokens behind the cut it ends behind the cut, or does not return a result.
-/

namespace TP

variable {κ δ τ α β : Type}

/-- more tokens, and another end -/
def PS.ext (s : PS κ) (e : List Token) (tl : Tail) : PS κ := ⟨s.ts ++ e, tl, s.cx⟩

/-- no token comes back -/
def Shr (p : P κ α) : Prop := ∀ s v s', p s = .ok v s' → s'.ts <:+ s.ts

/-- a token is passed -/
def Eats (p : P κ α) : Prop := ∀ s v s', p s = .ok v s' → s'.ts <:+ s.ts.tail

/-- `r'` is the result with more tokens behind the cut -/
def OnCut (e : List Token) (tl : Tail) : R (PS κ) α → R (PS κ) α → Prop
  | .wait, r => ∀ v s', r = .ok v s' → s'.ts <:+ e
  | .ok v s', r => s'.tail = .hang ∧ r = .ok v (s'.ext e tl)
  | .err, r => r = .err
  | .panic, r => r = .panic

theorem suffix_tail {l l' : List α} (h : l <:+ l') : l.tail <:+ l'.tail := by
  obtain ⟨p, rfl⟩ := h
  cases p with
  | nil => exact List.suffix_refl _
  | cons a p => exact (List.tail_suffix _).trans (List.suffix_append _ _)

structure Loc (p : P κ α) : Prop where
  shr : Shr p
  ends : ∀ s e tl, s.tail = .hang → OnCut e tl (p s) (p (s.ext e tl))

namespace Loc

theorem bind {p : P κ α} {f : α → P κ β} (h : Loc p) (h' : ∀ a, Loc (f a)) : Loc (p >>= f) := by
  constructor
  · intro s v s' hp
    change P.bind p f s = _ at hp
    unfold P.bind at hp
    cases e : p s <;> rw [e] at hp <;> try (cases hp; done)
    exact List.IsSuffix.trans ((h' _).shr _ _ _ hp) (h.shr _ _ _ e)
  · intro s e tl hs
    have := h.ends s e tl hs
    change OnCut e tl (P.bind p f s) (P.bind p f (s.ext e tl))
    unfold P.bind
    cases hp : p s with
    | wait =>
      rw [hp] at this
      intro v s' hq
      cases e1 : p (s.ext e tl) <;> rw [e1] at hq <;> try (cases hq; done)
      exact List.IsSuffix.trans ((h' _).shr _ _ _ hq) (this _ _ e1)
    | err => rw [hp] at this; change p (s.ext e tl) = _ at this; rw [this]; rfl
    | panic => rw [hp] at this; change p (s.ext e tl) = _ at this; rw [this]; rfl
    | ok a s' =>
      rw [hp] at this
      rw [this.2]
      exact (h' a).ends s' e tl this.1

theorem pure (a : α) : Loc (Pure.pure a : P κ α) :=
  ⟨fun _ _ _ h => by cases h; exact List.suffix_refl _, fun _ _ _ hs => ⟨hs, rfl⟩⟩
theorem fail : Loc (P.fail : P κ α) := ⟨fun _ _ _ h => (nomatch h), fun _ _ _ _ => rfl⟩
theorem wait : Loc (P.wait : P κ α) := ⟨fun _ _ _ h => (nomatch h), fun _ _ _ _ _ _ h => (nomatch h)⟩
theorem panic : Loc (P.panic : P κ α) := ⟨fun _ _ _ h => (nomatch h), fun _ _ _ _ => rfl⟩

theorem cur? : Loc (P.cur? : P κ (Option Token)) := by
  constructor
  · rintro ⟨ts, tl, cx⟩ v s' h
    cases ts <;> cases tl <;> cases h <;> exact List.suffix_refl _
  · rintro ⟨ts, tl, cx⟩ e tl' rfl
    cases ts with
    | cons t ts => exact ⟨rfl, rfl⟩
    | nil =>
      intro v s' h
      change P.cur? ⟨e, tl', cx⟩ = _ at h
      cases e <;> cases tl' <;> cases h <;> exact List.suffix_refl _

theorem cur : Loc (P.cur : P κ Token) := by
  constructor
  · rintro ⟨ts, tl, cx⟩ v s' h
    cases ts <;> cases tl <;> cases h <;> exact List.suffix_refl _
  · rintro ⟨ts, tl, cx⟩ e tl' rfl
    cases ts with
    | cons t ts => exact ⟨rfl, rfl⟩
    | nil =>
      intro v s' h
      change P.cur ⟨e, tl', cx⟩ = _ at h
      cases e <;> cases tl' <;> cases h <;> exact List.suffix_refl _

theorem next_adv : Eats (P.next : P κ Unit) := by
  rintro ⟨ts, tl, cx⟩ v s' h
  match ts, tl, h with
  | _ :: t :: ts, _, h => cases h; exact List.suffix_refl _
  | [_], .eof _ _, h => cases h; exact List.suffix_refl _
  | [_], .nil, h => cases h; exact List.suffix_refl _
  | [], .eof _ _, h => cases h; exact List.suffix_refl _
  | [], .nil, h => cases h; exact List.suffix_refl _

theorem next : Loc (P.next : P κ Unit) := by
  refine ⟨fun s v s' h => List.IsSuffix.trans (next_adv s v s' h) (List.tail_suffix _), ?_⟩
  rintro ⟨ts, tl, cx⟩ e tl' rfl
  match ts with
  | _ :: t :: ts => exact ⟨rfl, rfl⟩
  | [t] => exact fun v s' h => next_adv _ v s' h
  | [] => exact fun v s' h => List.IsSuffix.trans (next_adv _ v s' h) (List.tail_suffix _)

theorem is (pred : Pred) : Loc (P.is pred : P κ Bool) := by
  unfold P.is
  exact cur.bind fun t => pure _

theorem ite {c : Prop} [Decidable c] {p q : P κ α} (h : Loc p) (h' : Loc q) : Loc (if c then p else q) := by
  by_cases hc : c
  · rw [if_pos hc]; exact h
  · rw [if_neg hc]; exact h'

theorem current (pred : Pred) : Loc (P.current pred : P κ Token) := by
  unfold P.current
  refine cur?.bind fun t => ?_
  cases t
  · exact fail
  · exact ite (pure _) fail

theorem nextIs (pred : Pred) : Loc (P.nextIs pred : P κ Token) := next.bind fun _ => current pred

theorem traced {p : P κ α} (h : Loc p) : Loc (TP.traced p) := by
  unfold TP.traced
  exact cur.bind fun _ => h.bind fun _ => cur.bind fun _ => pure _

theorem currentP (pred : Pred) : Loc (TP.currentP pred : P κ Token) := by
  unfold TP.currentP
  exact cur.bind fun t => ite (pure _) fail

/-- a step that only sees the context -/
theorem step {p : P κ α} (f : κ → R κ α) (h : ∀ s, p s = match f s.cx with
    | .ok v k => .ok v { s with cx := k }
    | .err => .err
    | .panic => .panic
    | .wait => .wait) : Loc p := by
  constructor
  · intro s v s' e
    rw [h] at e
    cases hf : f s.cx <;> rw [hf] at e <;> cases e
    exact List.suffix_refl _
  · intro s e tl hs
    rw [h, h]
    change OnCut e tl _ (match f s.cx with
      | .ok v k => .ok v { s.ext e tl with cx := k }
      | .err => .err
      | .panic => .panic
      | .wait => .wait)
    cases hf : f s.cx with
    | ok v k => exact ⟨hs, rfl⟩
    | err => rfl
    | panic => rfl
    | wait => exact fun _ _ h => nomatch h

/-- around a run the context is changed -/
theorem around {p q : P κ α} (h : Loc p) (f : κ → κ) (g : κ → κ → κ) (hq : ∀ s, q s = match p { s with cx := f s.cx } with
    | .ok v s' => .ok v { s' with cx := g s.cx s'.cx }
    | .err => .err
    | .panic => .panic
    | .wait => .wait) : Loc q := by
  constructor
  · intro s v s' e
    rw [hq] at e
    cases hp : p { s with cx := f s.cx } <;> rw [hp] at e <;> simp only [R.ok.injEq, reduceCtorEq] at e
    rename_i s1
    obtain ⟨_, rfl⟩ := e
    have := h.shr _ _ _ hp
    exact this
  · intro s e tl hs
    have := h.ends { s with cx := f s.cx } e tl hs
    rw [hq, hq]
    change OnCut e tl _ (match p (PS.ext { s with cx := f s.cx } e tl) with
      | .ok v s' => .ok v { s' with cx := g s.cx s'.cx }
      | .err => .err
      | .panic => .panic
      | .wait => .wait)
    cases hp : p { s with cx := f s.cx } with
    | ok v s' => rw [hp] at this; rw [this.2]; exact ⟨this.1, rfl⟩
    | err => rw [hp] at this; change p (PS.ext _ e tl) = _ at this; rw [this]; rfl
    | panic => rw [hp] at this; change p (PS.ext _ e tl) = _ at this; rw [this]; rfl
    | wait =>
      rw [hp] at this
      intro v s' e1
      cases h1 : p (PS.ext { s with cx := f s.cx } e tl) <;> rw [h1] at e1 <;> simp only [R.ok.injEq, reduceCtorEq] at e1
      rename_i s1
      obtain ⟨_, rfl⟩ := e1
      have := this _ _ h1
      exact this

/-- an attempt: the parser looks at the next token and goes back unless `pred` holds for it.  What comes after going back has to
pass that token's predecessor. -/
theorem peek {E : Env κ δ} {pred : Pred} {p q : P κ α} (hp : Loc p) (hq : Loc q) (ha : Eats q) :
    Loc (do
      let s0 ← rollbackPoint
      P.next
      if ← P.is pred then p else do
        rollbackTo E s0
        q) := by
  have shr : ∀ s v s', (do
      let s0 ← rollbackPoint
      P.next
      if ← P.is pred then p else do
        rollbackTo E s0
        q : P κ α) s = .ok v s' → s'.ts <:+ s.ts.tail := by
    intro s v s' h
    change P.bind rollbackPoint (fun s0 => P.bind P.next fun _ => P.bind (P.is pred) fun b => if b = true then p else P.bind (rollbackTo E s0) fun _ => q) s = _ at h
    have h0 : rollbackPoint s = .ok s s := by
      unfold P.bind at h
      unfold rollbackPoint at h ⊢
      cases hc : P.cur s <;> rw [hc] at h <;> first | rfl | cases h
    have h : P.bind P.next (fun _ => P.bind (P.is pred) fun b => if b = true then p else P.bind (rollbackTo E s) fun _ => q) s = .ok v s' := by
      rw [← h]
      symm
      change P.bind rollbackPoint _ s = _
      conv => lhs; unfold P.bind
      rw [h0]
      rfl
    unfold P.bind at h
    cases h1 : P.next s <;> rw [h1] at h <;> try (cases h; done)
    rename_i s1
    have g1 := next_adv _ _ _ h1
    cases h2 : P.is pred s1 <;> simp only [h2] at h <;> try (cases h; done)
    rename_i b s2
    have g2 := (is pred).shr _ _ _ h2
    cases b
    · exact ha { s with cx := E.rollback s.cx } _ _ h
    · exact List.IsSuffix.trans (hp.shr _ _ _ h) (List.IsSuffix.trans g2 g1)
  refine ⟨fun s v s' h => List.IsSuffix.trans (shr s v s' h) (List.tail_suffix _), ?_⟩
  rintro ⟨ts, tl, cx⟩ e tl' rfl
  match ts with
  | [] => exact fun v s' h => List.IsSuffix.trans (shr _ v s' h) (List.tail_suffix _)
  | [t] => exact fun v s' h => shr _ v s' h
  | t :: t2 :: ts =>
    change OnCut e tl' ((if pred t2 = true then p else P.bind (rollbackTo E _) fun _ => q) _) ((if pred t2 = true then p else P.bind (rollbackTo E _) fun _ => q) _)
    by_cases hc : pred t2 = true
    · rw [if_pos hc, if_pos hc]
      exact hp.ends ⟨t2 :: ts, .hang, cx⟩ e tl' rfl
    · rw [if_neg hc, if_neg hc]
      exact hq.ends ⟨t :: t2 :: ts, .hang, E.rollback cx⟩ e tl' rfl

/-- what `Current` and `CurrentToken` do -/
structure Look (look : P κ Token) (pr : Token → Bool) : Prop where
  loc : Loc look
  at' : ∀ t ts tl cx, look ⟨t :: ts, tl, cx⟩ = if pr t = true then .ok t ⟨t :: ts, tl, cx⟩ else .err

theorem look_cur : Look (P.cur : P κ Token) fun _ => true := ⟨cur, fun _ _ _ _ => rfl⟩
theorem look_current (pred : Pred) : Look (P.current pred : P κ Token) pred := by
  refine ⟨current pred, fun t ts tl cx => ?_⟩
  change (if pred t = true then Pure.pure t else P.fail : P κ Token) _ = _
  by_cases h : pred t = true
  · rw [if_pos h, if_pos h]; rfl
  · rw [if_neg h, if_neg h]; rfl

/-- `peek`, where the token is read in the attempt and what comes after going back is outside of it -/
theorem attempt {E : Env κ δ} {pred : Pred} {look : P κ Token} {pr : Token → Bool} (hl : Look look pr) {A : Token → P κ (Option β)}
    (hA : ∀ t, Loc (A t)) {k : Option β → P κ α} (hk : ∀ o, Loc (k o))
    (ha : ∀ t ts tl cx v s', pr t = true → k none ⟨t :: ts, tl, cx⟩ = .ok v s' → s'.ts <:+ ts) :
    Loc ((do
      let s0 ← rollbackPoint
      let t ← look
      P.next
      if ← P.is pred then A t else do
        rollbackTo E s0
        Pure.pure none) >>= k) ∧
    Eats ((do
      let s0 ← rollbackPoint
      let t ← look
      P.next
      if ← P.is pred then A t else do
        rollbackTo E s0
        Pure.pure none) >>= k) := by
  have shr : Eats ((do
      let s0 ← rollbackPoint
      let t ← look
      P.next
      if ← P.is pred then A t else do
        rollbackTo E s0
        Pure.pure none) >>= k) := by
    intro s v s' h
    obtain ⟨x, s1, h0, h⟩ : ∃ x s1, P.bind rollbackPoint (fun s0 => P.bind look fun t => P.bind P.next fun _ => P.bind (P.is pred) fun b =>
        if b = true then A t else P.bind (rollbackTo E s0) fun _ => Pure.pure none) s = .ok x s1 ∧ k x s1 = .ok v s' := by
      change P.bind (P.bind rollbackPoint _) k s = _ at h
      conv at h => lhs; unfold P.bind
      split at h <;> try (cases h; done)
      exact ⟨_, _, ‹_›, h⟩
    have hr : rollbackPoint s = .ok s s := by
      unfold P.bind at h0
      unfold rollbackPoint at h0 ⊢
      cases hc : P.cur s <;> rw [hc] at h0 <;> first | rfl | cases h0
    have h0 : P.bind look (fun t => P.bind P.next fun _ => P.bind (P.is pred) fun b =>
        if b = true then A t else P.bind (rollbackTo E s) fun _ => Pure.pure none) s = .ok x s1 := by
      rw [← h0]
      symm
      conv => lhs; unfold P.bind
      rw [hr]
      rfl
    unfold P.bind at h0
    cases h1 : look s <;> rw [h1] at h0 <;> try (cases h0; done)
    rename_i t sa
    have g1 := hl.loc.shr _ _ _ h1
    dsimp only at h0
    cases h2 : P.next sa <;> rw [h2] at h0 <;> try (cases h0; done)
    rename_i sb
    have g2 := next_adv _ _ _ h2
    dsimp only at h0
    cases h3 : P.is pred sb <;> rw [h3] at h0 <;> try (cases h0; done)
    rename_i b sc
    have g3 := (is pred).shr _ _ _ h3
    dsimp only at h0
    cases b
    · have : x = none ∧ s1 = { s with cx := E.rollback s.cx } := by
        rw [if_neg (by decide)] at h0
        cases h0
        exact ⟨rfl, rfl⟩
      obtain ⟨rfl, rfl⟩ := this
      obtain ⟨ts, tl, cx⟩ := s
      cases ts with
      | nil => exact (hk none).shr _ _ _ h
      | cons t' ts =>
        rw [hl.at'] at h1
        by_cases hp : pr t' = true
        · exact ha t' ts tl _ v s' hp h
        · rw [if_neg hp] at h1; cases h1
    · rw [if_pos rfl] at h0
      have g4 := (hA t).shr _ _ _ h0
      exact ((hk x).shr _ _ _ h).trans (g4.trans (g3.trans (g2.trans (suffix_tail g1))))
  refine ⟨⟨fun s v s' h => List.IsSuffix.trans (shr s v s' h) (List.tail_suffix _), ?_⟩, shr⟩
  rintro ⟨ts, tl, cx⟩ e tl' rfl
  match ts with
  | [] => exact fun v s' h => List.IsSuffix.trans (shr _ v s' h) (List.tail_suffix _)
  | [t] =>
    by_cases hp : pr t = true
    · have : (do
          let s0 ← rollbackPoint
          let t ← look
          P.next
          if ← P.is pred then A t else do
            rollbackTo E s0
            Pure.pure none) ⟨[t], .hang, cx⟩ = .wait := by
        change P.bind look _ ⟨[t], .hang, cx⟩ = _
        unfold P.bind
        rw [hl.at', if_pos hp]
        rfl
      change OnCut e tl' (P.bind _ k _) _
      conv => arg 3; unfold P.bind
      rw [this]
      exact fun v s' h => shr _ v s' h
    · have h0 : ∀ ts tl, ((do
          let s0 ← rollbackPoint
          let t ← look
          P.next
          if ← P.is pred then A t else do
            rollbackTo E s0
            Pure.pure none) >>= k) ⟨t :: ts, tl, cx⟩ = .err := by
        intro ts tl
        change P.bind (P.bind look _) k ⟨t :: ts, tl, cx⟩ = _
        unfold P.bind
        rw [hl.at', if_neg hp]
      rw [h0]
      exact h0 _ _
  | t :: t2 :: ts =>
    by_cases hp : pr t = true
    · have h0 : ∀ ts tl, ((do
          let s0 ← rollbackPoint
          let t ← look
          P.next
          if ← P.is pred then A t else do
            rollbackTo E s0
            Pure.pure none) >>= k) ⟨t :: t2 :: ts, tl, cx⟩ =
          if pred t2 = true then (A t >>= k) ⟨t2 :: ts, tl, cx⟩ else k none ⟨t :: t2 :: ts, tl, E.rollback cx⟩ := by
        intro ts tl
        change P.bind (P.bind look _) k ⟨t :: t2 :: ts, tl, cx⟩ = _
        unfold P.bind
        rw [hl.at', if_pos hp]
        change P.bind (if pred t2 = true then A t else P.bind (rollbackTo E ⟨t :: t2 :: ts, tl, cx⟩) fun _ => Pure.pure none) k ⟨t2 :: ts, tl, cx⟩ = _
        by_cases hc : pred t2 = true
        · rw [if_pos hc, if_pos hc]; rfl
        · rw [if_neg hc, if_neg hc]; rfl
      rw [show PS.ext ⟨t :: t2 :: ts, .hang, cx⟩ e tl' = ⟨t :: t2 :: (ts ++ e), tl', cx⟩ from rfl, h0, h0]
      by_cases hc : pred t2 = true
      · rw [if_pos hc, if_pos hc]
        exact ((hA t).bind hk).ends ⟨t2 :: ts, .hang, cx⟩ e tl' rfl
      · rw [if_neg hc, if_neg hc]
        exact (hk none).ends ⟨t :: t2 :: ts, .hang, E.rollback cx⟩ e tl' rfl
    · have h0 : ∀ ts tl, ((do
          let s0 ← rollbackPoint
          let t ← look
          P.next
          if ← P.is pred then A t else do
            rollbackTo E s0
            Pure.pure none) >>= k) ⟨t :: ts, tl, cx⟩ = .err := by
        intro ts tl
        change P.bind (P.bind look _) k ⟨t :: ts, tl, cx⟩ = _
        unfold P.bind
        rw [hl.at', if_neg hp]
      rw [h0]
      exact h0 _ _

end Loc

namespace Eats

theorem bind {p : P κ α} {f : α → P κ β} (h : Eats p) (h' : ∀ a, Shr (f a)) : Eats (p >>= f) := by
  intro s v s' hp
  change P.bind p f s = _ at hp
  unfold P.bind at hp
  cases e : p s <;> rw [e] at hp <;> try (cases hp; done)
  exact List.IsSuffix.trans (h' _ _ _ _ hp) (h _ _ _ e)

theorem after {p : P κ α} {f : α → P κ β} (h : Shr p) (h' : ∀ a, Eats (f a)) : Eats (p >>= f) := by
  intro s v s' hp
  change P.bind p f s = _ at hp
  unfold P.bind at hp
  cases e : p s <;> rw [e] at hp <;> try (cases hp; done)
  exact List.IsSuffix.trans (h' _ _ _ _ hp) (suffix_tail (h _ _ _ e))

theorem ite {c : Prop} [Decidable c] {p q : P κ α} (h : Eats p) (h' : Eats q) : Eats (if c then p else q) := by
  by_cases hc : c
  · rw [if_pos hc]; exact h
  · rw [if_neg hc]; exact h'

theorem fail : Eats (P.fail : P κ α) := fun _ _ _ h => nomatch h
theorem wait : Eats (P.wait : P κ α) := fun _ _ _ h => nomatch h
theorem panic : Eats (P.panic : P κ α) := fun _ _ _ h => nomatch h
theorem next : Eats (P.next : P κ Unit) := Loc.next_adv
theorem nextIs (pred : Pred) : Eats (P.nextIs pred : P κ Token) := next.bind fun _ => (Loc.current pred).shr

end Eats

syntax "loc_leaf" : tactic
macro_rules | `(tactic| loc_leaf) => `(tactic| assumption)
macro_rules | `(tactic| loc_leaf) => `(tactic| with_reducible first
  | exact Loc.cur | exact Loc.cur? | exact Loc.next | exact Loc.is _ | exact Loc.current _ | exact Loc.nextIs _ | exact Loc.currentP _ | fail)

syntax "loc_step" : tactic
macro_rules | `(tactic| loc_step) => `(tactic| first
  | (with_reducible first | exact Loc.wait | exact Loc.fail | exact Loc.panic | exact Loc.pure _)
  | (loc_leaf; done)
  | (with_reducible refine Loc.bind ?_ (fun _ => ?_))
  | (with_reducible refine Loc.ite ?_ ?_)
  | (with_reducible refine Loc.traced ?_)
  | split)

/-- goes through a parser step by step -/
macro "loc" : tactic => `(tactic| repeat' loc_step)

/-! ## Expressions -/

section
variable {u : Uni} {E : Env κ δ}

theorem Loc.getDecl (name : Str) : Loc (TP.getDecl E name) := Loc.step (fun k => .ok (E.get k name) k) fun _ => rfl

macro_rules | `(tactic| loc_leaf) => `(tactic| with_reducible exact Loc.getDecl _)

theorem Loc.member {d : δ} {nm : Str} {p : δ → P κ α} (h : ∀ m, Loc (p m)) : Loc (fun s =>
    match E.member s.cx d nm with
    | .error => .err
    | .panic => .panic
    | .found m => p m s) := by
  constructor
  · intro s v s' e
    dsimp only at e
    cases hm : E.member s.cx d nm <;> rw [hm] at e <;> simp only [reduceCtorEq] at e
    exact (h _).shr _ _ _ e
  · intro s e tl hs
    change OnCut e tl _ (match E.member s.cx d nm with
    | .error => .err
    | .panic => .panic
    | .found m => p m (s.ext e tl))
    cases hm : E.member s.cx d nm
    · exact (h _).ends s e tl hs
    · rfl
    · rfl

theorem Loc.parseQualId : Loc (TP.parseQualId u E) := by
  unfold TP.parseQualId
  loc
  refine Loc.member fun m => ?_
  loc

theorem Eats.parseQualId : Eats (TP.parseQualId u E) := by
  unfold TP.parseQualId
  refine Eats.after (Loc.current _).shr fun t => Eats.after (Loc.getDecl _).shr fun d? => ?_
  have h0 : Eats (do
    P.next
    let r ← TP.getDecl E t.raw
    Pure.pure ⟨none, ⟨Ident.ofTok t, r⟩⟩ : P κ (QualId δ)) := Eats.next.bind fun _ => Loc.shr (by loc)
  split
  · refine Eats.ite ?_ h0
    refine (Eats.nextIs _).bind fun _ => Loc.shr ?_
    loc
    refine Loc.member fun m => ?_
    loc
  · exact h0

macro_rules | `(tactic| loc_leaf) => `(tactic| with_reducible exact Loc.parseQualId)

variable (u E) in
/-- the parsers of expressions -/
structure ExprL (n : Nat) : Prop where
  expr : Loc (parseExpr u E n)
  relTail : Loc (parseRelTail u E n)
  sexpr : Loc (parseSExpr u E n)
  addTail : Loc (parseAddTail u E n)
  term : Loc (parseTerm u E n)
  mulTail : Loc (parseMulTail u E n)
  factor : Loc (parseFactor u E n)
  desigFactor : Loc (parseDesigFactor u E n)
  desigAdv : Eats (parseDesig u E n)
  desigFactorAdv : Eats (parseDesigFactor u E n)
  desig : Loc (parseDesig u E n)
  items : Loc (parseItems u E n)
  exprs : ∀ p, Loc (parseExprs u E p n)
  setCons : Loc (parseSetCons u E n)
  setElems : Loc (parseSetElems u E n)
  setElem : Loc (parseSetElem u E n)

set_option hygiene false in
macro_rules | `(tactic| loc_leaf) => `(tactic| with_reducible first
  | exact ih.expr | exact ih.relTail | exact ih.sexpr | exact ih.addTail | exact ih.term | exact ih.mulTail | exact ih.factor | exact ih.desigFactor
  | exact ih.desig | exact ih.items | exact ih.exprs _ | exact ih.setCons | exact ih.setElems | exact ih.setElem | fail)

theorem exprL : ∀ n, ExprL u E n
  | 0 => by constructor <;> intros <;> first | exact Eats.wait | exact Loc.wait
  | n + 1 => by
    have ih := exprL n
    exact {
      expr := by unfold parseExpr; loc
      relTail := by unfold parseRelTail; loc
      sexpr := by unfold parseSExpr; loc
      addTail := by unfold parseAddTail; loc
      term := by unfold parseTerm; loc
      mulTail := by unfold parseMulTail; loc
      factor := by
        unfold parseFactor
        refine Loc.cur.bind fun t => ?_
        dsimp only
        repeat' (first
          | (with_reducible refine Loc.peek (E := E) ?_ ih.desigFactor ih.desigFactorAdv)
          | loc_step)
      desigFactor := by unfold parseDesigFactor; loc
      desigFactorAdv := by
        unfold parseDesigFactor
        refine ih.desigAdv.bind fun _ => Loc.shr ?_
        loc
      desig := by unfold parseDesig; loc
      desigAdv := by
        unfold parseDesig
        refine Eats.after (Loc.current _).shr fun _ => Eats.parseQualId.bind fun _ => Loc.shr ?_
        loc
      items := by unfold parseItems; loc
      exprs := by intro p; unfold parseExprs; loc
      setCons := by unfold parseSetCons; loc
      setElems := by unfold parseSetElems; loc
      setElem := by unfold parseSetElem; loc }

set_option hygiene false in
macro_rules | `(tactic| loc_leaf) => `(tactic| with_reducible first
  | exact (exprL _).expr | exact (exprL _).exprs _ | exact (exprL _).desig | exact (exprL _).setCons | fail)

end

end TP
