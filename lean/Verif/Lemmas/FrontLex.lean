import Verif.Lemmas.CaseLex

/-!
# Texts with the same beginning have the same tokens in it
-/

namespace TP
open Cursor Spec Props

theorem takeWhile_front {p : Char → Bool} {b : Str} (x y : Str) (h : ((b ++ x).takeWhile p).length < b.length) :
    (b ++ y).takeWhile p = (b ++ x).takeWhile p := by
  induction b with
  | nil => cases h
  | cons c b ih =>
    simp only [List.cons_append, List.takeWhile_cons] at h ⊢
    split
    · rename_i hc
      rw [hc] at h
      simp only [if_true, List.length_cons] at h
      rw [ih (by omega)]
    · rfl

theorem dropWhile_front {p : Char → Bool} {b : Str} (x y : Str) (h : ((b ++ x).takeWhile p).length < b.length) :
    ∃ c e, p c = false ∧ b = (b ++ x).takeWhile p ++ c :: e ∧ (b ++ x).dropWhile p = c :: (e ++ x) ∧ (b ++ y).dropWhile p = c :: (e ++ y) := by
  induction b with
  | nil => cases h
  | cons c b ih =>
    simp only [List.cons_append, List.takeWhile_cons, List.dropWhile_cons] at h ⊢
    cases hc : p c with
    | false => exact ⟨c, b, hc, by simp, by simp, by simp⟩
    | true =>
      rw [hc] at h
      simp only [if_true, List.length_cons] at h
      obtain ⟨d, e, h1, h2, h3, h4⟩ := ih (by omega)
      refine ⟨d, e, h1, ?_, h3, h4⟩
      simp only [if_true, List.cons_append]
      rw [← h2]

theorem head_is {a d : Char} {t : Str} : (d :: t).head? = some a ↔ d = a := by simp

theorem starLen_cons2 (c d : Char) (t : Str) : starLen (c :: d :: t) =
    if c = '*' ∧ d = ')' then 2 else if c = NUL then 1 else 1 + starLen (d :: t) := by
  conv_lhs => unfold starLen
  exact if_congr (and_congr_right fun _ => head_is) rfl rfl

theorem starLen_front {b : Str} (x y : Str) (h : starLen (b ++ x) < b.length) : starLen (b ++ y) = starLen (b ++ x) := by
  induction b with
  | nil => cases h
  | cons c b ih =>
    cases b with
    | nil =>
      simp only [List.cons_append, List.nil_append, starLen, List.length_cons, List.length_nil] at h
      repeat' split at h
      all_goals omega
    | cons d b =>
      simp only [List.cons_append, starLen_cons2, List.length_cons] at h ih ⊢
      by_cases h1 : c = '*' ∧ d = ')'
      · rw [if_pos h1, if_pos h1]
      · rw [if_neg h1] at h ⊢
        rw [if_neg h1]
        by_cases h2 : c = NUL
        · rw [if_pos h2, if_pos h2]
        · rw [if_neg h2] at h ⊢
          rw [if_neg h2, ih (by omega)]

theorem quoteLen_front {b : Str} (x y : Str) : ∀ {l : Char} {n : Nat}, quoteLen l (b ++ x) = some n → n ≤ b.length →
    quoteLen l (b ++ y) = some n := by
  induction b with
  | nil =>
    intro l n h hn
    have : n = 0 := Nat.le_zero.1 hn
    subst this
    exfalso
    cases x with
    | nil => cases h
    | cons c x =>
      simp only [List.nil_append, quoteLen] at h
      split at h
      · cases h
      · cases e : quoteLen c x <;> rw [e] at h <;> simp at h
  | cons c b ih =>
    intro l n h hn
    simp only [List.cons_append, quoteLen] at h ⊢
    split
    · rename_i hc
      rwa [if_pos hc] at h
    · rename_i hc
      rw [if_neg hc] at h
      cases e : quoteLen c (b ++ x) with
      | none => rw [e] at h; cases h
      | some m =>
        rw [e] at h
        simp only [Option.map_some, Option.some.injEq] at h
        rw [ih e (by simp at hn; omega)]
        simp [h]

theorem numTail_cons {s t : Str} {c : Char} (h : afterDigits s = c :: t) :
    numTail s = if c = '.' then
      if t.head? = some '.' then (.numInt, (digits s).length) else (.numReal, (digits s).length + 1 + (digits t).length)
      else (.numInt, (digits s).length) := by
  rw [numTail_of h]
  exact if_congr head_is rfl rfl

theorem numTail_front {b : Str} {x y : Str} (hx : x.head? ≠ some '.') (h : (numTail (b ++ x)).2 < b.length) :
    numTail (b ++ y) = numTail (b ++ x) := by
  have hd : (digits (b ++ x)).length ≤ (numTail (b ++ x)).2 := by
    rw [numTail_of rfl]; repeat' split
    all_goals simp only; omega
  obtain ⟨c, e, h1, h2, h3, h4⟩ := dropWhile_front (p := digit) x y (b := b) (by change (digits _).length < _; omega)
  have h5 : digits (b ++ y) = digits (b ++ x) := takeWhile_front x y (by change (digits _).length < _; omega)
  rw [numTail_cons (s := b ++ y) h4, numTail_cons (s := b ++ x) h3, h5]
  rw [numTail_cons (s := b ++ x) h3] at h
  by_cases hc : c = '.'
  · rw [if_pos hc] at h ⊢
    rw [if_pos hc]
    have hl := congrArg List.length h2
    simp only [List.length_append, List.length_cons] at hl
    change b.length = (digits (b ++ x)).length + _ at hl
    cases e with
    | nil =>
      have hx' : ¬ (([] : Str) ++ x).head? = some '.' := hx
      rw [if_neg hx'] at h
      simp only [List.length_nil] at h hl
      omega
    | cons d e =>
      by_cases hd : d = '.'
      · rw [if_pos (by rw [List.cons_append, head_is]; exact hd), if_pos (by rw [List.cons_append, head_is]; exact hd)]
      · rw [if_neg (by rw [List.cons_append, head_is]; exact hd)] at h ⊢
        rw [if_neg (by rw [List.cons_append, head_is]; exact hd)]
        simp only [List.length_cons] at h hl
        have : digits (d :: e ++ y) = digits (d :: e ++ x) := takeWhile_front (b := d :: e) x y (by
          change (digits (d :: e ++ x)).length < _
          simp only [List.length_cons]
          omega)
        rw [this]
  · rw [if_neg hc, if_neg hc]

theorem lexOne_cons2 (u : Uni) (c d : Char) (t : Str) : lexOne u (c :: d :: t) =
    if c = NUL then .eof
    else if c = '{' then .tok .comment (min (lenUntil (fun c => c == '}' || c == NUL) (d :: t) + 2) (c :: d :: t).length)
    else if c = '/' ∧ d = '/' then .tok .comment (1 + lenUntil (fun c => c == '\n' || c == NUL) (d :: t))
    else if c = '(' ∧ d = '*' then .tok .comment (1 + starLen (d :: t))
    else if c = '\'' then
      match quoteLen NUL (d :: t) with
      | none => .unterminated
      | some n => .tok .charString (1 + n)
    else if (digit c || (c == '-' && digit d)) then .tok (numTail (d :: t)).1 (1 + (numTail (d :: t)).2)
    else if symbolPairs.contains (c, d) then .tok .symbol 2
    else if symbolRunes.contains c then .tok .symbol 1
    else if wordHead u c then
      .tok (if keywords.contains (u.toUpper (c :: (d :: t).takeWhile (wordRune u))) then .reserved else .ident) (((d :: t).takeWhile (wordRune u)).length + 1)
    else if u.isSpace c then .tok .space (1 + ((d :: t).takeWhile u.isSpace).length)
    else .stuck := by
  unfold lexOne
  exact if_congr Iff.rfl rfl (if_congr Iff.rfl rfl (if_congr (and_congr_right fun _ => head_is) rfl
    (if_congr (and_congr_right fun _ => head_is) rfl rfl)))

/-- A lexeme that ends before the end of the beginning. -/
theorem lexOne_front {u : Uni} {a x y : Str} {ty : TType} {k : Nat} (hx : x.head? ≠ some '.')
    (h : lexOne u (a ++ x) = .tok ty k) (hk : k < a.length) : lexOne u (a ++ y) = .tok ty k := by
  have hpos := (lexOne_bounds h).1
  obtain _ | ⟨c, _ | ⟨d, e⟩⟩ := a
  · cases hk
  · simp at hk; omega
  rw [List.cons_append, List.cons_append, lexOne_cons2] at h ⊢
  by_cases h1 : c = NUL
  · rw [if_pos h1] at h; cases h
  rw [if_neg h1] at h ⊢
  by_cases h2 : c = '{'
  · rw [if_pos h2] at h ⊢
    rw [← h]
    cases h
    simp only [List.length_cons, List.length_append, lenUntil] at hk ⊢
    have := takeWhile_front (p := fun c => !(c == '}' || c == NUL)) (b := d :: e) x y
    simp only [List.cons_append, List.length_cons] at this
    rw [this (by omega)]
    congr 1
    omega
  rw [if_neg h2] at h ⊢
  by_cases h3 : c = '/' ∧ d = '/'
  · rw [if_pos h3] at h ⊢
    rw [← h]
    cases h
    simp only [List.length_cons, lenUntil] at hk ⊢
    have := takeWhile_front (p := fun c => !(c == '\n' || c == NUL)) (b := d :: e) x y
    simp only [List.cons_append, List.length_cons] at this
    rw [this (by omega)]
  rw [if_neg h3] at h ⊢
  by_cases h4 : c = '(' ∧ d = '*'
  · rw [if_pos h4] at h ⊢
    rw [← h]
    cases h
    simp only [List.length_cons] at hk ⊢
    have := starLen_front (b := d :: e) x y
    simp only [List.cons_append, List.length_cons] at this
    rw [this (by omega)]
  rw [if_neg h4] at h ⊢
  by_cases h5 : c = '\''
  · rw [if_pos h5] at h ⊢
    cases hq : quoteLen NUL (d :: (e ++ x)) with
    | none => rw [hq] at h; cases h
    | some n =>
      rw [hq] at h
      cases h
      have := quoteLen_front (b := d :: e) x y hq (by simp only [List.length_cons] at hk ⊢; omega)
      simp only [List.cons_append] at this
      rw [this]
  rw [if_neg h5] at h ⊢
  by_cases h6 : (digit c || (c == '-' && digit d)) = true
  · rw [if_pos h6] at h ⊢
    rw [← h]
    cases h
    have := numTail_front (b := d :: e) (y := y) hx
    simp only [List.cons_append, List.length_cons] at this hk
    rw [this (by omega)]
  rw [if_neg h6] at h ⊢
  by_cases h7 : symbolPairs.contains (c, d) = true
  · rwa [if_pos h7] at h ⊢
  rw [if_neg h7] at h ⊢
  by_cases h8 : symbolRunes.contains c = true
  · rwa [if_pos h8] at h ⊢
  rw [if_neg h8] at h ⊢
  by_cases h9 : wordHead u c = true
  · rw [if_pos h9] at h ⊢
    have := takeWhile_front (p := wordRune u) (b := d :: e) x y
    simp only [List.cons_append, List.length_cons] at this
    have h' := h
    simp only [Lexeme.tok.injEq] at h'
    simp only [List.length_cons] at hk
    rwa [this (by omega)]
  rw [if_neg h9] at h ⊢
  by_cases h10 : u.isSpace c = true
  · rw [if_pos h10] at h ⊢
    have := takeWhile_front (p := u.isSpace) (b := d :: e) x y
    simp only [List.cons_append, List.length_cons] at this
    have h' := h
    simp only [Lexeme.tok.injEq] at h'
    simp only [List.length_cons] at hk
    rwa [this (by omega)]
  rw [if_neg h10] at h
  cases h

/-- A period. -/
theorem lexOne_period {u : Uni} {y : Str} (h : y.head? ≠ some '.') (h' : y.head? ≠ some ')') : lexOne u ('.' :: y) = .tok .symbol 1 := by
  refine lexOne_single u (by decide) (by decide) (by simp) (by simp) (by decide) rfl ?_
  cases y with
  | nil => rfl
  | cons b y =>
    simp only [List.head?_cons, ne_eq, Option.some.injEq] at h h'
    simp only [startsPair, startsWithPair, symbolPairs, Bool.eq_false_iff, ne_eq, List.contains_iff_mem, List.mem_cons, Prod.mk.injEq, List.not_mem_nil]
    simp [h, h']

/-! ## Cursors and streams -/

/-- the cursors are at the same place of texts that begin with `a` -/
structure FrontC (a x y : Str) (c d : Cursor) : Prop where
  left : c.text = a ++ x
  right : d.text = a ++ y
  pos : c.pos = d.pos
  lf : c.wasLF = d.wasLF

section
variable {a x y : Str}

theorem FrontC.rest {c d : Cursor} (h : FrontC a x y c d) (hi : c.pos.index ≤ a.length) :
    c.rest = a.drop c.pos.index ++ x ∧ d.rest = a.drop c.pos.index ++ y := by
  unfold Cursor.rest
  rw [← h.pos, h.left, h.right, List.drop_append_of_le_length hi, List.drop_append_of_le_length hi]
  exact ⟨rfl, rfl⟩

theorem FrontC.next_pos {c d : Cursor} (h : FrontC a x y c d) (hi : c.pos.index < a.length) : c.next.1.pos = d.next.1.pos := by
  have h1 : c.pos.index < c.text.length := by rw [h.left]; simp; omega
  have h2 : c.pos.index < d.text.length := by rw [h.right]; simp; omega
  rw [next_eq, next_eq, ← h.pos, if_pos h1, if_pos h2, h.lf]

theorem FrontC.next {c d : Cursor} (h : FrontC a x y c d) (hi : c.pos.index + 1 < a.length) : FrontC a x y c.next.1 d.next.1 := by
  refine ⟨by rw [next_text, h.left], by rw [next_text, h.right], h.next_pos (by omega), ?_⟩
  have h1 : c.pos.index < c.text.length := by rw [h.left]; simp; omega
  have h2 : c.pos.index < d.text.length := by rw [h.right]; simp; omega
  have h3 : c.seek 1 = d.seek 1 := by
    obtain ⟨e1, e2⟩ := h.rest (by omega)
    rw [seek_eq, seek_eq, e1, e2, List.getElem?_append_left (by simp; omega), List.getElem?_append_left (by simp; omega)]
  rw [next_eq, next_eq, ← h.pos, if_pos h1, if_pos h2, h3]

theorem FrontC.next_index {c d : Cursor} (h : FrontC a x y c d) (hi : c.pos.index < a.length) : c.next.1.pos.index = c.pos.index + 1 := by
  refine Cursor.next_index fun e => ?_
  obtain ⟨e1, _⟩ := h.rest (by omega)
  rw [e1] at e
  have := congrArg List.length e
  simp at this
  omega

theorem FrontC.adv {n : Nat} : ∀ {c d : Cursor}, FrontC a x y c d → c.pos.index + n < a.length → FrontC a x y (adv n c) (adv n d) := by
  induction n with
  | zero => exact fun h _ => h
  | succ n ih =>
    intro c d h hi
    exact ih (h.next (by omega)) (by rw [h.next_index (by omega)]; omega)

/-- the same kind, the same runes, the same place -/
def TokenEq (t t' : Token) : Prop := t.typ = t'.typ ∧ t.raw = t'.raw ∧ t.start = t'.start ∧ t.stop = t'.stop

theorem raw_front {t t' : Token} {a x y : Str} (h : t.text = a ++ x) (h' : t'.text = a ++ y) (h1 : t.start = t'.start) (h2 : t.stop = t'.stop)
    (hi : t.stop.index ≤ a.length) : t.raw = t'.raw := by
  unfold Token.raw
  rw [h, h', ← h1, ← h2, List.take_append_of_le_length hi, List.take_append_of_le_length hi]

theorem gets_front {u : Uni} {order order' : List (Char × Char)} (ho : IsOrder order) (ho' : IsOrder order') {fl : Flags}
    (hx : x.head? ≠ some '.') (hy : y.head? ≠ some '.') (hy' : y.head? ≠ some ')') {c c' : Cursor} {t : Token} (hc : c.WF)
    (hg : Gets u order fl c c' (some t)) (ht : t.typ ≠ .eof) (hi : c'.pos.index ≤ a.length)
    (hl : c'.pos.index = a.length → t.raw = r!".") {d : Cursor} (hd : d.WF) (h : FrontC a x y c d) :
    ∃ d' t', Gets u order' fl d d' (some t') ∧ TokenEq t t' ∧ (c'.pos.index < a.length → FrontC a x y c' d') := by
  suffices hh : c.pos.index < c'.pos.index ∧ ∀ d : Cursor, d.WF → FrontC a x y c d →
    ∃ d' t', Gets u order' fl d d' (some t') ∧ TokenEq t t' ∧ (c'.pos.index < a.length → FrontC a x y c' d') from hh.2 d hd h
  clear hd h
  refine gets_induction ho (P := fun c c' o => ∀ t, o = some t → t.typ ≠ .eof → c'.pos.index ≤ a.length →
    (c'.pos.index = a.length → t.raw = r!".") → c.pos.index < c'.pos.index ∧ ∀ d : Cursor, d.WF → FrontC a x y c d →
      ∃ d' t', Gets u order' fl d d' (some t') ∧ TokenEq t t' ∧ (c'.pos.index < a.length → FrontC a x y c' d'))
    ?_ ?_ ?_ ?_ hc hg t rfl ht hi hl
  · rintro c _ _ t h ht
    cases h
    exact absurd rfl ht
  · rintro c _ _ t h
    cases h
  · intro c ty k c' o hc hl hs _ ih t ht hne hi hp
    obtain ⟨h1, h2⟩ := ih t ht hne hi hp
    have hb := lexOne_bounds hl
    rw [Cursor.adv_index hb.2.1] at h1
    refine ⟨by omega, fun d hd h => ?_⟩
    obtain ⟨e1, e2⟩ := h.rest (by omega)
    have hl' : lexOne u d.rest = .tok ty k := by
      rw [e2]; rw [e1] at hl
      exact lexOne_front hx hl (by simp; omega)
    obtain ⟨d', t', h3, h4, h5⟩ := h2 (Cursor.adv k d) (adv_wf hd k) (h.adv (by omega))
    refine ⟨d', t', ?_, h4, h5⟩
    rw [gets_iff ho' hd, hl']
    simp only [hs, if_true]
    exact h3
  · rintro c ty k hc hl hs t ht hne hi hp
    cases ht
    have hb := lexOne_bounds hl
    rw [Cursor.adv_index hb.2.1] at hi hp ⊢
    refine ⟨by omega, fun d hd h => ?_⟩
    obtain ⟨e1, e2⟩ := h.rest (by omega)
    by_cases hlt : c.pos.index + k < a.length
    · have hl' : lexOne u d.rest = .tok ty k := by
        rw [e2]; rw [e1] at hl
        exact lexOne_front hx hl (by simp; omega)
      have hF := h.adv (n := k) hlt
      refine ⟨_, _, gets_here ho' hd hl' hs, ⟨rfl, ?_, h.pos, hF.pos⟩, fun _ => hF⟩
      exact raw_front hF.left hF.right h.pos hF.pos (by change (Cursor.adv k c).pos.index ≤ _; rw [Cursor.adv_index hb.2.1]; exact hi)
    · have he : c.pos.index + k = a.length := by omega
      have hr := hp he
      rw [mkTok_raw ty hb.2.1, e1, List.take_append_of_le_length (by simp; omega), List.take_of_length_le (by simp; omega)] at hr
      have hk : k = 1 := by
        have := congrArg List.length hr
        simp at this
        omega
      subst hk
      have hl' : lexOne u d.rest = .tok .symbol 1 := by rw [e2, hr]; exact lexOne_period hy hy'
      have hty : ty = .symbol := by
        rw [e1, hr] at hl
        by_cases h' : x.head? = some ')'
        · exfalso
          cases x with
          | nil => cases h'
          | cons b x =>
            cases h'
            rw [List.cons_append, List.nil_append, lexOne_pair u (by decide)] at hl
            cases hl
        · rw [List.cons_append, List.nil_append, lexOne_period hx h'] at hl
          cases hl
          rfl
      subst hty
      have hpos : (Cursor.adv 1 c).pos = (Cursor.adv 1 d).pos := h.next_pos (by omega)
      refine ⟨_, _, gets_here ho' hd hl' hs, ⟨rfl, ?_, h.pos, hpos⟩, fun h => absurd h hlt⟩
      refine raw_front (a := a) (x := x) (y := y) ?_ ?_ h.pos hpos (by change (Cursor.adv 1 c).pos.index ≤ _; rw [Cursor.adv_index hb.2.1]; omega)
      · exact (adv_text 1 c).trans h.left
      · exact (adv_text 1 d).trans h.right

theorem gets_index {u : Uni} {order : List (Char × Char)} (ho : IsOrder order) {fl : Flags} {c c' : Cursor} {t : Token} (hc : c.WF)
    (hg : Gets u order fl c c' (some t)) (ht : t.typ ≠ .eof) : c.pos.index < c'.pos.index ∧ t.stop = c'.pos := by
  obtain ⟨_, ⟨h, _⟩ | ⟨j, k, h1, h2, h3, _, h4, _⟩⟩ := gets_tok ho hc hg
  · exact absurd h ht
  · refine ⟨?_, by rw [h4]; rfl⟩
    rw [h3, Cursor.adv_index h1]
    omega

theorem run_index {u : Uni} {order : List (Char × Char)} (ho : IsOrder order) {fl : Flags} {p : Token} {r : List Token} {c' : Cursor}
    (hp : p.typ ≠ .eof) : ∀ {l : List Token} {c : Cursor}, c.WF → (∀ t ∈ l, t.typ ≠ .eof) → Run u order fl c (l ++ p :: r) c' →
      c.pos.index < p.stop.index
  | [], c, hc, _, .cons hg _ => by
    obtain ⟨h1, h2⟩ := gets_index ho hc hg hp
    rw [h2]; exact h1
  | t :: l, c, hc, hl, .cons hg hr => by
    have h1 := (gets_index ho hc hg (hl t (List.mem_cons_self ..))).1
    have h2 := run_index ho hp (gets_wf ho hc hg) (fun t ht => hl t (by simp [ht])) hr
    omega

theorem run_front {u : Uni} {order order' : List (Char × Char)} (ho : IsOrder order) (ho' : IsOrder order') {fl : Flags}
    (hx : x.head? ≠ some '.') (hy : y.head? ≠ some '.') (hy' : y.head? ≠ some ')') {p : Token} {r : List Token} {c' : Cursor}
    (hp : p.typ ≠ .eof) (hp' : p.raw = r!".") (hi : p.stop.index = a.length) : ∀ {l : List Token} {c d : Cursor}, c.WF → d.WF →
      (∀ t ∈ l, t.typ ≠ .eof) → Run u order fl c (l ++ p :: r) c' → FrontC a x y c d →
      ∃ d' l', Run u order' fl d l' d' ∧ List.Forall₂ TokenEq (l ++ [p]) l'
  | [], c, d, hc, hd, _, .cons (c' := c1) hg _, h => by
    obtain ⟨h1, h2⟩ := gets_index ho hc hg hp
    have hi' : c1.pos.index = a.length := by rw [← h2]; exact hi
    obtain ⟨d', t', h3, h4, _⟩ := gets_front ho ho' hx hy hy' hc hg hp (by omega) (fun _ => hp') hd h
    exact ⟨d', [t'], .cons h3 (.nil _), .cons h4 .nil⟩
  | t :: l, c, d, hc, hd, hl, .cons (c' := c1) hg hr, h => by
    have hl' : ∀ t ∈ l, t.typ ≠ .eof := fun t ht => hl t (by simp [ht])
    have h1 := run_index ho hp (gets_wf ho hc hg) hl' hr
    obtain ⟨d', t', h3, h4, h5⟩ := gets_front (a := a) ho ho' hx hy hy' hc hg (hl t (List.mem_cons_self ..)) (by omega) (fun h => by omega) hd h
    obtain ⟨d2, l', h6, h7⟩ := run_front ho ho' hx hy hy' hp hp' hi (gets_wf ho hc hg) (gets_wf ho' hd h3) hl' hr (h5 (by omega))
    exact ⟨d2, t' :: l', .cons h3 h6, .cons h4 h7⟩

theorem delivers_prefix {u : Uni} {order : List (Char × Char)} {l : List Token} {c c' : Cursor} (h : Run u order Flags.none c l c') :
    (∀ t ∈ l, t.typ ≠ .eof) → ∀ {ts : List Token} {tl : Tail}, Delivers u order c ts tl → l <+: ts := by
  induction h with
  | nil c => intro _ ts _ _; exact List.nil_prefix
  | cons hg hr ih =>
    rename_i c c1 c2 t l
    rintro hl ts tl ⟨h1, c3, h2, h3⟩
    have ht := hl t (List.mem_cons_self ..)
    cases h2 with
    | nil =>
      exfalso
      cases tl with
      | eof x p =>
        obtain ⟨c2, h4, _⟩ := h3
        have := (gets_unique h4 hg).2
        cases this; exact ht rfl
      | nil =>
        obtain ⟨c2, h4, _⟩ := h3
        have := (gets_unique h4 hg).2
        cases this
      | hang => exact h3 ⟨_, _, hg⟩
    | cons hg' hr' =>
      obtain ⟨rfl, e⟩ := gets_unique hg hg'
      cases e
      have := ih (fun t ht => hl t (by simp [ht])) (ts := _) (tl := tl) ⟨fun t ht => h1 t (by simp [ht]), c3, hr', h3⟩
      exact (List.prefix_cons_inj _).2 this

theorem run_at {u : Uni} {order : List (Char × Char)} (ho : IsOrder order) {fl : Flags} {p : Token} {r : List Token} {c' : Cursor} :
    ∀ {l : List Token} {c : Cursor}, c.WF → Run u order fl c (l ++ p :: r) c' →
      ∃ c1 c2, c1.WF ∧ c1.text = c.text ∧ Gets u order fl c1 c2 (some p)
  | [], c, hc, .cons hg _ => ⟨c, _, hc, rfl, hg⟩
  | t :: l, c, hc, .cons hg hr => by
    obtain ⟨c1, c2, h1, h2, h3⟩ := run_at ho (gets_wf ho hc hg) hr
    obtain ⟨_, _, _, _, _, h4, _⟩ := gets_tok_pos ho hc hg
    exact ⟨c1, c2, h1, by rw [h2, h4, adv_text], h3⟩

theorem period_next {u : Uni} {order : List (Char × Char)} (ho : IsOrder order) {fl : Flags} {p : Token} {c c' : Cursor} (hc : c.WF)
    (hg : Gets u order fl c c' (some p)) (hp : p.typ ≠ .eof) (hr : p.raw = r!".") (ht : c.text = a ++ x) (hi : p.stop.index = a.length) :
    x.head? ≠ some '.' := by
  obtain ⟨_, ⟨h, _⟩ | ⟨j, k, h1, h2, h3, h4, h5, _, h6⟩⟩ := gets_tok ho hc hg
  · exact absurd h hp
  rw [hr] at h6
  have hk : k = 1 := by
    have := congrArg List.length h6
    simp at this
    omega
  subst hk
  have hs : p.stop = c'.pos := by rw [h5]; rfl
  rw [hs, h3, Cursor.adv_index h1] at hi
  rw [adv_rest] at h4
  have e : c.rest.drop j = '.' :: x := by
    have h7 : c.rest.drop (j + 1) = x := by
      unfold Cursor.rest
      rw [List.drop_drop, ht, hi]
      simp
    rw [← List.take_append_drop 1 (c.rest.drop j), ← h6, List.drop_drop, h7]
    rfl
  rw [e] at h4
  intro hx
  cases x with
  | nil => cases hx
  | cons b x =>
    cases hx
    rw [lexOne_pair u (by decide)] at h4
    exact absurd (Lexeme.tok.inj h4).2 (by decide)

theorem period_rune {u : Uni} {order : List (Char × Char)} (ho : IsOrder order) {fl : Flags} {p : Token} {c c' : Cursor} (hc : c.WF)
    (hg : Gets u order fl c c' (some p)) (hp : p.typ ≠ .eof) (hr : p.raw = r!".") : c.text[p.stop.index - 1]? = some '.' := by
  obtain ⟨_, ⟨h, _⟩ | ⟨j, k, h1, h2, h3, h4, h5, _, h6⟩⟩ := gets_tok ho hc hg
  · exact absurd h hp
  rw [hr] at h6
  have hk : k = 1 := by
    have := congrArg List.length h6
    simp at this
    omega
  subst hk
  have hs : p.stop = c'.pos := by rw [h5]; rfl
  rw [hs, h3, Cursor.adv_index h1]
  have := congrArg (fun l => l[0]?) h6
  simp only [List.getElem?_take, List.getElem?_drop, Cursor.rest] at this
  rw [show c.pos.index + (j + 1) - 1 = c.pos.index + (j + 0) by omega, ← show _ = c.text[c.pos.index + (j + 0)]? from this]
  rfl

/-- Two texts that are the same up to and including a period: the tokens up to the period are the same. -/
theorem delivers_front {u : Uni} {order order' : List (Char × Char)} (ho : IsOrder order) (ho' : IsOrder order')
    (hy : y.head? ≠ some '.') (hy' : y.head? ≠ some ')') {l r ts' : List Token} {p : Token} {tl tl' : Tail}
    (hp' : p.raw = r!".") (hi : p.stop.index = a.length) (h : Delivers u order (Cursor.new (a ++ x)) (l ++ p :: r) tl)
    (h' : Delivers u order' (Cursor.new (a ++ y)) ts' tl') : ∃ l', l' <+: ts' ∧ List.Forall₂ TokenEq (l ++ [p]) l' := by
  obtain ⟨h1, c1, h2, _⟩ := h
  have hp : p.typ ≠ .eof := h1 p (by simp)
  have hl : ∀ t ∈ l, t.typ ≠ .eof := fun t ht => h1 t (by simp [ht])
  have hx : x.head? ≠ some '.' := by
    obtain ⟨c2, c3, h3, h4, h5⟩ := run_at ho (new_wf _) h2
    exact period_next ho h3 h5 hp hp' h4 hi
  obtain ⟨d', l', h3, h4⟩ := run_front (a := a) (x := x) (y := y) ho ho' hx hy hy' hp hp' hi (new_wf _) (new_wf _) hl h2 ⟨rfl, rfl, rfl, rfl⟩
  refine ⟨l', delivers_prefix h3 ?_ h', h4⟩
  have key : ∀ t ∈ l ++ [p], t.typ ≠ .eof := fun t ht => by
    rcases List.mem_append.1 ht with ht | ht
    · exact hl t ht
    · rw [List.mem_singleton.1 ht]; exact hp
  clear h2 h3
  generalize l ++ [p] = q at h4 key
  induction h4 with
  | nil => simp
  | cons h5 _ ih =>
    intro t ht
    rcases List.mem_cons.1 ht with rfl | ht
    · rw [← h5.1]; exact key _ (List.mem_cons_self ..)
    · exact ih (fun t ht => key t (by simp [ht])) t ht

end

end TP
