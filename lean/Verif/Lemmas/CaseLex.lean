import Verif.Lemmas.TextTokens
import Verif.Lemmas.Case
import Mathlib.Data.List.Forall2

/-!
# Texts that differ only in the case of ASCII letters are cut into the same tokens
-/

namespace TP
open Cursor Spec Props

/-- the rune is not an ASCII letter -/
theorem asciiUp_eq_iff {a x : Char} (hx : ∀ y, asciiUp y = x → y = x) (hx' : asciiUp x = x) : asciiUp a = x ↔ a = x :=
  ⟨hx a, fun h => by rw [h, hx']⟩

theorem asciiUp_other {a x : Char} (h : ¬ (65 ≤ x.toNat ∧ x.toNat ≤ 90) ∧ ¬ (97 ≤ x.toNat ∧ x.toNat ≤ 122)) :
    asciiUp a = x ↔ a = x := by
  refine asciiUp_eq_iff (fun y e => ?_) ?_
  · rcases asciiUp_cases y with ⟨h1, _⟩ | ⟨h1, h2, h3⟩
    · rw [← e, h1]
    · rw [e] at h3; omega
  · rcases asciiUp_cases x with ⟨h1, _⟩ | ⟨h1, h2, h3⟩
    · exact h1
    · omega

theorem asciiUp_beq {a x : Char} (h : ¬ (65 ≤ x.toNat ∧ x.toNat ≤ 90) ∧ ¬ (97 ≤ x.toNat ∧ x.toNat ≤ 122)) :
    (asciiUp a == x) = (a == x) := by
  rw [Bool.eq_iff_iff]; simp only [beq_iff_eq]; exact asciiUp_other h

theorem digit_asciiUp (a : Char) : digit (asciiUp a) = digit a := by
  rcases asciiUp_cases a with ⟨h, _⟩ | ⟨h1, h2, h3⟩
  · rw [h]
  · have h4 : digit (asciiUp a) = false := by
      cases e : digit (asciiUp a) with
      | false => rfl
      | true => have := digit_range e; omega
    have h5 : digit a = false := by
      cases e : digit a with
      | false => rfl
      | true => have := digit_range e; omega
    rw [h4, h5]

section
variable (u : Uni)

theorem letter_asciiUp (a : Char) : u.isLetter (asciiUp a) = u.isLetter a := by
  rcases asciiUp_cases a with ⟨h, _⟩ | ⟨h1, h2, h3⟩
  · rw [h]
  · rw [u.letter_ascii _ (by omega), u.letter_ascii _ (by omega)]
    unfold asciiLetter asciiLower asciiUpper
    rw [Bool.eq_iff_iff]
    simp only [Bool.or_eq_true, Bool.and_eq_true, decide_eq_true_eq]
    omega

theorem space_asciiUp (a : Char) : u.isSpace (asciiUp a) = u.isSpace a := by
  rcases asciiUp_cases a with ⟨h, _⟩ | ⟨h1, h2, h3⟩
  · rw [h]
  · rw [u.space_ascii _ (by omega), u.space_ascii _ (by omega)]
    unfold asciiSpace
    rw [Bool.eq_iff_iff]
    simp only [Bool.or_eq_true, Bool.and_eq_true, decide_eq_true_eq, beq_iff_eq]
    omega

theorem wordHead_asciiUp (a : Char) : wordHead u (asciiUp a) = wordHead u a := by
  unfold wordHead; rw [letter_asciiUp, asciiUp_beq (by decide)]

theorem wordRune_asciiUp (a : Char) : wordRune u (asciiUp a) = wordRune u a := by
  unfold wordRune; rw [wordHead_asciiUp, digit_asciiUp]
end

theorem takeWhile_asciiUp {p : Char → Bool} (hp : ∀ a, p (asciiUp a) = p a) (s : Str) :
    (s.map asciiUp).takeWhile p = (s.takeWhile p).map asciiUp := by
  rw [List.takeWhile_map]
  congr 2
  exact funext hp

theorem dropWhile_asciiUp {p : Char → Bool} (hp : ∀ a, p (asciiUp a) = p a) (s : Str) :
    (s.map asciiUp).dropWhile p = (s.dropWhile p).map asciiUp := by
  rw [List.dropWhile_map]
  congr 2
  exact funext hp

theorem lenUntil_asciiUp {p : Char → Bool} (hp : ∀ a, p (asciiUp a) = p a) (s : Str) :
    lenUntil p (s.map asciiUp) = lenUntil p s := by
  unfold lenUntil
  rw [takeWhile_asciiUp (fun a => by rw [hp]), List.length_map]

theorem head_asciiUp {x : Char} (h : ¬ (65 ≤ x.toNat ∧ x.toNat ≤ 90) ∧ ¬ (97 ≤ x.toNat ∧ x.toNat ≤ 122)) (s : Str) :
    (s.map asciiUp).head? = some x ↔ s.head? = some x := by
  cases s with
  | nil => simp
  | cons a s => simp only [List.map_cons, List.head?_cons, Option.some.injEq]; exact asciiUp_other h

theorem starLen_asciiUp (s : Str) : starLen (s.map asciiUp) = starLen s := by
  induction s with
  | nil => rfl
  | cons a s ih =>
    simp only [List.map_cons, starLen, asciiUp_other (x := '*') (by decide), asciiUp_other (x := NUL) (by decide),
      head_asciiUp (x := ')') (by decide), ih]

theorem quoteLen_asciiUp (s : Str) : ∀ l l' : Char, (l = '\\' ↔ l' = '\\') → quoteLen l (s.map asciiUp) = quoteLen l' s := by
  induction s with
  | nil => intro l l' _; rfl
  | cons a s ih =>
    intro l l' h
    have h1 : (l ≠ '\\' ∧ asciiUp a = '\'') ↔ (l' ≠ '\\' ∧ a = '\'') := by
      rw [Ne, Ne, h, asciiUp_other (x := '\'') (by decide)]
    simp only [List.map_cons, quoteLen, h1, ih (asciiUp a) a (asciiUp_other (by decide))]

theorem numTail_of {s r : Str} (h : afterDigits s = r) :
    numTail s = if r.head? = some '.' then
      if r.tail.head? = some '.' then (.numInt, (digits s).length) else (.numReal, (digits s).length + 1 + (digits r.tail).length)
      else (.numInt, (digits s).length) := by
  unfold numTail
  rw [h]
  split
  · rfl
  · rename_i t h1
    rw [if_pos (by rfl), if_neg]
    · rfl
    · intro h2
      cases t with
      | nil => cases h2
      | cons b t => cases h2; exact h1 _ rfl
  · rename_i h1 h2
    rw [if_neg]
    intro h3
    cases r with
    | nil => cases h3
    | cons a r => cases h3; exact h2 _ rfl

theorem numTail_asciiUp (s : Str) : numTail (s.map asciiUp) = numTail s := by
  have h : afterDigits (s.map asciiUp) = (afterDigits s).map asciiUp := dropWhile_asciiUp digit_asciiUp s
  have h2 : ∀ s : Str, (digits (s.map asciiUp)).length = (digits s).length := fun s => by
    unfold digits; rw [takeWhile_asciiUp digit_asciiUp, List.length_map]
  rw [numTail_of h, numTail_of (s := s) rfl, ← List.map_tail]
  simp only [head_asciiUp (x := '.') (by decide), h2]

theorem startsDigit_asciiUp (s : Str) : startsDigit (s.map asciiUp) = startsDigit s := by
  cases s with
  | nil => rfl
  | cons a s => exact digit_asciiUp a

theorem startsNumeral_asciiUp (s : Str) : startsNumeral (s.map asciiUp) = startsNumeral s := by
  cases s with
  | nil => rfl
  | cons a s =>
    simp only [List.map_cons, startsNumeral]
    rw [digit_asciiUp, asciiUp_beq (by decide), startsDigit_asciiUp]

theorem symbolRunes_asciiUp (a : Char) : symbolRunes.contains (asciiUp a) = symbolRunes.contains a := by
  have key : ∀ x ∈ symbolRunes, ¬ (65 ≤ x.toNat ∧ x.toNat ≤ 90) ∧ ¬ (97 ≤ x.toNat ∧ x.toNat ≤ 122) := by decide
  rw [Bool.eq_iff_iff, List.contains_iff_mem, List.contains_iff_mem]
  constructor
  · intro h
    have := (asciiUp_other (a := a) (key _ h)).1 rfl
    rw [this]; exact h
  · intro h
    have := (asciiUp_other (a := a) (key _ h)).2 rfl
    rw [this]; exact h

theorem startsPair_asciiUp (s : Str) : startsPair (s.map asciiUp) = startsPair s := by
  have key : ∀ x ∈ symbolPairs, (¬ (65 ≤ x.1.toNat ∧ x.1.toNat ≤ 90) ∧ ¬ (97 ≤ x.1.toNat ∧ x.1.toNat ≤ 122)) ∧
      (¬ (65 ≤ x.2.toNat ∧ x.2.toNat ≤ 90) ∧ ¬ (97 ≤ x.2.toNat ∧ x.2.toNat ≤ 122)) := by decide
  cases s with
  | nil => rfl
  | cons a s =>
    cases s with
    | nil => rfl
    | cons b s =>
      simp only [List.map_cons, startsPair, startsWithPair]
      rw [Bool.eq_iff_iff, List.contains_iff_mem, List.contains_iff_mem]
      constructor
      · intro h
        have h1 := (asciiUp_other (a := a) (key _ h).1).1 rfl
        have h2 := (asciiUp_other (a := b) (key _ h).2).1 rfl
        simp only at h1 h2
        rw [← h1, ← h2] at h; exact h
      · intro h
        have h1 := (asciiUp_other (a := a) (key _ h).1).2 rfl
        have h2 := (asciiUp_other (a := b) (key _ h).2).2 rfl
        simp only at h1 h2
        rw [h1, h2]; exact h

theorem toUpper_asciiUp (u : Uni) (s : Str) : u.toUpper (s.map asciiUp) = u.toUpper s :=
  SameName.upper u (by
    unfold SameName
    rw [List.map_map]
    congr 1
    funext a
    rcases asciiUp_cases a with ⟨h, _⟩ | ⟨h1, h2, h3⟩
    · simp [h]
    · rcases asciiUp_cases (asciiUp a) with ⟨h, _⟩ | ⟨h4, h5, h6⟩
      · exact h
      · omega)

/-- The case of ASCII letters does not matter for the kind and the length of a lexeme. -/
theorem lexOne_asciiUp (u : Uni) (s : Str) : lexOne u (s.map asciiUp) = lexOne u s := by
  cases s with
  | nil => rfl
  | cons a t =>
    have hn := startsNumeral_asciiUp (a :: t)
    have hp := startsPair_asciiUp (a :: t)
    rw [List.map_cons] at hn hp
    simp only [List.map_cons, lexOne, asciiUp_other (x := NUL) (by decide), asciiUp_other (x := '{') (by decide),
      asciiUp_other (x := '/') (by decide), asciiUp_other (x := '(') (by decide), asciiUp_other (x := '\'') (by decide),
      head_asciiUp (x := '/') (by decide), head_asciiUp (x := '*') (by decide), hn, hp, symbolRunes_asciiUp,
      wordHead_asciiUp, space_asciiUp, starLen_asciiUp, quoteLen_asciiUp t NUL NUL Iff.rfl, numTail_asciiUp,
      takeWhile_asciiUp (wordRune_asciiUp u), takeWhile_asciiUp (space_asciiUp u), List.length_cons, List.length_map]
    rw [lenUntil_asciiUp (fun a => by rw [asciiUp_beq (by decide), asciiUp_beq (by decide)]),
      lenUntil_asciiUp (fun a => by rw [asciiUp_beq (by decide), asciiUp_beq (by decide)]), ← List.map_cons (f := asciiUp),
      toUpper_asciiUp]

theorem lexOne_case (u : Uni) {s t : Str} (h : SameName s t) : lexOne u s = lexOne u t := by
  rw [← lexOne_asciiUp u s, ← lexOne_asciiUp u t, h]

/-! ## Cursors and streams -/

/-- the cursors are at the same place of texts that differ only in case -/
structure CurR (c d : Cursor) : Prop where
  text : SameName c.text d.text
  pos : c.pos = d.pos
  lf : c.wasLF = d.wasLF

theorem SameName.length {a b : Str} (h : SameName a b) : a.length = b.length := by
  have := congrArg List.length h
  rwa [List.length_map, List.length_map] at this

theorem SameName.drop {a b : Str} (h : SameName a b) (n : Nat) : SameName (a.drop n) (b.drop n) := by
  unfold SameName at *; rw [List.map_drop, List.map_drop, h]

theorem SameName.take {a b : Str} (h : SameName a b) (n : Nat) : SameName (a.take n) (b.take n) := by
  unfold SameName at *; rw [List.map_take, List.map_take, h]

theorem CurR.rest {c d : Cursor} (h : CurR c d) : SameName c.rest d.rest := by
  unfold Cursor.rest; rw [h.pos]; exact h.text.drop _

theorem CurR.next {c d : Cursor} (h : CurR c d) : CurR c.next.1 d.next.1 := by
  have hs : (c.seek 1 = '\n') ↔ (d.seek 1 = '\n') := by
    rw [seek_eq, seek_eq, ← asciiUp_other (a := (c.rest[1]?).getD NUL) (by decide),
      ← asciiUp_other (a := (d.rest[1]?).getD NUL) (x := '\n') (by decide)]
    have e : (c.rest[1]?).map asciiUp = (d.rest[1]?).map asciiUp := by
      rw [← List.getElem?_map, ← List.getElem?_map, h.rest]
    cases h1 : c.rest[1]? <;> cases h2 : d.rest[1]? <;> rw [h1, h2] at e
    · cases e
    · cases e
    · simp only [Option.map_some, Option.some.injEq] at e
      simp only [Option.getD_some]; rw [e]
  rw [next_eq, next_eq, h.text.length, h.pos, h.lf]
  split
  · exact ⟨h.text, rfl, decide_eq_decide.mpr hs⟩
  · exact ⟨h.text, rfl, rfl⟩

theorem CurR.adv {c d : Cursor} (h : CurR c d) (n : Nat) : CurR (adv n c) (adv n d) := by
  induction n generalizing c d with
  | zero => exact h
  | succ n ih => exact ih h.next

/-- tokens of the same kind at the same place, differing only in case -/
structure TokCase (a b : Token) : Prop where
  typ : a.typ = b.typ
  start : a.start = b.start
  stop : a.stop = b.stop
  text : SameName a.text b.text

theorem TokCase.raw {a b : Token} (h : TokCase a b) : SameName a.raw b.raw := by
  unfold Token.raw; rw [h.start, h.stop]; exact (h.text.take _).drop _

theorem CurR.tok {c d e f : Cursor} (h : CurR c d) (g : CurR e f) (ty : TType) : TokCase (mkTok ty c e.pos) (mkTok ty d f.pos) :=
  ⟨rfl, g.pos, h.pos, h.text⟩

theorem gets_case {u : Uni} {order order' : List (Char × Char)} (ho : IsOrder order) (ho' : IsOrder order') {fl : Flags}
    {c d c' : Cursor} (hc : c.WF) (hd : d.WF) (h : CurR c d) {o : Option Token} (hg : Gets u order fl c c' o) :
    ∃ d' o', Gets u order' fl d d' o' ∧ CurR c' d' ∧ Option.Rel TokCase o o' := by
  refine gets_induction ho (P := fun c c' o => ∀ d : Cursor, d.WF → CurR c d → ∃ d' o', Gets u order' fl d d' o' ∧
    CurR c' d' ∧ Option.Rel TokCase o o') ?_ ?_ ?_ ?_ hc hg d hd h
  · intro c _ hl d hd h
    refine ⟨d, _, ?_, h, .some (h.tok h .eof)⟩
    rw [gets_iff ho' hd, ← lexOne_case u h.rest, hl]; exact ⟨rfl, rfl⟩
  · intro c _ hl d hd h
    refine ⟨d, none, ?_, h, .none⟩
    rw [gets_iff ho' hd, ← lexOne_case u h.rest, hl]; exact ⟨rfl, rfl⟩
  · intro c ty k c' o _ hl hs _ ih d hd h
    obtain ⟨d', o', h1, h2, h3⟩ := ih (Cursor.adv k d) (adv_wf hd k) (h.adv k)
    refine ⟨d', o', ?_, h2, h3⟩
    rw [gets_iff ho' hd, ← lexOne_case u h.rest, hl]; simp only [hs, if_true]; exact h1
  · intro c ty k _ hl hs d hd h
    refine ⟨_, _, gets_here ho' hd (by rw [← lexOne_case u h.rest]; exact hl) hs, h.adv k, .some ((h.adv k).tok h ty)⟩

theorem run_case {u : Uni} {order order' : List (Char × Char)} (ho : IsOrder order) (ho' : IsOrder order') {fl : Flags}
    {c c' : Cursor} {ts : List Token} (hr : Run u order fl c ts c') : ∀ {d : Cursor}, c.WF → d.WF → CurR c d →
    ∃ d' ts', Run u order' fl d ts' d' ∧ CurR c' d' ∧ List.Forall₂ TokCase ts ts' := by
  induction hr with
  | nil => intro d _ _ h; exact ⟨d, [], .nil d, h, .nil⟩
  | cons hg _ ih =>
    intro d hc hd h
    obtain ⟨d1, o, h1, h2, h3⟩ := gets_case ho ho' hc hd h hg
    cases h3 with
    | some ht =>
      obtain ⟨d', ts', h4, h5, h6⟩ := ih (gets_wf ho hc hg) (gets_wf ho' hd h1) h2
      exact ⟨d', _, .cons h1 h4, h5, .cons ht h6⟩

/-- what follows the tokens of texts that differ only in case -/
def TailCase : Tail → Tail → Prop
  | .eof x p, .eof y q => SameName x y ∧ p = q
  | .nil, .nil => True
  | .hang, .hang => True
  | _, _ => False

theorem gets_none_case {u : Uni} {order order' : List (Char × Char)} (ho : IsOrder order) (ho' : IsOrder order') {fl : Flags}
    {c d : Cursor} (hc : c.WF) (hd : d.WF) (h : CurR c d) (hn : ¬ ∃ c2 o, Gets u order fl c c2 o) :
    ¬ ∃ d2 o, Gets u order' fl d d2 o := by
  rintro ⟨d2, o, hg⟩
  have h' : CurR d c := ⟨h.text.symm, h.pos.symm, h.lf.symm⟩
  obtain ⟨c2, o', h1, _⟩ := gets_case ho' ho hd hc h' hg
  exact hn ⟨c2, o', h1⟩

/-- The streams of a text are unique. -/
theorem delivers_unique {u : Uni} {order : List (Char × Char)} {c : Cursor} {ts ts' : List Token}
    {tl tl' : Tail} (h : Delivers u order c ts tl) (h' : Delivers u order c ts' tl') : ts = ts' ∧ tl = tl' := by
  obtain ⟨h1, c1, h2, h3⟩ := h
  obtain ⟨h1', c1', h2', h3'⟩ := h'
  induction h2 generalizing ts' with
  | nil c =>
    cases h2' with
    | nil =>
      refine ⟨rfl, ?_⟩
      cases tl <;> cases tl' <;> simp only at h3 h3'
      · obtain ⟨c2, h4, _⟩ := h3; obtain ⟨c2', h4', _⟩ := h3'
        have := (gets_unique h4 h4').2
        cases this; rfl
      · obtain ⟨c2, h4, _⟩ := h3; obtain ⟨c2', h4', _⟩ := h3'
        have := (gets_unique h4 h4').2
        cases this
      · obtain ⟨c2, h4, _⟩ := h3; exact absurd ⟨_, _, h4⟩ h3'
      · obtain ⟨c2, h4, _⟩ := h3; obtain ⟨c2', h4', _⟩ := h3'
        have := (gets_unique h4 h4').2
        cases this
      · rfl
      · obtain ⟨c2, h4, _⟩ := h3; exact absurd ⟨_, _, h4⟩ h3'
      · obtain ⟨c2', h4', _⟩ := h3'; exact absurd ⟨_, _, h4'⟩ h3
      · obtain ⟨c2', h4', _⟩ := h3'; exact absurd ⟨_, _, h4'⟩ h3
      · rfl
    | cons hg hr =>
      exfalso
      rename_i t ts
      have ht := h1' t (List.mem_cons_self ..)
      cases tl with
      | eof x p =>
        obtain ⟨c2, h4, _⟩ := h3
        have := (gets_unique h4 hg).2
        cases this; exact ht rfl
      | nil =>
        obtain ⟨c2, h4, _⟩ := h3
        have := (gets_unique h4 hg).2
        cases this
      | hang => exact h3 ⟨_, _, hg⟩
  | cons hg hr ih =>
    rename_i t ts
    cases h2' with
    | nil =>
      exfalso
      have ht := h1 t (List.mem_cons_self ..)
      cases tl' with
      | eof x p =>
        obtain ⟨c2, h4, _⟩ := h3'
        have := (gets_unique h4 hg).2
        cases this; exact ht rfl
      | nil =>
        obtain ⟨c2, h4, _⟩ := h3'
        have := (gets_unique h4 hg).2
        cases this
      | hang => exact h3' ⟨_, _, hg⟩
    | cons hg' hr' =>
      obtain ⟨rfl, e⟩ := gets_unique hg hg'
      cases e
      obtain ⟨rfl, h⟩ := ih (fun x hx => h1 x (List.mem_cons_of_mem _ hx)) h3
        (fun x hx => h1' x (List.mem_cons_of_mem _ hx)) hr'
      exact ⟨rfl, h⟩

/-- Texts that differ only in the case of ASCII letters give the same tokens at the same places. -/
theorem delivers_case {u : Uni} {order order' : List (Char × Char)} (ho : IsOrder order) (ho' : IsOrder order') {x y : Str}
    (h : SameName x y) {ts ts' : List Token} {tl tl' : Tail} (hx : Delivers u order (Cursor.new x) ts tl)
    (hy : Delivers u order' (Cursor.new y) ts' tl') : List.Forall₂ TokCase ts ts' ∧ TailCase tl tl' := by
  have h0 : CurR (Cursor.new x) (Cursor.new y) := ⟨h, rfl, rfl⟩
  obtain ⟨h1, c', h2, h3⟩ := hx
  obtain ⟨d', ts2, h4, h5, h6⟩ := run_case ho ho' h2 (new_wf x) (new_wf y) h0
  have hwc := run_wf ho (new_wf x) h2
  have hwd := run_wf ho' (new_wf y) h4
  have hne : ∀ t ∈ ts2, t.typ ≠ .eof := by
    clear h2 h4 hy
    induction h6 with
    | nil => intro t h; cases h
    | cons hab _ ih =>
      intro t ht
      rcases List.mem_cons.1 ht with rfl | ht
      · rw [← hab.typ]; exact h1 _ (List.mem_cons_self ..)
      · exact ih (fun x hx => h1 x (List.mem_cons_of_mem _ hx)) t ht
  cases tl with
  | eof a p =>
    obtain ⟨c2, h7, h8⟩ := h3
    obtain ⟨d2, o, h9, h10, h11⟩ := gets_case ho ho' hwc hwd h5 h7
    cases h11 with
    | some ht =>
      rename_i t
      have e : t = eofTok t.text t.stop := by
        obtain ⟨ty, x, a, b⟩ := t
        have := ht.typ; have h12 := ht.start; have h13 := ht.stop
        simp only [eofTok] at this h12 h13 ⊢
        rw [← this, ← h12, ← h13]
      have : Delivers u order' (Cursor.new y) ts2 (.eof t.text t.stop) := by
        refine ⟨hne, d', h4, d2, by rw [← e]; exact h9, fun c3 o => ?_⟩
        obtain ⟨_, ⟨_, _, h14, h15⟩ | ⟨_, _, _, _, _, _, _, h16, _⟩⟩ := gets_tok ho' hwd h9
        · rw [gets_iff ho' (gets_wf ho' hwd h9), h14, ← e, h15]
        · exact absurd ht.typ.symm h16
      obtain ⟨rfl, rfl⟩ := delivers_unique hy this
      exact ⟨h6, ht.text, ht.stop⟩
  | nil =>
    obtain ⟨c2, h7, h8⟩ := h3
    obtain ⟨d2, o, h9, h10, h11⟩ := gets_case ho ho' hwc hwd h5 h7
    cases h11
    have hreach := run_reachable ho' (.new y) h4
    have : Delivers u order' (Cursor.new y) ts2 .nil :=
      ⟨hne, d', h4, d2, h9, fun c3 o => C12_stuck_forever u order' ho' Flags.none Flags.none d' d2 c3 hreach h9 o⟩
    obtain ⟨rfl, rfl⟩ := delivers_unique hy this
    exact ⟨h6, trivial⟩
  | hang =>
    have : Delivers u order' (Cursor.new y) ts2 .hang := ⟨hne, d', h4, gets_none_case ho ho' hwc hwd h5 h3⟩
    obtain ⟨rfl, rfl⟩ := delivers_unique hy this
    exact ⟨h6, trivial⟩

end TP
