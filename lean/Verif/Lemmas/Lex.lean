import Verif.Lemmas.Loop
import Verif.Model.Run

/-!
# The processors meet the lexical specification
-/

namespace TP
open Cursor Spec

/-- What one round over the processors has to give for a lexeme at the cursor. -/
def outcome (c : Cursor) : Lexeme → ProcRes
  | .eof => some (c, some (mkTok .eof c c.pos))
  | .stuck => some (c, none)
  | .unterminated => none
  | .tok ty n => some (adv n c, some (mkTok ty (adv n c) c.pos))

theorem uni_nul_letter (u : Uni) : u.isLetter NUL = false := by
  rw [u.letter_ascii _ (by decide)]; decide
theorem uni_nul_space (u : Uni) : u.isSpace NUL = false := by
  rw [u.space_ascii _ (by decide)]; decide
theorem uni_nul_word (u : Uni) : isWord u NUL = false := by
  have h : (NUL == '_') = false := by decide
  have h2 : isDigit NUL = false := by decide
  simp [isWord, isWordHead, uni_nul_letter, h, h2]
theorem uni_nul_wordRune (u : Uni) : wordRune u NUL = false := by rw [← isWord_eq]; exact uni_nul_word u

section
variable {c : Cursor} {a : Char} {t : Str}

theorem current_cons (h : c.rest = a :: t) : c.current = a := by rw [current_eq, h]; rfl
theorem seek_one_iff (h : c.rest = a :: t) {x : Char} (hx : x ≠ NUL) : c.seek 1 = x ↔ t.head? = some x := by
  rw [seek_eq, h]
  cases t with
  | nil => simp [Ne.symm hx]
  | cons y t => simp

theorem procEof_cons (h : c.rest = a :: t) :
    procEof c = if a = NUL then outcome c .eof else some (c, none) := by
  simp only [procEof, current_cons h, outcome]

theorem procComment_cons (hc : c.WF) (h : c.rest = a :: t) {fuel : Nat} (hf : c.rest.length < fuel) :
    procComment fuel c =
      if a = '{' then
        outcome c (.tok .comment (min (lenUntil (fun c => c == '}' || c == NUL) t + 2) (a :: t).length))
      else if a = '/' ∧ t.head? = some '/' then
        outcome c (.tok .comment (1 + lenUntil (fun c => c == '\n' || c == NUL) t))
      else if a = '(' ∧ t.head? = some '*' then outcome c (.tok .comment (1 + starLen t))
      else some (c, none) := by
  have ht : c.rest.tail = t := by rw [h]; rfl
  have hlen : t.length < fuel := by rw [h] at hf; simp at hf; omega
  simp only [procComment, current_cons h, seek_one_iff h (show ('/' : Char) ≠ NUL by decide),
    seek_one_iff h (show ('*' : Char) ≠ NUL by decide)]
  by_cases h1 : a = '{'
  · simp only [h1, if_true]
    have hs := lenUntil_le (fun c => c == '}' || c == NUL) t
    have := goLoop_stop (fun c => c == '}' || c == NUL) (by decide) braceBody
      (by intro c; simp only [braceBody, Bool.or_eq_true, beq_iff_eq]) fuel c
    rw [ht] at this
    rw [this, if_pos (by omega)]
    simp only [outcome]
    rw [← adv_succ', adv_min hc (_ + 1 + 1), h, h1]
  · simp only [h1, if_false]
    by_cases h2 : a = '/'
    · by_cases h3 : t.head? = some '/'
      · simp only [h2, h3, if_true, and_self]
        have hs := lenUntil_le (fun c => c == '\n' || c == NUL) t
        have := goLoop_stop (fun c => c == '\n' || c == NUL) (by decide) slashBody
          (by intro c; simp only [slashBody, Bool.or_eq_true, beq_iff_eq]) fuel c
        rw [ht] at this
        rw [this, if_pos (by omega)]
        simp only [outcome]
        rw [Nat.add_comm 1]
      · have h4 : ('/' : Char) ≠ '(' := by decide
        simp [h2, h3]
    · simp only [h2, if_false, false_and]
      by_cases h4 : a = '('
      · by_cases h5 : t.head? = some '*'
        · simp only [h4, h5, if_true, and_self]
          have := goLoop_paren fuel hc hf (by rw [h]; simp)
          rw [ht] at this
          cases hg : goLoop parenBody fuel c with
          | none => rw [hg] at this; cases this
          | some c' =>
            rw [hg] at this
            simp only [Option.map_some, Option.some.injEq] at this
            simp only [this, outcome]
        · simp [h4, h5]
      · simp [h4]

theorem procString_cons (h : c.rest = a :: t) {fuel : Nat} (hf : c.rest.length < fuel) :
    procString fuel c =
      if a = '\'' then
        outcome c (match quoteLen NUL t with
          | none => .unterminated
          | some n => .tok .charString (1 + n))
      else some (c, none) := by
  have ht : c.rest.tail = t := by rw [h]; rfl
  have hlen : t.length < fuel := by rw [h] at hf; simp at hf; omega
  simp only [procString, current_cons h]
  by_cases h1 : a = '\''
  · simp only [h1, if_true]
    rw [goLoop_string, ht]
    cases hq : quoteLen NUL t with
    | none => rfl
    | some n =>
      have := (quoteLen_bounds hq).2
      simp only [show n ≤ fuel by omega, if_true, outcome]
      rw [← adv_succ', Nat.add_comm 1]
  · simp [h1]

theorem seek_one_digit (h : c.rest = a :: t) :
    digit (c.seek 1) = startsDigit t := by
  rw [seek_eq, h]
  cases t with
  | nil => show digit NUL = false; decide
  | cons b t => rfl

theorem procNumeral_cons (h : c.rest = a :: t) {fuel : Nat} (hf : c.rest.length < fuel) :
    procNumeral fuel c =
      if startsNumeral (a :: t) then outcome c (.tok (numTail t).1 (1 + (numTail t).2))
      else some (c, none) := by
  have ht : c.rest.tail = t := by rw [h]; rfl
  have hlen : t.length < fuel := by rw [h] at hf; simp at hf; omega
  simp only [procNumeral, current_cons h, isDigit_eq, seek_one_digit h, startsNumeral, isUnaryOp]
  rw [goLoop_num, ht]
  have := numTail_le t
  rw [if_pos (c := (numTail t).2 < fuel) (by omega)]
  simp only [outcome]
  rw [Nat.add_comm 1]
  rfl

theorem procDouble_cons (h : c.rest = a :: t) {order : List (Char × Char)}
    (ho : ∀ x, x ∈ order ↔ x ∈ symbolPairs) :
    procDouble order c = if startsPair (a :: t) then outcome c (.tok .symbol 2) else some (c, none) := by
  have key : ∀ l : List (Char × Char), (∀ x ∈ l, x.2 ≠ NUL) → procDouble l c =
      if startsWithPair l (a :: t) then outcome c (.tok .symbol 2) else some (c, none) := by
    intro l
    induction l with
    | nil => intro _; cases t <;> simp [procDouble, startsWithPair]
    | cons x l ih =>
      intro hl
      have hx := hl x (by simp)
      simp only [procDouble, current_cons h, seek_one_iff h hx]
      rw [ih (fun y hy => hl y (by simp [hy]))]
      by_cases h1 : a = x.1 ∧ t.head? = some x.2
      · rw [if_pos h1]
        have : startsWithPair (x :: l) (a :: t) = true := by
          cases t with
          | nil => simp at h1
          | cons b t =>
            obtain ⟨h1, h2⟩ := h1
            simp at h2; subst h1; subst h2; simp [startsWithPair]
        rw [if_pos this]
        rfl
      · rw [if_neg h1]
        have : startsWithPair (x :: l) (a :: t) = startsWithPair l (a :: t) := by
          cases t with
          | nil => rfl
          | cons b t =>
            have hne : (a, b) ≠ x := by intro e; apply h1; rw [← e]; simp
            simp [startsWithPair, hne]
        simp only [this]
  rw [key order (by
    intro x hx
    rw [ho] at hx
    have : ∀ x ∈ symbolPairs, x.2 ≠ NUL := by decide
    exact this x hx)]
  have : startsWithPair order (a :: t) = startsPair (a :: t) := by
    cases t with
    | nil => rfl
    | cons b t =>
      simp only [startsPair, startsWithPair]
      rw [Bool.eq_iff_iff]
      simp [ho]
  simp only [this]

theorem procSingle_cons (h : c.rest = a :: t) :
    procSingle c = if symbolRunes.contains a then outcome c (.tok .symbol 1) else some (c, none) := by
  have : symbolRunes = singleSymbols := by decide
  simp only [procSingle, current_cons h, this]
  rfl

theorem takeWhile_lenUntil (p : Char → Bool) (s : Str) :
    (s.takeWhile p).length = lenUntil (fun c => !p c) s := by
  simp [lenUntil]

theorem procWord_cons (u : Uni) (h : c.rest = a :: t) {fuel : Nat} (hf : c.rest.length < fuel) :
    procWord u fuel c =
      if wordHead u a then
        outcome c (.tok (if keywords.contains (u.toUpper (a :: t.takeWhile (wordRune u))) then .reserved
          else .ident) (a :: t.takeWhile (wordRune u)).length)
      else some (c, none) := by
  have ht : c.rest.tail = t := by rw [h]; rfl
  have hlen : t.length < fuel := by rw [h] at hf; simp at hf; omega
  simp only [procWord, current_cons h, isWordHead_eq]
  by_cases h1 : wordHead u a = true
  · simp only [h1, if_true]
    have hs := lenUntil_le (fun c => !wordRune u c) t
    have := goLoop_stop (fun c => !wordRune u c) (by simp [uni_nul_wordRune]) (wordBody u)
      (by intro c; simp only [wordBody, isWord_eq]; cases wordRune u c.next.2 <;> simp) fuel c
    rw [ht] at this
    rw [this, if_pos (by omega)]
    have e : lenUntil (fun c => !wordRune u c) t + 1 = (a :: t.takeWhile (wordRune u)).length := by
      simp [takeWhile_lenUntil]
    rw [e]
    have hw : (a :: t.takeWhile (wordRune u)).length ≤ c.rest.length := by
      rw [h]; simp only [List.length_cons, takeWhile_lenUntil]; omega
    have hraw : (mkTok .ident (adv (a :: t.takeWhile (wordRune u)).length c) c.pos).value u
        = a :: t.takeWhile (wordRune u) := by
      show (mkTok .ident (adv (a :: t.takeWhile (wordRune u)).length c) c.pos).raw = _
      rw [mkTok_raw _ hw, h]
      simp only [List.length_cons, List.take_succ_cons]
      congr 1
      exact (List.prefix_iff_eq_take.mp (List.takeWhile_prefix _)).symm
    simp only [hraw, isReservedWord_eq]
    split
    · simp only [outcome]; rfl
    · simp only [outcome]; rfl
  · simp [h1]

theorem procSpace_cons (u : Uni) (h : c.rest = a :: t) {fuel : Nat} (hf : c.rest.length < fuel) :
    procSpace u fuel c =
      if u.isSpace a then outcome c (.tok .space (1 + (t.takeWhile u.isSpace).length))
      else some (c, none) := by
  have ht : c.rest.tail = t := by rw [h]; rfl
  have hlen : t.length < fuel := by rw [h] at hf; simp at hf; omega
  simp only [procSpace, current_cons h]
  by_cases h1 : u.isSpace a = true
  · simp only [h1, if_true]
    have hs := lenUntil_le (fun c => !u.isSpace c) t
    have := goLoop_stop (fun c => !u.isSpace c) (by simp [uni_nul_space]) (spaceBody u)
      (by intro c; simp only [spaceBody]; cases u.isSpace c.next.2 <;> simp) fuel c
    rw [ht] at this
    rw [this, if_pos (by omega)]
    simp only [outcome, takeWhile_lenUntil]
    rw [Nat.add_comm 1]
  · simp [h1]

end

theorem IsOrder.mem {order : List (Char × Char)} (h : IsOrder order) (x : Char × Char) :
    x ∈ order ↔ x ∈ symbolPairs := h.mem_iff

theorem runProcs_cons (p : Cursor → ProcRes) (ps : List (Cursor → ProcRes)) (c : Cursor) :
    runProcs (p :: ps) c =
      match p c with
      | none => none
      | some (c', some t) => some (c', some t)
      | some (c', none) => runProcs ps c' := rfl

/-- One round over the processors gives the first lexeme of the remaining text. -/
theorem runProcs_spec (u : Uni) {order : List (Char × Char)} (ho : IsOrder order) {c : Cursor} (hc : c.WF)
    {fuel : Nat} (hf : c.rest.length < fuel) :
    runProcs (processors u order fuel) c = outcome c (lexOne u c.rest) := by
  cases h : c.rest with
  | nil =>
    have : c.current = NUL := by rw [current_eq, h]; rfl
    simp only [processors, runProcs, procEof, this, if_true, lexOne, outcome]
  | cons a t =>
    simp only [processors, lexOne, runProcs_cons]
    rw [procEof_cons h]
    by_cases h0 : a = NUL
    · simp [h0, outcome]
    simp only [h0, if_false]
    rw [procComment_cons hc h hf]
    by_cases h1 : a = '{'
    · simp [h1, outcome]
    simp only [h1, if_false]
    by_cases h2 : a = '/' ∧ t.head? = some '/'
    · simp [h2, outcome]
    simp only [h2, if_false]
    by_cases h3 : a = '(' ∧ t.head? = some '*'
    · simp [h3, outcome]
    simp only [h3, if_false]
    rw [procString_cons h hf]
    by_cases h4 : a = '\''
    · simp only [h4, if_true]
      cases quoteLen NUL t <;> simp [outcome]
    simp only [h4, if_false]
    rw [procNumeral_cons h hf]
    by_cases h5 : startsNumeral (a :: t) = true
    · simp [h5, outcome]
    simp only [h5, if_false, Bool.false_eq_true]
    rw [procDouble_cons h ho.mem]
    by_cases h6 : startsPair (a :: t) = true
    · simp [h6, outcome]
    simp only [h6, if_false, Bool.false_eq_true]
    rw [procSingle_cons h]
    by_cases h7 : symbolRunes.contains a = true
    · simp only [h7, outcome]; rfl
    simp only [h7, if_false, Bool.false_eq_true]
    rw [procWord_cons u h hf]
    by_cases h8 : wordHead u a = true
    · simp only [h8, if_true, outcome]
    simp only [h8, if_false, Bool.false_eq_true]
    rw [procSpace_cons u h hf]
    by_cases h9 : u.isSpace a = true
    · simp only [h9, if_true, outcome]
    simp [h9, outcome, runProcs]

/-! ## lengths -/

theorem lexOne_bounds {u : Uni} {s : Str} {ty : TType} {n : Nat} (h : lexOne u s = .tok ty n) :
    0 < n ∧ n ≤ s.length ∧ ty ≠ .eof := by
  cases s with
  | nil => simp [lexOne] at h
  | cons a t =>
    simp only [lexOne] at h
    split at h
    · cases h
    split at h
    · injection h with h1 h2; subst h1; subst h2
      simp only [List.length_cons]
      refine ⟨by omega, by omega, by decide⟩
    split at h
    · injection h with h1 h2; subst h1; subst h2
      have := lenUntil_le (fun c => c == '\n' || c == NUL) t
      simp only [List.length_cons]
      refine ⟨by omega, by omega, by decide⟩
    split at h
    · injection h with h1 h2; subst h1; subst h2
      have := starLen_le t
      simp only [List.length_cons]
      refine ⟨by omega, by omega, by decide⟩
    split at h
    · cases hq : quoteLen NUL t with
      | none => rw [hq] at h; cases h
      | some n =>
        rw [hq] at h
        injection h with h1 h2; subst h1; subst h2
        have := quoteLen_bounds hq
        simp only [List.length_cons]
        refine ⟨by omega, by omega, by decide⟩
    split at h
    · injection h with h1 h2; subst h2
      have := numTail_le t
      simp only [List.length_cons]
      refine ⟨by omega, by omega, ?_⟩
      rw [← h1]; unfold numTail; split <;> simp
    split at h
    · rename_i hp
      injection h with h1 h2; subst h1; subst h2
      cases t with
      | nil => simp [startsPair, startsWithPair] at hp
      | cons b t => simp
    split at h
    · injection h with h1 h2; subst h1; subst h2; simp
    split at h
    · injection h with h1 h2; subst h2
      have := (List.takeWhile_prefix (l := t) (wordRune u)).length_le
      simp only [List.length_cons]
      refine ⟨by omega, by omega, ?_⟩
      rw [← h1]; split <;> decide
    split at h
    · injection h with h1 h2; subst h1; subst h2
      have := (List.takeWhile_prefix (l := t) u.isSpace).length_le
      simp only [List.length_cons]
      refine ⟨by omega, by omega, by decide⟩
    · cases h

/-! ## fuel -/

theorem goLoop_mono {σ β : Type} {body : σ → σ ⊕ β} {n m : Nat} {s : σ} {b : β} (hnm : n ≤ m)
    (h : goLoop body n s = some b) : goLoop body m s = some b := by
  induction n generalizing m s with
  | zero => cases h
  | succ n ih =>
    cases m with
    | zero => omega
    | succ m =>
      simp only [goLoop] at h ⊢
      cases hb : body s with
      | inr b' => rw [hb] at h; exact h
      | inl s' => rw [hb] at h; exact ih (by omega) h

theorem procComment_mono {n m : Nat} {c : Cursor} {r} (hnm : n ≤ m) (h : procComment n c = some r) :
    procComment m c = some r := by
  simp only [procComment] at h ⊢
  split
  · rename_i h1; simp only [h1, if_true] at h
    cases hg : goLoop braceBody n c with
    | none => rw [hg] at h; cases h
    | some c' => rw [hg] at h; rw [goLoop_mono hnm hg]; exact h
  · rename_i h1; simp only [h1, if_false] at h
    split
    · rename_i h2; simp only [h2, if_true] at h
      split
      · rename_i h3; simp only [h3, if_true] at h
        cases hg : goLoop slashBody n c with
        | none => rw [hg] at h; cases h
        | some c' => rw [hg] at h; rw [goLoop_mono hnm hg]; exact h
      · rename_i h3; simp only [h3, if_false] at h; exact h
    · rename_i h2; simp only [h2, if_false] at h
      split
      · rename_i h3; simp only [h3, if_true] at h
        split
        · rename_i h4; simp only [h4, if_true] at h
          cases hg : goLoop parenBody n c with
          | none => rw [hg] at h; cases h
          | some c' => rw [hg] at h; rw [goLoop_mono hnm hg]; exact h
        · rename_i h4; simp only [h4, if_false] at h; exact h
      · rename_i h3; simp only [h3, if_false] at h; exact h

theorem procString_mono {n m : Nat} {c : Cursor} {r} (hnm : n ≤ m) (h : procString n c = some r) :
    procString m c = some r := by
  simp only [procString] at h ⊢
  split
  · rename_i h1; simp only [h1, if_true] at h
    cases hg : goLoop stringBody n (c, NUL) with
    | none => rw [hg] at h; cases h
    | some c' => rw [hg] at h; rw [goLoop_mono hnm hg]; exact h
  · rename_i h1; simp only [h1, if_false] at h; exact h

theorem procNumeral_mono {n m : Nat} {c : Cursor} {r} (hnm : n ≤ m) (h : procNumeral n c = some r) :
    procNumeral m c = some r := by
  simp only [procNumeral] at h ⊢
  split
  · rename_i h1; simp only [h1, if_true] at h
    cases hg : goLoop numeralBody n (c, .numInt) with
    | none => rw [hg] at h; cases h
    | some c' => rw [hg] at h; rw [goLoop_mono hnm hg]; exact h
  · rename_i h1; simp only [h1] at h; exact h

theorem procWord_mono {u : Uni} {n m : Nat} {c : Cursor} {r} (hnm : n ≤ m) (h : procWord u n c = some r) :
    procWord u m c = some r := by
  simp only [procWord] at h ⊢
  split
  · rename_i h1; simp only [h1, if_true] at h
    cases hg : goLoop (wordBody u) n c with
    | none => rw [hg] at h; cases h
    | some c' => rw [hg] at h; rw [goLoop_mono hnm hg]; exact h
  · rename_i h1; simp only [h1] at h; exact h

theorem procSpace_mono {u : Uni} {n m : Nat} {c : Cursor} {r} (hnm : n ≤ m) (h : procSpace u n c = some r) :
    procSpace u m c = some r := by
  simp only [procSpace] at h ⊢
  split
  · rename_i h1; simp only [h1, if_true] at h
    cases hg : goLoop (spaceBody u) n c with
    | none => rw [hg] at h; cases h
    | some c' => rw [hg] at h; rw [goLoop_mono hnm hg]; exact h
  · rename_i h1; simp only [h1] at h; exact h

theorem runProcs_step_mono {p q : Cursor → ProcRes} {ps qs : List (Cursor → ProcRes)}
    (hp : ∀ c r, p c = some r → q c = some r) (hps : ∀ c r, runProcs ps c = some r → runProcs qs c = some r)
    (c : Cursor) (r) (h : runProcs (p :: ps) c = some r) : runProcs (q :: qs) c = some r := by
  rw [runProcs_cons] at h ⊢
  cases hc : p c with
  | none => rw [hc] at h; cases h
  | some ct =>
    rw [hc] at h; rw [hp c _ hc]
    obtain ⟨c', t⟩ := ct
    cases t with
    | some t => exact h
    | none => exact hps _ _ h

theorem runProcs_mono {u : Uni} {order : List (Char × Char)} {n m : Nat} {c : Cursor} {r} (hnm : n ≤ m)
    (h : runProcs (processors u order n) c = some r) : runProcs (processors u order m) c = some r := by
  revert h; revert r; revert c
  simp only [processors]
  intro c r
  refine runProcs_step_mono (fun c r h => h) (runProcs_step_mono (fun c r => procComment_mono hnm)
    (runProcs_step_mono (fun c r => procString_mono hnm)
    (runProcs_step_mono (fun c r => procNumeral_mono hnm)
    (runProcs_step_mono (fun c r h => h) (runProcs_step_mono (fun c r h => h)
    (runProcs_step_mono (fun c r => procWord_mono hnm)
    (runProcs_step_mono (fun c r => procSpace_mono hnm) (fun c r h => h)))))))) c r

theorem getNext_mono {u : Uni} {order : List (Char × Char)} {fl : Flags} {n m : Nat} {c : Cursor} {r}
    (hnm : n ≤ m) (h : getNext u order fl n c = some r) : getNext u order fl m c = some r := by
  induction n generalizing m c with
  | zero => cases h
  | succ n ih =>
    cases m with
    | zero => omega
    | succ m =>
      simp only [getNext] at h ⊢
      cases hr : runProcs (processors u order n) c with
      | none => rw [hr] at h; cases h
      | some ct =>
        rw [hr] at h; rw [runProcs_mono (by omega) hr]
        obtain ⟨c', t⟩ := ct
        cases t with
        | none => exact h
        | some t =>
          simp only at h ⊢
          split
          · rename_i h1; rw [if_pos h1] at h; exact ih (by omega) h
          · rename_i h1; rw [if_neg h1] at h
            split
            · rename_i h2; rw [if_pos h2] at h; exact ih (by omega) h
            · rename_i h2; rw [if_neg h2] at h; exact h

end TP
