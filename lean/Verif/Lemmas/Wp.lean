import Verif.Spec.Expr

/-!
# Reasoning about parser functions

`wp p s Q Pp Pw`: if `p` started in `s` returns a value then `Q` holds of the value and the new state, if it panics
then `Pp`, and if it does not return then `Pw`.
-/

namespace TP
open Spec

variable {κ α β : Type}

def wp (p : P κ α) (s : PS κ) (Q : α → PS κ → Prop) (Pp Pw : Prop) : Prop :=
  match p s with
  | .ok a s' => Q a s'
  | .err => True
  | .panic => Pp
  | .wait => Pw

/-- the current token (`CurrentToken`), if it is not nil -/
def PS.tok? (s : PS κ) : Option Token :=
  match s.ts, s.tail with
  | t :: _, _ => some t
  | [], .eof x p => some (eofTok x p)
  | [], _ => none

theorem PS.tok?_cons (t : Token) (ts : List Token) (tl : Tail) (cx : κ) :
    (PS.mk (t :: ts) tl cx).tok? = some t := rfl

theorem eofTok_raw (x : Str) (p : Pos) : (eofTok x p).raw = [] := by
  simp [eofTok, Token.raw]

section
variable {s : PS κ} {Q : α → PS κ → Prop} {Pp Pw : Prop}

theorem wp_bind {p : P κ β} {f : β → P κ α} :
    wp (p >>= f) s Q Pp Pw ↔ wp p s (fun a s' => wp (f a) s' Q Pp Pw) Pp Pw := by
  show wp (P.bind p f) s Q Pp Pw ↔ _
  unfold wp P.bind
  cases p s <;> rfl

theorem wp_pure {a : α} : wp (pure a : P κ α) s Q Pp Pw ↔ Q a s := Iff.rfl
theorem wp_fail : wp (P.fail : P κ α) s Q Pp Pw ↔ True := Iff.rfl
theorem wp_wait : wp (P.wait : P κ α) s Q Pp Pw ↔ Pw := Iff.rfl
theorem wp_panic : wp (P.panic : P κ α) s Q Pp Pw ↔ Pp := Iff.rfl

theorem wp_mono {p : P κ α} {Q' : α → PS κ → Prop} {Pp' Pw' : Prop}
    (h : wp p s Q Pp Pw) (hq : ∀ a s', Q a s' → Q' a s') (hp : Pp → Pp') (hw : Pw → Pw') :
    wp p s Q' Pp' Pw' := by
  unfold wp at *
  cases e : p s <;> rw [e] at h <;> simp only at h ⊢
  · exact hq _ _ h
  · exact hp h
  · exact hw h

theorem wp_cur {Q : Token → PS κ → Prop} (h : ∀ t, s.tok? = some t → Q t s) (hp : s.tail = .nil → Pp)
    (hw : s.tail = .hang → Pw) : wp P.cur s Q Pp Pw := by
  obtain ⟨ts, tl, cx⟩ := s
  cases ts with
  | cons t ts => exact h t rfl
  | nil =>
    cases tl with
    | eof x p => exact h _ rfl
    | nil => exact hp rfl
    | hang => exact hw rfl

theorem wp_cur? {Q : Option Token → PS κ → Prop} (h : ∀ t, s.tok? = some t → Q (some t) s)
    (hn : s.tail = .nil → s.ts = [] → Q none s) (hw : s.tail = .hang → Pw) : wp P.cur? s Q Pp Pw := by
  obtain ⟨ts, tl, cx⟩ := s
  cases ts with
  | cons t ts => exact h t rfl
  | nil =>
    cases tl with
    | eof x p => exact h _ rfl
    | nil => exact hn rfl rfl
    | hang => exact hw rfl

theorem wp_next {Q : Unit → PS κ → Prop} (h : Q () { s with ts := s.ts.tail })
    (hw : s.tail = .hang → Pw) : wp P.next s Q Pp Pw := by
  obtain ⟨ts, tl, cx⟩ := s
  cases ts with
  | nil => cases tl <;> first | exact h | exact hw rfl
  | cons t ts =>
    cases ts with
    | nil => cases tl <;> first | exact h | exact hw rfl
    | cons t' ts => exact h

theorem wp_is {pred : Pred} {Q : Bool → PS κ → Prop} (h : ∀ t, s.tok? = some t → Q (pred t) s)
    (hp : s.tail = .nil → Pp) (hw : s.tail = .hang → Pw) : wp (P.is pred) s Q Pp Pw := by
  unfold P.is
  rw [wp_bind]
  exact wp_cur (fun t ht => h t ht) hp hw

theorem wp_current {pred : Pred} {Q : Token → PS κ → Prop} (h : ∀ t, s.tok? = some t → pred t = true → Q t s)
    (hw : s.tail = .hang → Pw) : wp (P.current pred) s Q Pp Pw := by
  unfold P.current
  rw [wp_bind]
  refine wp_cur? (fun t ht => ?_) (fun _ _ => trivial) hw
  by_cases e : pred t = true
  · simp only [e, if_true]; exact h t ht e
  · simp only [e]; exact trivial

theorem wp_nextIs {pred : Pred} {Q : Token → PS κ → Prop}
    (h : ∀ t, PS.tok? { s with ts := s.ts.tail } = some t → pred t = true → Q t { s with ts := s.ts.tail })
    (hw : s.tail = .hang → Pw) : wp (P.nextIs pred) s Q Pp Pw := by
  unfold P.nextIs
  rw [wp_bind]
  exact wp_next (wp_current h hw) hw

end

/-! ## Predicates -/

section
variable {u : Uni} {t : Token}

theorem runesEqual_iff {a b : Str} : runesEqual a b = true ↔ a = b := by
  induction a generalizing b with
  | nil => cases b <;> simp [runesEqual]
  | cons x a ih => cases b <;> simp [runesEqual, ih]

theorem symbol_iff {s : Str} : Pred.symbol s t = true ↔ IsSym s t := by
  unfold Pred.symbol IsSym
  by_cases h : t.typ = .symbol
  · simp [h, runesEqual_iff]
  · simp [h]

theorem kw_iff {s : Str} : kw u s t = true ↔ IsKw u s t := by
  unfold kw IsKw Token.value
  by_cases h : t.typ = .reserved <;> simp [h]

theorem hasText_sym_iff {s : Str} : Pred.hasText u .symbol s t = true ↔ IsSym s t := by
  unfold Pred.hasText IsSym Token.value
  by_cases h : t.typ = .symbol <;> simp [h]

theorem value_of_ne (h : t.typ ≠ .reserved) : t.value u = t.raw := by
  unfold Token.value; split
  · rename_i e; exact absurd e h
  · rfl

theorem value_reserved (h : t.typ = .reserved) : t.value u = u.toUpper t.raw := by
  unfold Token.value; rw [h]

theorem some_iff {ps : List Pred} : Pred.some ps t = true ↔ ∃ p ∈ ps, p t = true := by
  simp [Pred.some]

theorem relOp_iff : relOp u t = true ↔ IsOp u relSyms relWords t := by
  unfold relOp IsOp relSyms relWords
  rw [some_iff]
  simp [symbol_iff, kw_iff, hasText_sym_iff, or_assoc]

theorem addOp_iff : addOp u t = true ↔ IsOp u addSyms addWords t := by
  unfold addOp IsOp addSyms addWords
  rw [some_iff]
  simp [symbol_iff, kw_iff, or_assoc]

theorem unaryOp_iff : unaryOp t = true ↔ ∃ s ∈ addSyms, IsSym s t := by
  unfold unaryOp addSyms
  rw [some_iff]
  simp [symbol_iff]

theorem mulOp_iff : mulOp u t = true ↔ IsOp u mulSyms mulWords t := by
  unfold mulOp IsOp mulSyms mulWords
  rw [some_iff]
  simp [symbol_iff, kw_iff, or_assoc]

theorem identP_iff : Pred.some [Pred.typ .ident] t = true ↔ t.typ = .ident := by
  rw [some_iff]; simp [Pred.typ]

theorem typ_iff {ty : TType} : Pred.typ ty t = true ↔ t.typ = ty := by
  simp [Pred.typ]

theorem manifest_iff {v : Str} : isManifest u v = true ↔ Manifest u v := by
  unfold isManifest Manifest
  simp [or_comm]

end

/-! ## Lists of leaves -/

section
variable {u : Uni}

theorem leaves_nil : Leaves u [] [] := trivial
theorem leaves_cons {l : Leaf} {ls : List Leaf} {t : Token} {ts : List Token} (h : l.Is u t) (hs : Leaves u ls ts) :
    Leaves u (l :: ls) (t :: ts) := ⟨h, hs⟩
theorem leaves_one {l : Leaf} {t : Token} (h : l.Is u t) : Leaves u [l] [t] := ⟨h, trivial⟩

theorem leaves_append {a b : List Leaf} {x y : List Token} (h : Leaves u a x) (k : Leaves u b y) :
    Leaves u (a ++ b) (x ++ y) := by
  induction a generalizing x with
  | nil =>
    cases x with
    | nil => exact k
    | cons => exact h.elim
  | cons l a ih =>
    cases x with
    | nil => exact h.elim
    | cons t x => exact ⟨h.1, ih h.2⟩

theorem leaves_split {a b : List Leaf} {ts : List Token} (h : Leaves u (a ++ b) ts) :
    ∃ x y, ts = x ++ y ∧ Leaves u a x ∧ Leaves u b y := by
  induction a generalizing ts with
  | nil => exact ⟨[], ts, rfl, trivial, h⟩
  | cons l a ih =>
    cases ts with
    | nil => exact h.elim
    | cons t ts =>
      obtain ⟨x, y, rfl, hx, hy⟩ := ih h.2
      exact ⟨t :: x, y, rfl, ⟨h.1, hx⟩, hy⟩

theorem leaves_uncons {l : Leaf} {b : List Leaf} {ts : List Token} (h : Leaves u (l :: b) ts) :
    ∃ t y, ts = t :: y ∧ l.Is u t ∧ Leaves u b y := by
  cases ts with
  | nil => exact h.elim
  | cons t ts => exact ⟨t, ts, rfl, h.1, h.2⟩

theorem leaves_length {a : List Leaf} {ts : List Token} (h : Leaves u a ts) : ts.length = a.length := by
  induction a generalizing ts with
  | nil => cases ts with | nil => rfl | cons => exact h.elim
  | cons l a ih => cases ts with | nil => exact h.elim | cons t ts => simp [ih h.2]

end

/-! ## Advancing -/

section
variable {δ : Type} {E : Env κ δ}

/-- from `s` to `s'` exactly the tokens `used` are consumed and the context is at most replaced by clones -/
structure Adv (E : Env κ δ) (s : PS κ) (used : List Token) (s' : PS κ) : Prop where
  ts : s.ts = used ++ s'.ts
  tail : s'.tail = s.tail
  cx : Rolls E s.cx s'.cx

theorem Rolls.trans {k k' k'' : κ} (h : Rolls E k k') (h' : Rolls E k' k'') : Rolls E k k'' := by
  induction h with
  | refl => exact h'
  | step _ ih => exact .step (ih h')

theorem Adv.refl (s : PS κ) : Adv E s [] s := ⟨rfl, rfl, .refl _⟩

theorem Adv.trans {s s' s'' : PS κ} {a b : List Token} (h : Adv E s a s') (h' : Adv E s' b s'') :
    Adv E s (a ++ b) s'' :=
  ⟨by rw [h.ts, h'.ts, List.append_assoc], h'.tail.trans h.tail, Rolls.trans h.cx h'.cx⟩

theorem Adv.cons {s s' s'' : PS κ} {t : Token} {b : List Token} (h : Adv E s [t] s') (h' : Adv E s' b s'') :
    Adv E s (t :: b) s'' := h.trans h'

theorem Adv.len {s s' : PS κ} {a : List Token} (h : Adv E s a s') : s.ts.length = a.length + s'.ts.length := by
  rw [h.ts, List.length_append]

/-- a current token that is not the end-of-file token is the first of the list -/
theorem tok_cons {s : PS κ} {t : Token} (h : s.tok? = some t) (hne : t.typ ≠ .eof) :
    ∃ ts, s.ts = t :: ts := by
  obtain ⟨ts, tl, cx⟩ := s
  cases ts with
  | cons a ts => simp only [PS.tok?] at h; injection h with h; subst h; exact ⟨ts, rfl⟩
  | nil =>
    cases tl with
    | eof x p => simp only [PS.tok?] at h; injection h with h; subst h; exact absurd rfl hne
    | nil => simp [PS.tok?] at h
    | hang => simp [PS.tok?] at h

/-- the same without knowing the type: the raw text is not empty -/
theorem tok_cons_raw {s : PS κ} {t : Token} (h : s.tok? = some t) (hne : t.raw ≠ []) :
    ∃ ts, s.ts = t :: ts := by
  obtain ⟨ts, tl, cx⟩ := s
  cases ts with
  | cons a ts => simp only [PS.tok?] at h; injection h with h; subst h; exact ⟨ts, rfl⟩
  | nil =>
    cases tl with
    | eof x p => simp only [PS.tok?] at h; injection h with h; subst h; exact absurd (eofTok_raw x p) hne
    | nil => simp [PS.tok?] at h
    | hang => simp [PS.tok?] at h

section
variable {Pp Pw : Prop} {Q : α → PS κ → Prop} {s : PS κ} {t : Token} {ts : List Token}

theorem bind_next_pure {p : P κ β} {k : β → P κ α} :
    (p >>= fun a => P.next >>= fun _ => k a) = ((p >>= fun a => P.next >>= fun _ => (pure a : P κ β)) >>= k) := by
  funext s
  show P.bind p _ s = P.bind (P.bind p _) k s
  unfold P.bind
  cases p s with
  | ok a s' =>
    show P.bind P.next _ s' = _
    unfold P.bind
    show _ = match (P.bind P.next (fun _ => (pure a : P κ β)) s') with
      | .ok a s' => k a s' | .err => .err | .panic => .panic | .wait => .wait
    unfold P.bind
    cases P.next s' <;> rfl
  | err => rfl
  | panic => rfl
  | wait => rfl

theorem P.bind_assoc {γ : Type} {p : P κ γ} {f : γ → P κ β} {g : β → P κ α} :
    ((p >>= f) >>= g) = (p >>= fun a => f a >>= g) := by
  funext s
  show P.bind (P.bind p f) g s = P.bind p _ s
  unfold P.bind
  cases p s <;> rfl

theorem wp_cur_cons {f : Token → P κ α} (h : s.ts = t :: ts) (hf : wp (f t) s Q Pp Pw) : wp (P.cur >>= f) s Q Pp Pw := by
  obtain ⟨ts', tl, cx⟩ := s
  cases h
  exact hf

theorem wp_next_cons {f : Unit → P κ α} (h : s.ts = t :: ts) (hw : s.tail = .hang → Pw)
    (hf : ∀ s', s'.ts = ts → s'.tail = s.tail → s'.cx = s.cx → wp (f ()) s' Q Pp Pw) :
    wp (P.next >>= f) s Q Pp Pw := by
  rw [wp_bind]
  exact wp_next (hf _ (by rw [h]; rfl) rfl rfl) hw

theorem wp_is_bind {pred : Pred} {f : Bool → P κ α} (hp : s.tail = .nil → Pp) (hw : s.tail = .hang → Pw)
    (hf : ∀ t, s.tok? = some t → wp (f (pred t)) s Q Pp Pw) : wp (P.is pred >>= f) s Q Pp Pw := by
  rw [wp_bind]; exact wp_is hf hp hw

theorem wp_current_bind {pred : Pred} {f : Token → P κ α} (hw : s.tail = .hang → Pw)
    (hf : ∀ t, s.tok? = some t → pred t = true → wp (f t) s Q Pp Pw) : wp (P.current pred >>= f) s Q Pp Pw := by
  rw [wp_bind]; exact wp_current hf hw

theorem wp_cur?_bind {f : Option Token → P κ α} (hw : s.tail = .hang → Pw)
    (hn : s.tail = .nil → s.ts = [] → wp (f none) s Q Pp Pw)
    (hf : ∀ t, s.tok? = some t → wp (f (some t)) s Q Pp Pw) : wp (P.cur? >>= f) s Q Pp Pw := by
  rw [wp_bind]; exact wp_cur? hf hn hw

theorem wp_cur_bind {f : Token → P κ α} (hp : s.tail = .nil → Pp) (hw : s.tail = .hang → Pw)
    (hf : ∀ t, s.tok? = some t → wp (f t) s Q Pp Pw) : wp (P.cur >>= f) s Q Pp Pw := by
  rw [wp_bind]; exact wp_cur hf hp hw

end

theorem Adv.one {s s' : PS κ} {t : Token} {ts : List Token} (h : s.ts = t :: ts) (h1 : s'.ts = ts)
    (h2 : s'.tail = s.tail) (h3 : s'.cx = s.cx) : Adv E s [t] s' :=
  ⟨by rw [h, h1]; rfl, h2, by rw [h3]; exact .refl _⟩

theorem adv_next {s : PS κ} {t : Token} {ts : List Token} (h : s.ts = t :: ts) :
    Adv E s [t] { s with ts := s.ts.tail } := ⟨by rw [h]; rfl, rfl, .refl _⟩

end

end TP
