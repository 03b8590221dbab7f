import Verif.Spec.Stmt
import Verif.Lemmas.ExprSound

/-!
# Steps of the statement parser
-/

namespace TP
open Spec

variable {κ δ τ : Type}

/-- from `s` to `s'` exactly the tokens `used` are consumed -/
structure Eat (s : PS κ) (used : List Token) (s' : PS κ) : Prop where
  ts : s.ts = used ++ s'.ts
  tail : s'.tail = s.tail

theorem Eat.refl (s : PS κ) : Eat s [] s := ⟨rfl, rfl⟩
theorem Eat.trans {s s' s'' : PS κ} {a b : List Token} (h : Eat s a s') (h' : Eat s' b s'') : Eat s (a ++ b) s'' :=
  ⟨by rw [h.ts, h'.ts, List.append_assoc], h'.tail.trans h.tail⟩
theorem Eat.cons {s s' s'' : PS κ} {t : Token} {b : List Token} (h : Eat s [t] s') (h' : Eat s' b s'') :
    Eat s (t :: b) s'' := h.trans h'
theorem Eat.len {s s' : PS κ} {a : List Token} (h : Eat s a s') : s.ts.length = a.length + s'.ts.length := by
  rw [h.ts, List.length_append]
theorem Adv.eat {E : Env κ δ} {s s' : PS κ} {a : List Token} (h : Adv E s a s') : Eat s a s' := ⟨h.ts, h.tail⟩

/-- What is fixed while statements are parsed.  `R k c`: the context `c` of the parser stands for `k`; with `L` it
answers like it.  `Good` holds of the tokens left. -/
structure SBase (u : Uni) (S : SEnv κ δ τ) (DTy : κ → τ → List Token → κ → Prop) (R : κ → κ → Prop)
    (Good : List Token → Prop) (tl : Tail) (Pp Pw L : Prop) : Prop where
  roll : ∀ k c, R k c → R k (S.rollback c)
  get : L → ∀ k c, R k c → ∀ name, S.get c name = S.get k name
  member : L → ∀ k c, R k c → ∀ d name, S.member c d name = S.member k d name
  nil : tl = .nil → Pp
  hang : tl = .hang → Pw
  ns : ∀ k c, R k c → ∀ t1 t2 t3 ts d, Good (t1 :: t2 :: t3 :: ts) → t1.typ = .ident → IsSym r!"." t2 →
    S.get c t1.raw = some d → S.member c d t3.raw = .panic → Pp
  set : ∀ k c, R k c → ∀ i ty, match S.setHandler c i ty with
    | .ok c' => ∃ k', R k' c' ∧ (L → S.setHandler k i ty = .ok k')
    | .err => True
    | .panic => Pp
  good : ∀ t ts, Good (t :: ts) → Good ts
  asm : ∀ t ts, Good (t :: ts) → IsKw u r!"ASM" t → (∀ x ∈ ts.tail, ¬ IsKw u r!"END" x) → Pw
  type : ∀ n s k, s.tail = tl → R k s.cx → Good s.ts → (n < 10 * s.ts.length + 10 → Pw) →
    wp (S.parseType n) s (fun ty s' => ∃ used k', Eat s used s' ∧ R k' s'.cx ∧ DTy k ty used k') Pp Pw

variable {u : Uni} {S : SEnv κ δ τ} {DTy : κ → τ → List Token → κ → Prop} {R : κ → κ → Prop}
  {Good : List Token → Prop} {tl : Tail} {Pp Pw L : Prop}

/-- the state belongs to this parse, in the context `k` -/
structure At (R : κ → κ → Prop) (Good : List Token → Prop) (tl : Tail) (k : κ) (s : PS κ) : Prop where
  tail : s.tail = tl
  cx : R k s.cx
  good : Good s.ts

theorem kw_ne_eof {c : Str} {t : Token} (h : IsKw u c t) : t.typ ≠ .eof := by rw [h.1]; decide
theorem sym_ne_eof {c : Str} {t : Token} (h : IsSym c t) : t.typ ≠ .eof := by rw [h.1]; decide

theorem value_ne_nil {t : Token} (h : t.raw = []) : t.value u = [] := by
  unfold Token.value; rw [h]; split <;> rfl

theorem val_raw {t : Token} {s : Str} (h : t.value u = s) (hs : s ≠ []) : t.raw ≠ [] := by
  intro e; rw [value_ne_nil e] at h; exact hs h.symm

theorem up_raw {t : Token} {s : Str} (h : IsUp u s t) (hs : s ≠ []) : t.raw ≠ [] := by
  intro e; unfold IsUp at h; rw [value_ne_nil e] at h; exact hs h.symm

theorem upper_iff {s : Str} {t : Token} : Pred.upperCase u s t = true ↔ IsUp u s t := by
  simp [Pred.upperCase, IsUp]

/-- `Current(pred)` before `NextToken()` only adds an error -/
theorem wp_current_skip {α : Type} {s : PS κ} {pred : Pred} {g : Unit → P κ α} {Q : α → PS κ → Prop}
    (h : wp (P.next >>= g) s Q Pp Pw) : wp (P.current pred >>= fun _ => P.next >>= g) s Q Pp Pw := by
  rw [wp_bind]
  unfold P.current
  rw [wp_bind]
  obtain ⟨ts, tl, cx⟩ := s
  cases ts with
  | nil =>
    cases tl with
    | eof x p =>
      show wp (if pred (eofTok x p) then pure (eofTok x p) else P.fail) _ _ Pp Pw
      by_cases c : pred (eofTok x p) = true
      · rw [if_pos c]; exact h
      · rw [if_neg c]; trivial
    | nil => trivial
    | hang => exact h
  | cons t ts =>
    show wp (if pred t then pure t else P.fail) _ _ Pp Pw
    by_cases c : pred t = true
    · rw [if_pos c]; exact h
    · rw [if_neg c]; trivial

section
variable (B : SBase u S DTy R Good tl Pp Pw L)
include B

theorem SBase.goods {a b : List Token} (h : Good (a ++ b)) : Good b := by
  induction a with
  | nil => exact h
  | cons t a ih => exact ih (B.good _ _ h)

theorem SBase.at {k k' : κ} {s s' : PS κ} {used : List Token} (hs : At R Good tl k s) (a : Eat s used s')
    (h : R k' s'.cx) : At R Good tl k' s' :=
  ⟨a.tail.trans hs.tail, h, B.goods (a.ts ▸ hs.good)⟩

theorem SBase.base (k : κ) : Base S.toEnv ⟨R k, B.roll k, Good, B.good⟩ k tl Pp Pw L where
  law l := ⟨fun c h => B.get l k c h, fun c h => B.member l k c h⟩
  nil := B.nil
  hang := B.hang
  ns c h := B.ns k c h

variable {k : κ} {s : PS κ} (hs : At R Good tl k s)
include hs

theorem At.into : In S.toEnv ⟨R k, B.roll k, Good, B.good⟩ tl s := ⟨hs.tail, hs.cx, hs.good⟩
theorem SBase.nil' : s.tail = .nil → Pp := by rw [hs.tail]; exact B.nil
theorem SBase.hang' : s.tail = .hang → Pw := by rw [hs.tail]; exact B.hang

variable {α β : Type} {Q : α → PS κ → Prop}

/-- `P.next` on a known token -/
theorem SBase.next {t : Token} {ts : List Token} (h : s.ts = t :: ts) {f : Unit → P κ α}
    (hf : ∀ s', Eat s [t] s' → At R Good tl k s' → s'.ts = ts → s'.cx = s.cx → wp (f ()) s' Q Pp Pw) :
    wp (P.next >>= f) s Q Pp Pw :=
  wp_next_cons h (B.hang' hs) fun s' h1 h2 h3 =>
    have a : Eat s [t] s' := ⟨by rw [h, h1]; rfl, h2⟩
    hf s' a (B.at hs a (by rw [h3]; exact hs.cx)) h1 h3

/-- `Current(pred)` followed by `NextToken()` -/
theorem SBase.eat {pred : Pred} (hne : ∀ t, pred t = true → t.typ ≠ .eof ∨ t.raw ≠ []) {f : Token → Unit → P κ α}
    (hf : ∀ t s', pred t = true → Eat s [t] s' → At R Good tl k s' → s'.cx = s.cx → wp (f t ()) s' Q Pp Pw) :
    wp (P.current pred >>= fun t => P.next >>= f t) s Q Pp Pw := by
  refine wp_current_bind (B.hang' hs) fun t ht hp => ?_
  obtain ⟨ts, hts⟩ : ∃ ts, s.ts = t :: ts := by
    rcases hne t hp with h | h
    · exact tok_cons ht h
    · exact tok_cons_raw ht h
  exact B.next hs hts fun s' a h1 _ h2 => hf t s' hp a h1 h2

theorem SBase.eatKw {c : Str} {f : Token → Unit → P κ α}
    (hf : ∀ t s', IsKw u c t → Eat s [t] s' → At R Good tl k s' → wp (f t ()) s' Q Pp Pw) :
    wp (P.current (kw u c) >>= fun t => P.next >>= f t) s Q Pp Pw :=
  B.eat hs (fun _ h => .inl (kw_ne_eof (kw_iff.1 h))) fun t s' h a h1 _ => hf t s' (kw_iff.1 h) a h1

theorem SBase.eatSym {c : Str} {f : Token → Unit → P κ α}
    (hf : ∀ t s', IsSym c t → Eat s [t] s' → At R Good tl k s' → wp (f t ()) s' Q Pp Pw) :
    wp (P.current (sym c) >>= fun t => P.next >>= f t) s Q Pp Pw :=
  B.eat hs (fun _ h => .inl (sym_ne_eof (symbol_iff.1 h))) fun t s' h a h1 _ => hf t s' (symbol_iff.1 h) a h1

theorem SBase.eatUp {c : Str} (hc : c ≠ []) {f : Token → Unit → P κ α}
    (hf : ∀ t s', IsUp u c t → Eat s [t] s' → At R Good tl k s' → wp (f t ()) s' Q Pp Pw) :
    wp (P.current (Pred.upperCase u c) >>= fun t => P.next >>= f t) s Q Pp Pw :=
  B.eat hs (fun _ h => .inr (up_raw (upper_iff.1 h) hc)) fun t s' h a h1 _ => hf t s' (upper_iff.1 h) a h1

/-- `CurrentToken().Is(pred)` -/
theorem SBase.is {pred : Pred} {f : Bool → P κ α} (h1 : ∀ t, s.tok? = some t → pred t = true → wp (f true) s Q Pp Pw)
    (h2 : ∀ t, s.tok? = some t → ¬ pred t = true → wp (f false) s Q Pp Pw) : wp (P.is pred >>= f) s Q Pp Pw := by
  refine wp_is_bind (B.nil' hs) (B.hang' hs) fun t ht => ?_
  by_cases c : pred t = true
  · rw [c]; exact h1 t ht c
  · have c' := c
    rw [Bool.not_eq_true] at c'; rw [c']; exact h2 t ht c

theorem SBase.of_sound {p : P κ β} {fl : β → List Leaf} {fit : β → Prop} {n r : Nat}
    (hp : Sound u S.toEnv ⟨R k, B.roll k, Good, B.good⟩ tl Pp Pw L p fl fit n r) (hf : n < 10 * s.ts.length + r → Pw) {f : β → P κ α}
    (h : ∀ a s' used, Eat s used s' → At R Good tl k s' → Leaves u (fl a) used ∧ (L → fit a) → wp (f a) s' Q Pp Pw) :
    wp (p >>= f) s Q Pp Pw :=
  hp.bind (At.into B hs) hf fun a s' used hs' ad l ft => h a s' used ad.eat (B.at hs ad.eat hs'.cx) ⟨l, ft⟩

theorem SBase.expr {n : Nat} (hf : n < 10 * s.ts.length + 7 → Pw) {f : Expr δ → P κ α}
    (h : ∀ e s' used, Eat s used s' → At R Good tl k s' → DExpr u S L k e used → wp (f e) s' Q Pp Pw) :
    wp (parseExpr u S.toEnv n >>= f) s Q Pp Pw :=
  B.of_sound hs (all_sound (B.base k) n).expr hf h

theorem SBase.desig {n : Nat} (hf : n < 10 * s.ts.length + 2 → Pw) {f : Desig δ → P κ α}
    (h : ∀ e s' used, Eat s used s' → At R Good tl k s' → DDesig u S L k e used → wp (f e) s' Q Pp Pw) :
    wp (parseDesig u S.toEnv n >>= f) s Q Pp Pw :=
  B.of_sound hs (all_sound (B.base k) n).desig hf h

theorem SBase.qual {f : QualId δ → P κ α}
    (h : ∀ e s' used, Eat s used s' → At R Good tl k s' → 1 ≤ used.length → DQual u S L k e used → wp (f e) s' Q Pp Pw) :
    wp (parseQualId u S.toEnv >>= f) s Q Pp Pw := by
  rw [wp_bind]
  refine wp_mono (qualId_sound (B.base k) (At.into B hs)) ?_ id id
  rintro q s' ⟨used, ad, l, ft, hlen⟩
  exact h q s' used ad.eat (B.at hs ad.eat ((At.into B hs).adv ad).cx) hlen ⟨l, ft⟩

/-- `ParseExprList(')')` followed by `Current(')')` and `NextToken()` -/
theorem SBase.args {n : Nat} (hf : n < 10 * s.ts.length + 8 → Pw) {f : Exprs δ → P κ α}
    (h : ∀ e s' used c, Eat s (used ++ [c]) s' → At R Good tl k s' → IsSym r!")" c → DExprs u S L k e used →
      wp (f e) s' Q Pp Pw) :
    wp (parseExprs u S.toEnv (sym r!")") n >>= fun es => P.current (sym r!")") >>= fun _ => P.next >>= fun _ => f es) s Q Pp Pw := by
  rw [wp_bind]
  refine wp_mono (wp_bind.1 (?_ : wp (parseExprs u S.toEnv (sym r!")") n >>= fun es => P.next >>= fun _ => f es) s Q Pp Pw))
    (fun _ _ h => wp_current_skip h) id id
  rw [bind_next_pure]
  refine B.of_sound hs ((all_sound (B.base k) n).exprs r!")") hf ?_
  rintro es s' used a1 h1 ⟨l, ft⟩
  obtain ⟨x, y, rfl, lx, ly⟩ := leaves_split l
  obtain ⟨c, y', rfl, hc, hy⟩ := leaves_uncons ly
  cases y' with
  | cons => exact hy.elim
  | nil => exact h es s' x c a1 h1 hc ⟨lx, ft⟩

end

end TP
