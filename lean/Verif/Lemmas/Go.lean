import Verif.Lemmas.StmtSound
import Verif.Lemmas.ExprComplete

/-!
# Completeness of parser functions in terms of token lists and abstract contexts
-/

namespace TP
open Spec

variable {κ δ τ α β : Type}

/-- the current token when `ts` is left -/
def tokOf (tl : Tail) (ts : List Token) : Option Token :=
  match ts, tl with
  | t :: _, _ => some t
  | [], .eof x p => some (eofTok x p)
  | [], _ => none

/-- the current token satisfies `p` -/
def Nxt (tl : Tail) (ts : List Token) (p : Token → Prop) : Prop := ∃ t, tokOf tl ts = some t ∧ p t

/-- the state has these tokens left and stands for the context `k` -/
structure Here (R : κ → κ → Prop) (tl : Tail) (k : κ) (ts : List Token) (s : PS κ) : Prop where
  tail : s.tail = tl
  cx : R k s.cx
  ts : s.ts = ts

/-- With enough fuel `p` returns `a` and leads from `k` and `ts` to `k'` and `ts'`. -/
def Go (R : κ → κ → Prop) (tl : Tail) (p : Nat → P κ α) (k : κ) (ts : List Token) (a : α) (k' : κ) (ts' : List Token) : Prop :=
  ∀ s, Here R tl k ts s → ∃ s', Here R tl k' ts' s' ∧ ∃ N, ∀ n, N ≤ n → p n s = .ok a s'

section
variable {R : κ → κ → Prop} {tl : Tail} {k k1 k' : κ} {ts ts1 ts' : List Token} {a : α} {b : β}

theorem Here.tok {s : PS κ} (h : Here R tl k ts s) : s.tok? = tokOf tl ts := by
  obtain ⟨x, y, z⟩ := s
  obtain ⟨rfl, -, rfl⟩ := h
  rfl

theorem Nxt.mono {p q : Token → Prop} (h : Nxt tl ts p) (hpq : ∀ t, p t → q t) : Nxt tl ts q :=
  h.imp fun _ h => ⟨h.1, hpq _ h.2⟩

theorem Nxt.cons {t : Token} {p : Token → Prop} (h : p t) : Nxt tl (t :: ts) p := ⟨t, rfl, h⟩

theorem Nxt.live {p : Token → Prop} (h : Nxt tl ts p) : Nxt tl ts (fun _ => True) := h.mono fun _ _ => trivial

theorem Go.pure : Go R tl (fun _ => (Pure.pure a : P κ α)) k ts a k ts := fun s hs => ⟨s, hs, 0, fun _ _ => rfl⟩

theorem Go.succ {p : Nat → P κ α} (h : Go R tl (fun n => p (n + 1)) k ts a k' ts') : Go R tl p k ts a k' ts' := by
  intro s hs
  obtain ⟨s', h1, N, h2⟩ := h s hs
  refine ⟨s', h1, N + 1, fun n hn => ?_⟩
  obtain ⟨m, rfl⟩ : ∃ m, n = m + 1 := ⟨n - 1, by omega⟩
  exact h2 m (by omega)

theorem Go.bind {p : Nat → P κ α} {f : Nat → α → P κ β} (h : Go R tl p k ts a k1 ts1)
    (hf : Go R tl (fun n => f n a) k1 ts1 b k' ts') : Go R tl (fun n => p n >>= f n) k ts b k' ts' := by
  intro s hs
  obtain ⟨s1, a1, N1, h1⟩ := h s hs
  obtain ⟨s2, a2, N2, h2⟩ := hf s1 a1
  refine ⟨s2, a2, max N1 N2, fun n hn => ?_⟩
  show P.bind (p n) (f n) s = _
  unfold P.bind
  rw [h1 n (by omega)]
  exact h2 n (by omega)

theorem Go.intro {p : Nat → P κ α} (h : ∀ c, R k c → Go R tl p k ts a k' ts') : Go R tl p k ts a k' ts' :=
  fun s hs => h s.cx hs.cx s hs

theorem Go.look {q : P κ α} {f : Nat → α → P κ β} (h : ∀ s, Here R tl k ts s → q s = .ok a s)
    (hf : Go R tl (fun n => f n a) k ts b k' ts') : Go R tl (fun n => q >>= f n) k ts b k' ts' :=
  Go.bind (p := fun _ => q) (fun s hs => ⟨s, hs, 0, fun _ _ => h s hs⟩) hf

theorem Go.is {pred : Pred} {f : Nat → Bool → P κ β} {t : Token} (h : tokOf tl ts = some t)
    (hf : Go R tl (fun n => f n (pred t)) k ts b k' ts') : Go R tl (fun n => P.is pred >>= f n) k ts b k' ts' :=
  Go.look (fun _ hs => is_run (hs.tok.trans h)) hf

theorem Go.isT {pred : Pred} {f : Nat → Bool → P κ β} (h : Nxt tl ts fun t => pred t = true)
    (hf : Go R tl (fun n => f n true) k ts b k' ts') : Go R tl (fun n => P.is pred >>= f n) k ts b k' ts' := by
  obtain ⟨t, h1, h2⟩ := h
  exact Go.is h1 (by rw [h2]; exact hf)

theorem Go.isF {pred : Pred} {f : Nat → Bool → P κ β} (h : Nxt tl ts fun t => ¬ pred t = true)
    (hf : Go R tl (fun n => f n false) k ts b k' ts') : Go R tl (fun n => P.is pred >>= f n) k ts b k' ts' := by
  obtain ⟨t, h1, h2⟩ := h
  rw [Bool.not_eq_true] at h2
  exact Go.is h1 (by rw [h2]; exact hf)

theorem Go.cur {f : Nat → Token → P κ β} {t : Token} (h : tokOf tl ts = some t)
    (hf : Go R tl (fun n => f n t) k ts b k' ts') : Go R tl (fun n => P.cur >>= f n) k ts b k' ts' :=
  Go.look (fun _ hs => cur_run (hs.tok.trans h)) hf

theorem Go.cur? {f : Nat → Option Token → P κ β} {t : Token} (h : tokOf tl ts = some t)
    (hf : Go R tl (fun n => f n (some t)) k ts b k' ts') : Go R tl (fun n => P.cur? >>= f n) k ts b k' ts' :=
  Go.look (fun _ hs => cur?_run (hs.tok.trans h)) hf

theorem Go.current {pred : Pred} {f : Nat → Token → P κ β} {t : Token} (h : tokOf tl ts = some t) (hp : pred t = true)
    (hf : Go R tl (fun n => f n t) k ts b k' ts') : Go R tl (fun n => P.current pred >>= f n) k ts b k' ts' :=
  Go.look (fun _ hs => current_run (hs.tok.trans h) hp) hf

theorem Go.step {t : Token} (hl : Nxt tl ts fun _ => True) : Go R tl (fun _ => P.next) k (t :: ts) () k ts := by
  intro s hs
  refine ⟨{ s with ts := ts }, ⟨hs.tail, hs.cx, rfl⟩, 0, fun _ _ => next_run hs.ts ?_⟩
  obtain ⟨t', h1, -⟩ := hl
  refine ⟨t', ?_, trivial⟩
  obtain ⟨x, y, z⟩ := s
  obtain ⟨rfl, -, -⟩ := hs
  exact h1

theorem Go.next {f : Nat → Unit → P κ β} {t : Token} (hl : Nxt tl ts fun _ => True)
    (hf : Go R tl (fun n => f n ()) k ts b k' ts') : Go R tl (fun n => P.next >>= f n) k (t :: ts) b k' ts' :=
  Go.bind (Go.step hl) hf

theorem Go.eat {pred : Pred} {f : Nat → Token → Unit → P κ β} {t : Token} (hp : pred t = true) (hl : Nxt tl ts fun _ => True)
    (hf : Go R tl (fun n => f n t ()) k ts b k' ts') :
    Go R tl (fun n => P.current pred >>= fun t => P.next >>= f n t) k (t :: ts) b k' ts' :=
  Go.current rfl hp (Go.next hl hf)

theorem Go.nextIs {pred : Pred} {f : Nat → Token → P κ β} {t t' : Token} {ts : List Token} (hp : pred t' = true)
    (hf : Go R tl (fun n => f n t') k (t' :: ts) b k' ts') :
    Go R tl (fun n => P.nextIs pred >>= f n) k (t :: t' :: ts) b k' ts' := by
  unfold P.nextIs
  simp only [P.bind_assoc]
  exact Go.next (.cons trivial) (Go.current rfl hp hf)

theorem Go.eatKw {u : Uni} {c : Str} {f : Nat → Token → Unit → P κ β} {t : Token} (hp : IsKw u c t)
    (hl : Nxt tl ts fun _ => True) (hf : Go R tl (fun n => f n t ()) k ts b k' ts') :
    Go R tl (fun n => P.current (kw u c) >>= fun t => P.next >>= f n t) k (t :: ts) b k' ts' :=
  Go.eat (kw_iff.2 hp) hl hf

theorem Go.eatSym {c : Str} {f : Nat → Token → Unit → P κ β} {t : Token} (hp : IsSym c t)
    (hl : Nxt tl ts fun _ => True) (hf : Go R tl (fun n => f n t ()) k ts b k' ts') :
    Go R tl (fun n => P.current (sym c) >>= fun t => P.next >>= f n t) k (t :: ts) b k' ts' :=
  Go.eat (symbol_iff.2 hp) hl hf

end

/-! ## Spelling -/

section
variable {u : Uni}

/-- written in ASCII -/
def Asc (s : Str) : Prop := ∀ c ∈ s, c.toNat < 128

instance (s : Str) : Decidable (Asc s) := by unfold Asc; infer_instance

theorem toUpper_asc {s : Str} (h : Asc s) : u.toUpper s = s.map asciiUp := by
  unfold Uni.toUpper
  exact List.map_congr_left fun c hc => u.up_ascii c (h c hc)

theorem kw_value {c : Str} {t : Token} (h : IsKw u c t) : t.value u = c := (value_reserved h.1).trans h.2
theorem sym_value {c : Str} {t : Token} (h : IsSym c t) : t.value u = c :=
  (value_of_ne (by rw [h.1]; decide)).trans h.2

theorem value_not_up {c w : Str} {t : Token} (h : t.value u = c) (ha : Asc c) (hw : c.map asciiUp ≠ w) : ¬ IsUp u w t := by
  intro h'
  unfold IsUp at h'
  rw [h, toUpper_asc ha] at h'
  exact hw h'

theorem up_value {c w : Str} {t : Token} (h : IsUp u w t) (ha : Asc c) (hw : c.map asciiUp ≠ w) : t.value u ≠ c :=
  fun h' => value_not_up h' ha hw h

/-- the words and symbols that can continue an expression -/
def contWords : List Str := mulWords ++ addWords ++ relWords
def contSyms : List Str := [r!".", r!"[", r!"^", r!"("] ++ mulSyms ++ addSyms ++ relSyms

/-- a token continues an expression only by its value -/
theorem stopsExpr_value {t : Token} (h : ∀ c ∈ contSyms ++ contWords, t.value u ≠ c) : StopsExpr u t := by
  have hs : ∀ c ∈ contSyms, ¬ IsSym c t := fun c hc h' => h c (by simp [hc]) (sym_value h')
  have hk : ∀ c ∈ contWords, ¬ IsKw u c t := fun c hc h' => h c (by simp [hc]) (kw_value h')
  refine ⟨⟨⟨⟨hs _ (by decide), hs _ (by decide), hs _ (by decide), hs _ (by decide)⟩, ?_⟩, ?_⟩, ?_⟩
  · rintro (⟨s, m, h'⟩ | ⟨s, m, h'⟩)
    · exact hs s (by simp [contSyms, m]) h'
    · exact hk s (by simp [contWords, m]) h'
  · rintro (⟨s, m, h'⟩ | ⟨s, m, h'⟩)
    · exact hs s (by simp [contSyms, m]) h'
    · exact hk s (by simp [contWords, m]) h'
  · rintro (⟨s, m, h'⟩ | ⟨s, m, h'⟩)
    · exact hs s (by simp [contSyms, m]) h'
    · exact hk s (by simp [contWords, m]) h'

theorem stops_of_value {c : Str} {t : Token} (h : t.value u = c) (hc : c ∉ contSyms ++ contWords) : StopsExpr u t :=
  stopsExpr_value fun c' hc' e => hc (by rw [← h, e]; exact hc')

theorem stops_of_up {w : Str} {t : Token} (h : IsUp u w t) (hc : ∀ c ∈ contSyms ++ contWords, Asc c ∧ c.map asciiUp ≠ w) :
    StopsExpr u t :=
  stopsExpr_value fun c hc' => up_value h (hc c hc').1 (hc c hc').2

end

/-! ## The first token of an expression -/

section
variable {u : Uni}

/-- the first token of an expression is no semicolon and no reserved word but `NIL` and `NOT` -/
def ExprHead (u : Uni) (t : Token) : Prop := ¬ IsSym r!";" t ∧ ∀ c, IsKw u c t → c = r!"NIL" ∨ c = r!"NOT"

theorem leaf_head {l : Leaf} {ls : List Leaf} {y : List Token} (hl : ∀ t, l.Is u t → ExprHead u t)
    (h : Leaves u (l :: ls) y) : ∃ t y', y = t :: y' ∧ ExprHead u t := by
  obtain ⟨t, y', rfl, h1, -⟩ := leaves_uncons h
  exact ⟨t, y', rfl, hl t h1⟩

theorem head_sym {c : Str} (hc : c ≠ r!";") : ∀ t, (Leaf.sym c).Is u t → ExprHead u t :=
  fun t h => ⟨fun h' => hc (h.2.symm.trans h'.2), fun c' h' => by have := h'.1; rw [h.1] at this; cases this⟩

theorem head_typ {t : Token} (h1 : t.typ ≠ .symbol) (h2 : t.typ ≠ .reserved) : ExprHead u t :=
  ⟨fun h => h1 h.1, fun _ h => absurd h.1 h2⟩

theorem head_ident {i : Ident} : ∀ t, (Leaf.ident i).Is u t → ExprHead u t :=
  fun t h => head_typ (by rw [h.1]; decide) (by rw [h.1]; decide)

theorem head_kw {c : Str} (hc : c = r!"NIL" ∨ c = r!"NOT") : ∀ t, (Leaf.kw c).Is u t → ExprHead u t :=
  fun t h => ⟨fun h' => not_sym_kw h h', fun c' h' => by rw [← h'.2, h.2]; exact hc⟩

theorem expr_head {E : Env κ δ} {k : κ} (e : Expr δ) {y : List Token} (h : Leaves u (flatExpr e) y)
    (hf : FitsExpr u E k e) : ∃ t y', y = t :: y' ∧ ExprHead u t := by
  obtain ⟨⟨un, ⟨f, m⟩, ad⟩, r⟩ := e
  cases un with
  | some op =>
    simp only [flatExpr, flatSExpr, List.cons_append] at h
    refine leaf_head (head_sym ?_) h
    rintro rfl
    have := hf.1.1 _ rfl
    revert this
    decide
  | none =>
    simp only [flatExpr, flatSExpr, flatTerm, List.append_assoc] at h
    have desig : ∀ (d : Desig δ) ls, Leaves u (flatDesig d ++ ls) y → ∃ t y', y = t :: y' ∧ ExprHead u t := by
      intro d ls h
      obtain ⟨i, l, e, -⟩ := flatDesig_head d
      rw [e] at h
      exact leaf_head head_ident h
    cases f with
    | desig d => exact desig d _ h
    | call d args =>
      simp only [flatFactor, List.append_assoc] at h
      exact desig d _ h
    | addr d => exact leaf_head (head_sym (by decide)) h
    | paren e => exact leaf_head (head_sym (by decide)) h
    | set es => exact leaf_head (head_sym (by decide)) h
    | value v => exact leaf_head (l := .word v) (fun t h => head_typ h.1 h.2.1) h
    | str v => exact leaf_head (l := .str v) (fun t h => head_typ (by rw [h.1]; decide) (by rw [h.1]; decide)) h
    | num v =>
      exact leaf_head (l := .num v) (fun t h => head_typ (by rcases h.1 with h | h <;> rw [h] <;> decide)
        (by rcases h.1 with h | h <;> rw [h] <;> decide)) h
    | nil => exact leaf_head (head_kw (.inl rfl)) h
    | not f => exact leaf_head (head_kw (.inr rfl)) h
    | cast t e => exact leaf_head head_ident h

end

end TP
