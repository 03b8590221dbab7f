import Verif.Lemmas.Elab

/-!
# Acceptance in terms of token lists and names
-/

namespace TP
open Spec
open Maps hiding get set

variable {u : Uni} {tl : Tail} {α β : Type}

/-- In every context with the names of `Γ`, with enough fuel, `p` reads `ts` up to `ts'` and returns something with `Q`;
the names are those of `Γ'` then. -/
def Acc (u : Uni) (tl : Tail) (p : Nat → P DS α) (Γ : NameEnv) (ts : List Token) (Q : α → DS → Prop) (Γ' : NameEnv)
    (ts' : List Token) : Prop :=
  ∀ s : PS DS, s.tail = tl → Agrees u Γ s.cx → s.ts = ts → ∃ a s', s'.tail = tl ∧ Agrees u Γ' s'.cx ∧ s'.ts = ts' ∧
    Own s.cx s'.cx ∧ Q a s'.cx ∧ ∃ N, ∀ n, N ≤ n → p n s = .ok a s'

/-- nothing about the result -/
abbrev Any : α → DS → Prop := fun _ _ => True

section
variable {Γ Γ1 Γ' : NameEnv} {ts ts1 ts' : List Token} {Q : α → DS → Prop} {Q' : β → DS → Prop}

theorem Acc.pure {a : α} (h : ∀ k, Q a k) : Acc u tl (fun _ => (Pure.pure a : P DS α)) Γ ts Q Γ ts :=
  fun s h1 h2 h3 => ⟨a, s, h1, h2, h3, h2.rooted.own, h _, 0, fun _ _ => rfl⟩

theorem Acc.succ {p : Nat → P DS α} (h : Acc u tl (fun n => p (n + 1)) Γ ts Q Γ' ts') : Acc u tl p Γ ts Q Γ' ts' := by
  intro s h1 h2 h3
  obtain ⟨a, s', g1, g2, g3, g4, g5, N, h2⟩ := h s h1 h2 h3
  refine ⟨a, s', g1, g2, g3, g4, g5, N + 1, fun n hn => ?_⟩
  obtain ⟨m, rfl⟩ : ∃ m, n = m + 1 := ⟨n - 1, by omega⟩
  exact h2 m (by omega)

theorem Acc.mono {p : Nat → P DS α} {Q1 : α → DS → Prop} (h : Acc u tl p Γ ts Q1 Γ' ts') (hq : ∀ a k, Q1 a k → Q a k) :
    Acc u tl p Γ ts Q Γ' ts' := by
  intro s h1 h2 h3
  obtain ⟨a, s', g1, g2, g3, g4, g5, h⟩ := h s h1 h2 h3
  exact ⟨a, s', g1, g2, g3, g4, hq _ _ g5, h⟩

theorem Acc.any {p : Nat → P DS α} (h : Acc u tl p Γ ts Q Γ' ts') : Acc u tl p Γ ts Any Γ' ts' :=
  h.mono fun _ _ _ => trivial

theorem Acc.bind {p : Nat → P DS α} {f : Nat → α → P DS β} (h : Acc u tl p Γ ts Q Γ1 ts1)
    (hf : ∀ a, (∃ k, Q a k) → Acc u tl (fun n => f n a) Γ1 ts1 Q' Γ' ts') : Acc u tl (fun n => p n >>= f n) Γ ts Q' Γ' ts' := by
  intro s h1 h2 h3
  obtain ⟨a, s1, g1, g2, g3, g4, g5, N1, g6⟩ := h s h1 h2 h3
  obtain ⟨b, s2, f1, f2, f3, f4, f5, N2, f6⟩ := hf a ⟨_, g5⟩ s1 g1 g2 g3
  refine ⟨b, s2, f1, f2, f3, g4.trans f4, f5, max N1 N2, fun n hn => ?_⟩
  show P.bind (p n) (f n) s = _
  unfold P.bind
  rw [g6 n (by omega)]
  exact f6 n (by omega)

theorem Acc.look {q : P DS α} {a : α} {f : Nat → α → P DS β} (h : ∀ s : PS DS, s.tok? = tokOf tl ts → q s = .ok a s)
    (hf : Acc u tl (fun n => f n a) Γ ts Q' Γ' ts') : Acc u tl (fun n => q >>= f n) Γ ts Q' Γ' ts' := by
  intro s h1 h2 h3
  obtain ⟨b, s2, f1, f2, f3, f4, f5, N2, f6⟩ := hf s h1 h2 h3
  refine ⟨b, s2, f1, f2, f3, f4, f5, N2, fun n hn => ?_⟩
  show P.bind q (f n) s = _
  unfold P.bind
  rw [h s (by obtain ⟨x, y, z⟩ := s; cases h1; cases h3; rfl)]
  exact f6 n hn

theorem Acc.is {pred : Pred} {f : Nat → Bool → P DS β} {t : Token} (h : tokOf tl ts = some t)
    (hf : Acc u tl (fun n => f n (pred t)) Γ ts Q' Γ' ts') : Acc u tl (fun n => P.is pred >>= f n) Γ ts Q' Γ' ts' :=
  Acc.look (fun _ hs => is_run (hs.trans h)) hf

theorem Acc.isT {pred : Pred} {f : Nat → Bool → P DS β} (h : Nxt tl ts fun t => pred t = true)
    (hf : Acc u tl (fun n => f n true) Γ ts Q' Γ' ts') : Acc u tl (fun n => P.is pred >>= f n) Γ ts Q' Γ' ts' := by
  obtain ⟨t, h1, h2⟩ := h
  exact Acc.is h1 (by rw [h2]; exact hf)

theorem Acc.isF {pred : Pred} {f : Nat → Bool → P DS β} (h : Nxt tl ts fun t => ¬ pred t = true)
    (hf : Acc u tl (fun n => f n false) Γ ts Q' Γ' ts') : Acc u tl (fun n => P.is pred >>= f n) Γ ts Q' Γ' ts' := by
  obtain ⟨t, h1, h2⟩ := h
  rw [Bool.not_eq_true] at h2
  exact Acc.is h1 (by rw [h2]; exact hf)

theorem Acc.cur {f : Nat → Token → P DS β} {t : Token} (h : tokOf tl ts = some t)
    (hf : Acc u tl (fun n => f n t) Γ ts Q' Γ' ts') : Acc u tl (fun n => P.cur >>= f n) Γ ts Q' Γ' ts' :=
  Acc.look (fun _ hs => cur_run (hs.trans h)) hf

theorem Acc.cur? {f : Nat → Option Token → P DS β} {t : Token} (h : tokOf tl ts = some t)
    (hf : Acc u tl (fun n => f n (some t)) Γ ts Q' Γ' ts') : Acc u tl (fun n => P.cur? >>= f n) Γ ts Q' Γ' ts' :=
  Acc.look (fun _ hs => cur?_run (hs.trans h)) hf

theorem Acc.current {pred : Pred} {f : Nat → Token → P DS β} {t : Token} (h : tokOf tl ts = some t) (hp : pred t = true)
    (hf : Acc u tl (fun n => f n t) Γ ts Q' Γ' ts') : Acc u tl (fun n => P.current pred >>= f n) Γ ts Q' Γ' ts' :=
  Acc.look (fun _ hs => current_run (hs.trans h) hp) hf

theorem Acc.currentP {pred : Pred} {f : Nat → Token → P DS β} {t : Token} (h : tokOf tl ts = some t) (hp : pred t = true)
    (hf : Acc u tl (fun n => f n t) Γ ts Q' Γ' ts') : Acc u tl (fun n => TP.currentP pred >>= f n) Γ ts Q' Γ' ts' :=
  Acc.look (fun s hs => by
    unfold TP.currentP
    show P.bind P.cur _ s = _
    unfold P.bind
    rw [cur_run (hs.trans h)]
    simp only [hp, if_true]
    rfl) hf

theorem Acc.step {t : Token} (hl : Nxt tl ts fun _ => True) : Acc u tl (fun _ => P.next) Γ (t :: ts) Any Γ ts := by
  intro s h1 h2 h3
  refine ⟨(), { s with ts := ts }, h1, h2, rfl, h2.rooted.own, trivial, 0, fun _ _ => next_run h3 ?_⟩
  obtain ⟨t', g, -⟩ := hl
  refine ⟨t', ?_, trivial⟩
  obtain ⟨x, y, z⟩ := s
  cases h1
  exact g

theorem Acc.next {f : Nat → Unit → P DS β} {t : Token} (hl : Nxt tl ts fun _ => True)
    (hf : Acc u tl (fun n => f n ()) Γ ts Q' Γ' ts') : Acc u tl (fun n => P.next >>= f n) Γ (t :: ts) Q' Γ' ts' :=
  Acc.bind (Acc.step hl) fun _ _ => hf

theorem Acc.eat {pred : Pred} {f : Nat → Token → Unit → P DS β} {t : Token} (hp : pred t = true) (hl : Nxt tl ts fun _ => True)
    (hf : Acc u tl (fun n => f n t ()) Γ ts Q' Γ' ts') :
    Acc u tl (fun n => P.current pred >>= fun t => P.next >>= f n t) Γ (t :: ts) Q' Γ' ts' :=
  Acc.current rfl hp (Acc.next hl hf)

theorem Acc.eatKw {c : Str} {f : Nat → Token → Unit → P DS β} {t : Token} (hp : IsKw u c t)
    (hl : Nxt tl ts fun _ => True) (hf : Acc u tl (fun n => f n t ()) Γ ts Q' Γ' ts') :
    Acc u tl (fun n => P.current (kw u c) >>= fun t => P.next >>= f n t) Γ (t :: ts) Q' Γ' ts' :=
  Acc.eat (kw_iff.2 hp) hl hf

theorem Acc.eatSym {c : Str} {f : Nat → Token → Unit → P DS β} {t : Token} (hp : IsSym c t)
    (hl : Nxt tl ts fun _ => True) (hf : Acc u tl (fun n => f n t ()) Γ ts Q' Γ' ts') :
    Acc u tl (fun n => P.current (sym c) >>= fun t => P.next >>= f n t) Γ (t :: ts) Q' Γ' ts' :=
  Acc.eat (symbol_iff.2 hp) hl hf

theorem Acc.eatKwP {c : Str} {f : Nat → Token → Unit → P DS β} {t : Token} (hp : IsKw u c t)
    (hl : Nxt tl ts fun _ => True) (hf : Acc u tl (fun n => f n t ()) Γ ts Q' Γ' ts') :
    Acc u tl (fun n => TP.currentP (kw u c) >>= fun t => P.next >>= f n t) Γ (t :: ts) Q' Γ' ts' :=
  Acc.currentP rfl (kw_iff.2 hp) (Acc.next hl hf)

theorem Acc.nextIs {pred : Pred} {f : Nat → Token → P DS β} {t t' : Token} {ts : List Token} (hp : pred t' = true)
    (hf : Acc u tl (fun n => f n t') Γ (t' :: ts) Q' Γ' ts') :
    Acc u tl (fun n => P.nextIs pred >>= f n) Γ (t :: t' :: ts) Q' Γ' ts' := by
  unfold P.nextIs
  simp only [P.bind_assoc]
  exact Acc.next (.cons trivial) (Acc.current rfl hp hf)

theorem Acc.getDecl {f : Nat → Option (Decl Node) → P DS β} {name : Str}
    (hf : ∀ k, Agrees u Γ k → Acc u tl (fun n => f n (k.get u name)) Γ ts Q' Γ' ts') :
    Acc u tl (fun n => TP.getDecl (declEnv u).toEnv name >>= f n) Γ ts Q' Γ' ts' := by
  intro s h1 h2 h3
  obtain ⟨b, s2, f1, f2, f3, f4, f5, N2, f6⟩ := hf s.cx h2 s h1 h2 h3
  exact ⟨b, s2, f1, f2, f3, f4, f5, N2, fun n hn => f6 n hn⟩

/-- an operation on the context -/
theorem Acc.op {q : P DS α} {f : Nat → α → P DS β}
    (h : ∀ s : PS DS, Agrees u Γ s.cx → ∃ a c, q s = .ok a { s with cx := c } ∧ Agrees u Γ1 c ∧ Own s.cx c)
    (hf : ∀ a, Acc u tl (fun n => f n a) Γ1 ts Q' Γ' ts') : Acc u tl (fun n => q >>= f n) Γ ts Q' Γ' ts' := by
  refine Acc.bind (p := fun _ => q) (Q := Any) (Γ1 := Γ1) (ts1 := ts) (fun s h1 h2 h3 => ?_) fun a _ => hf a
  obtain ⟨a, c, g1, g2, g3⟩ := h s h2
  exact ⟨a, { s with cx := c }, h1, g2, h3, g3, trivial, 0, fun _ _ => g1⟩

theorem Acc.setDecl {f : Nat → Unit → P DS β} {is : List Ident} {kind : DKind (Decl Node)} (hk : Other kind)
    (hn : Γ.New u (is.map Ident.name)) (hf : Acc u tl (fun n => f n ()) (Γ.declare u (is.map Ident.name)) ts Q' Γ' ts') :
    Acc u tl (fun n => TP.setDecl (declEnv u) is kind >>= f n) Γ ts Q' Γ' ts' := by
  refine Acc.op (fun s h => ?_) fun _ => hf
  obtain ⟨k', h1, h2, h3⟩ := h.declare hk hn
  refine ⟨(), k', ?_, h2, h3⟩
  unfold TP.setDecl
  rw [show (declEnv u).set s.cx is kind = s.cx.set u is kind from rfl, h1]

theorem Acc.setLabel {f : Nat → Unit → P DS β} {i : Ident} (hn : Γ.New u [i.name])
    (hf : Acc u tl (fun n => f n ()) (Γ.declareLabel u i.name) ts Q' Γ' ts') :
    Acc u tl (fun n => TP.setDecl (declEnv u) [i] .label >>= f n) Γ ts Q' Γ' ts' := by
  refine Acc.op (fun s h => ?_) fun _ => hf
  obtain ⟨k', h1, h2, h3⟩ := h.declareLabel hn
  refine ⟨(), k', ?_, h2, h3⟩
  unfold TP.setDecl
  rw [show (declEnv u).set s.cx [i] .label = s.cx.set u [i] .label from rfl, h1]

theorem Acc.newRef {f : Nat → Nat → P DS β} {name : Str} (hf : ∀ i, Acc u tl (fun n => f n i) Γ ts Q' Γ' ts') :
    Acc u tl (fun n => TP.newRef (declEnv u) name >>= f n) Γ ts Q' Γ' ts' :=
  Acc.op (fun _ h => ⟨_, _, rfl, h.same rfl rfl rfl, h.rooted.own.same rfl rfl rfl rfl rfl⟩) hf

/-- a lookahead: the second use of the context is in the state of `RollbackPoint` -/
theorem Acc.point {f : Nat → PS DS → P DS β} (hl : Nxt tl ts fun _ => True)
    (hf : ∀ s0 : PS DS, s0.tail = tl → s0.ts = ts → ∀ s, s.tail = tl → Agrees u Γ s.cx → s.ts = ts → s0 = s →
      ∃ a s', s'.tail = tl ∧ Agrees u Γ' s'.cx ∧ s'.ts = ts' ∧ Own s.cx s'.cx ∧ Q' a s'.cx ∧ ∃ N, ∀ n, N ≤ n → f n s0 s = .ok a s') :
    Acc u tl (fun n => rollbackPoint >>= f n) Γ ts Q' Γ' ts' := by
  intro s h1 h2 h3
  obtain ⟨b, s2, f1, f2, f3, f4, f5, N2, f6⟩ := hf s h1 h3 s h1 h2 h3 rfl
  refine ⟨b, s2, f1, f2, f3, f4, f5, N2, fun n hn => ?_⟩
  obtain ⟨t, g, -⟩ := hl
  show P.bind rollbackPoint (f n) s = _
  unfold P.bind
  rw [rollback_run (t := t) (by obtain ⟨x, y, z⟩ := s; cases h1; cases h3; exact g)]
  exact f6 n hn

theorem Acc.stacked' {p : Nat → P DS α} (h : Acc u tl p Γ.opened ts Q Γ' ts') :
    Acc u tl (fun n => TP.stacked (declEnv u) (p n)) Γ ts (fun a _ => ∃ k, Q a k) (Γ.closed Γ') ts' := by
  intro s h1 h2 h3
  obtain ⟨a, s', g1, g2, g3, g4, g5, N, g6⟩ := h { s with cx := s.cx.stack } h1 h2.opened h3
  obtain ⟨f1, f2⟩ := h2.closed g2 g4
  refine ⟨a, { s' with cx := s.cx.restore s'.cx }, g1, f1, g3, f2, ⟨_, g5⟩, N, fun n hn => ?_⟩
  show TP.stacked (declEnv u) (p n) s = _
  unfold TP.stacked
  rw [show (declEnv u).stack s.cx = s.cx.stack from rfl, g6 n hn]
  rfl

theorem Acc.stacked {p : Nat → P DS α} (h : Acc u tl p Γ.opened ts Q Γ' ts') :
    Acc u tl (fun n => TP.stacked (declEnv u) (p n)) Γ ts Any (Γ.closed Γ') ts' :=
  (Acc.stacked' h).any

theorem Acc.traced {p : Nat → P DS α} (h : Acc u tl p Γ ts Q Γ' ts') (hl : Nxt tl ts fun _ => True)
    (hr : Nxt tl ts' fun _ => True) : Acc u tl (fun n => TP.traced (p n)) Γ ts Q Γ' ts' := by
  intro s h1 h2 h3
  obtain ⟨a, s', g1, g2, g3, g4, g5, N, g6⟩ := h s h1 h2 h3
  refine ⟨a, s', g1, g2, g3, g4, g5, N, fun n hn => ?_⟩
  obtain ⟨t, e1, -⟩ := hl
  obtain ⟨t', e2, -⟩ := hr
  show P.bind P.cur (fun _ => P.bind (p n) fun a => P.bind P.cur fun _ => Pure.pure a) s = _
  unfold P.bind
  rw [cur_run (t := t) (by obtain ⟨x, y, z⟩ := s; cases h1; cases h3; exact e1)]
  simp only
  rw [g6 n hn]
  simp only
  rw [cur_run (t := t') (by obtain ⟨x, y, z⟩ := s'; cases g1; cases g3; exact e2)]
  rfl

theorem runSection_eq (k : DS) : (k.runSection u).w = k.w ∧ (k.runSection u).cur = k.cur ∧ (k.runSection u).types = k.types := by
  unfold DS.runSection
  generalize k.pending = l
  induction l generalizing k with
  | nil => exact ⟨rfl, rfl, rfl⟩
  | cons r l ih =>
    obtain ⟨h1, h2, h3⟩ := ih (k.runRef u r)
    have : (k.runRef u r).w = k.w ∧ (k.runRef u r).cur = k.cur ∧ (k.runRef u r).types = k.types := by
      unfold DS.runRef; split <;> exact ⟨rfl, rfl, rfl⟩
    rw [List.foldl_cons, h1, h2, h3]
    exact this

theorem Acc.withSection' {p : Nat → P DS α} (h : Acc u tl p Γ ts Q Γ' ts') :
    Acc u tl (fun n => TP.withSection (declEnv u) (p n)) Γ ts (fun a _ => ∃ k, Q a k) Γ' ts' := by
  intro s h1 h2 h3
  obtain ⟨a, s', g1, g2, g3, g4, g5, N, g6⟩ := h { s with cx := { s.cx with pending := [] } } h1 (h2.same rfl rfl rfl) h3
  obtain ⟨e1, e2, e3⟩ := runSection_eq (u := u) s'.cx
  refine ⟨a, { s' with cx := { s'.cx.runSection u with pending := s.cx.pending } }, g1, g2.same e1 e2 e3, g3, ?_, ⟨_, g5⟩, N,
    fun n hn => ?_⟩
  · have : Own s.cx s'.cx := Own.trans (b := { s.cx with pending := [] }) (h2.rooted.own.same rfl rfl rfl rfl rfl) g4
    exact (this.runSection u).same rfl rfl rfl rfl rfl
  · show TP.withSection (declEnv u) (p n) s = _
    unfold TP.withSection
    rw [show (declEnv u).openSection s.cx = { s.cx with pending := [] } from rfl, g6 n hn]
    rfl

theorem Acc.withSection {p : Nat → P DS α} (h : Acc u tl p Γ ts Q Γ' ts') :
    Acc u tl (fun n => TP.withSection (declEnv u) (p n)) Γ ts Any Γ' ts' :=
  (Acc.withSection' h).any

theorem Acc.ordinal {p : Nat → P DS (PType (Decl Node))} {f : Nat → PType (Decl Node) → Unit → P DS β}
    (h : Acc u tl p Γ ts (fun a k => k.ordinal a = some true) Γ1 ts1)
    (hf : ∀ a, Acc u tl (fun n => f n a ()) Γ1 ts1 Q' Γ' ts') :
    Acc u tl (fun n => p n >>= fun a => checkOrdinal (declEnv u) a >>= f n a) Γ ts Q' Γ' ts' := by
  intro s h1 h2 h3
  obtain ⟨a, s1, g1, g2, g3, g4, g5, N1, g6⟩ := h s h1 h2 h3
  obtain ⟨b, s2, f1, f2, f3, f4, f5, N2, f6⟩ := hf a s1 g1 g2 g3
  refine ⟨b, s2, f1, f2, f3, g4.trans f4, f5, max N1 N2, fun n hn => ?_⟩
  show P.bind (p n) (fun a => P.bind (checkOrdinal (declEnv u) a) (f n a)) s = _
  unfold P.bind
  rw [g6 n (by omega)]
  simp only
  rw [show checkOrdinal (declEnv u) a s1 = .ok () s1 by
    unfold checkOrdinal
    rw [show (declEnv u).ordinal s1.cx a = s1.cx.ordinal a from rfl, g5]]
  exact f6 n (by omega)

end

end TP
