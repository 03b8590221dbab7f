import Verif.Lemmas.AccType
import Verif.Lemmas.ClassProps

/-!
# Acceptance of properties
-/

namespace TP
open Spec

variable {u : Uni} {tl : Tail} {α β : Type} {Γ Γ1 Γ' : NameEnv} {rest : List Token}

/-! ## Acceptance in contexts of a certain sort -/

/-- `Acc` for contexts with `J` -/
def AccH (u : Uni) (tl : Tail) (J : DS → Prop) (p : Nat → P DS α) (Γ : NameEnv) (ts : List Token) (Q : α → DS → Prop) (Γ' : NameEnv)
    (ts' : List Token) : Prop :=
  ∀ s : PS DS, s.tail = tl → Agrees u Γ s.cx → s.ts = ts → J s.cx → ∃ a s', s'.tail = tl ∧ Agrees u Γ' s'.cx ∧ s'.ts = ts' ∧
    Own s.cx s'.cx ∧ Q a s'.cx ∧ ∃ N, ∀ n, N ≤ n → p n s = .ok a s'

/-- `J` speaks about the types and the references only -/
def Settled (J : DS → Prop) : Prop := ∀ a b, SameTR a b → J a → J b

/-- `p` leaves the types and the references that are known -/
def Idle (p : Nat → P DS α) : Prop := ∀ n s a s', p n s = .ok a s' → SameTR s.cx s'.cx

section
variable {J : DS → Prop} {ts ts1 ts' : List Token} {Q : α → DS → Prop} {Q' : β → DS → Prop}

theorem Acc.h {p : Nat → P DS α} (h : Acc u tl p Γ ts Q Γ' ts') : AccH u tl J p Γ ts Q Γ' ts' := fun s h1 h2 h3 _ => h s h1 h2 h3

theorem AccH.acc {p : Nat → P DS α} (h : AccH u tl (fun _ => True) p Γ ts Q Γ' ts') : Acc u tl p Γ ts Q Γ' ts' :=
  fun s h1 h2 h3 => h s h1 h2 h3 trivial

theorem AccH.succ {p : Nat → P DS α} (h : AccH u tl J (fun n => p (n + 1)) Γ ts Q Γ' ts') : AccH u tl J p Γ ts Q Γ' ts' := by
  intro s h1 h2 h3 h4
  obtain ⟨a, s', g1, g2, g3, g4, g5, N, h2⟩ := h s h1 h2 h3 h4
  refine ⟨a, s', g1, g2, g3, g4, g5, N + 1, fun n hn => ?_⟩
  obtain ⟨m, rfl⟩ : ∃ m, n = m + 1 := ⟨n - 1, by omega⟩
  exact h2 m (by omega)

theorem AccH.bind {p : Nat → P DS α} {f : Nat → α → P DS β} (h : AccH u tl J p Γ ts Q Γ1 ts1)
    (hf : ∀ a, (∃ k, Q a k) → AccH u tl (Q a) (fun n => f n a) Γ1 ts1 Q' Γ' ts') : AccH u tl J (fun n => p n >>= f n) Γ ts Q' Γ' ts' := by
  intro s h1 h2 h3 h4
  obtain ⟨a, s1, g1, g2, g3, g4, g5, N1, g6⟩ := h s h1 h2 h3 h4
  obtain ⟨b, s2, f1, f2, f3, f4, f5, N2, f6⟩ := hf a ⟨_, g5⟩ s1 g1 g2 g3 g5
  refine ⟨b, s2, f1, f2, f3, g4.trans f4, f5, max N1 N2, fun n hn => ?_⟩
  show P.bind (p n) (f n) s = _
  unfold P.bind
  rw [g6 n (by omega)]
  exact f6 n (by omega)

/-- `J` is still true afterwards -/
theorem Acc.keeps (hJ : Settled J) {p : Nat → P DS α} (h : Acc u tl p Γ ts Q Γ' ts') (hp : Idle p) :
    AccH u tl J p Γ ts (fun a k => Q a k ∧ J k) Γ' ts' := by
  intro s h1 h2 h3 h4
  obtain ⟨a, s', g1, g2, g3, g4, g5, N, g6⟩ := h s h1 h2 h3
  exact ⟨a, s', g1, g2, g3, g4, ⟨g5, hJ _ _ (hp _ _ _ _ (g6 N (Nat.le_refl N))) h4⟩, N, g6⟩

theorem AccH.weaken {J' : DS → Prop} {p : Nat → P DS α} (h : AccH u tl J p Γ ts Q Γ' ts') (hJ : ∀ k, J' k → J k) :
    AccH u tl J' p Γ ts Q Γ' ts' := fun s h1 h2 h3 h4 => h s h1 h2 h3 (hJ _ h4)

/-- something idle first -/
theorem AccH.first (hJ : Settled J) {p : Nat → P DS α} {f : Nat → α → P DS β} (h : Acc u tl p Γ ts Q Γ1 ts1) (hp : Idle p)
    (hf : ∀ a, (∃ k, Q a k) → AccH u tl J (fun n => f n a) Γ1 ts1 Q' Γ' ts') : AccH u tl J (fun n => p n >>= f n) Γ ts Q' Γ' ts' :=
  AccH.bind (h.keeps hJ hp) fun a ha => (hf a (ha.imp fun _ h => h.1)).weaken fun _ h => h.2

/-- an operation on the context -/
theorem AccH.op {q : P DS α} {f : Nat → α → P DS β}
    (h : ∀ s : PS DS, Agrees u Γ s.cx → J s.cx → ∃ a c, q s = .ok a { s with cx := c } ∧ Agrees u Γ1 c ∧ Own s.cx c)
    (hf : ∀ a, Acc u tl (fun n => f n a) Γ1 ts Q' Γ' ts') : AccH u tl J (fun n => q >>= f n) Γ ts Q' Γ' ts' := by
  refine AccH.bind (p := fun _ => q) (Q := Any) (Γ1 := Γ1) (ts1 := ts) (fun s h1 h2 h3 h4 => ?_) fun a _ => (hf a).h
  obtain ⟨a, c, g1, g2, g3⟩ := h s h2 h4
  exact ⟨a, { s with cx := c }, h1, g2, h3, g3, trivial, 0, fun _ _ => g1⟩

theorem AccH.look {q : P DS α} {a : α} {f : Nat → α → P DS β} (h : ∀ s : PS DS, s.tok? = tokOf tl ts → q s = .ok a s)
    (hf : AccH u tl J (fun n => f n a) Γ ts Q' Γ' ts') : AccH u tl J (fun n => q >>= f n) Γ ts Q' Γ' ts' := by
  intro s h1 h2 h3 h4
  obtain ⟨b, s2, f1, f2, f3, f4, f5, N2, f6⟩ := hf s h1 h2 h3 h4
  refine ⟨b, s2, f1, f2, f3, f4, f5, N2, fun n hn => ?_⟩
  show P.bind q (f n) s = _
  unfold P.bind
  rw [h s (by obtain ⟨x, y, z⟩ := s; cases h1; cases h3; rfl)]
  exact f6 n hn

theorem AccH.is {pred : Pred} {f : Nat → Bool → P DS β} {t : Token} (h : tokOf tl ts = some t)
    (hf : AccH u tl J (fun n => f n (pred t)) Γ ts Q' Γ' ts') : AccH u tl J (fun n => P.is pred >>= f n) Γ ts Q' Γ' ts' :=
  AccH.look (fun _ hs => is_run (hs.trans h)) hf

theorem AccH.isT {pred : Pred} {f : Nat → Bool → P DS β} (h : Nxt tl ts fun t => pred t = true)
    (hf : AccH u tl J (fun n => f n true) Γ ts Q' Γ' ts') : AccH u tl J (fun n => P.is pred >>= f n) Γ ts Q' Γ' ts' := by
  obtain ⟨t, h1, h2⟩ := h
  exact AccH.is h1 (by rw [h2]; exact hf)

theorem AccH.isF {pred : Pred} {f : Nat → Bool → P DS β} (h : Nxt tl ts fun t => ¬ pred t = true)
    (hf : AccH u tl J (fun n => f n false) Γ ts Q' Γ' ts') : AccH u tl J (fun n => P.is pred >>= f n) Γ ts Q' Γ' ts' := by
  obtain ⟨t, h1, h2⟩ := h
  rw [Bool.not_eq_true] at h2
  exact AccH.is h1 (by rw [h2]; exact hf)

theorem AccH.cur {f : Nat → Token → P DS β} {t : Token} (h : tokOf tl ts = some t)
    (hf : AccH u tl J (fun n => f n t) Γ ts Q' Γ' ts') : AccH u tl J (fun n => P.cur >>= f n) Γ ts Q' Γ' ts' :=
  AccH.look (fun _ hs => cur_run (hs.trans h)) hf

theorem AccH.cur? {f : Nat → Option Token → P DS β} {t : Token} (h : tokOf tl ts = some t)
    (hf : AccH u tl J (fun n => f n (some t)) Γ ts Q' Γ' ts') : AccH u tl J (fun n => P.cur? >>= f n) Γ ts Q' Γ' ts' :=
  AccH.look (fun _ hs => cur?_run (hs.trans h)) hf

theorem AccH.current {pred : Pred} {f : Nat → Token → P DS β} {t : Token} (h : tokOf tl ts = some t) (hp : pred t = true)
    (hf : AccH u tl J (fun n => f n t) Γ ts Q' Γ' ts') : AccH u tl J (fun n => P.current pred >>= f n) Γ ts Q' Γ' ts' :=
  AccH.look (fun _ hs => current_run (hs.trans h) hp) hf

theorem AccH.next {f : Nat → Unit → P DS β} {t : Token} (hl : Nxt tl ts fun _ => True)
    (hf : AccH u tl J (fun n => f n ()) Γ ts Q' Γ' ts') : AccH u tl J (fun n => P.next >>= f n) Γ (t :: ts) Q' Γ' ts' := by
  refine AccH.bind (p := fun _ => P.next) (Q := fun _ k => J k) (Γ1 := Γ) (ts1 := ts) (fun s h1 h2 h3 h4 => ?_) fun _ _ => hf
  obtain ⟨t', g, -⟩ := hl
  refine ⟨(), { s with ts := ts }, h1, h2, rfl, h2.rooted.own, h4, 0, fun _ _ => next_run h3 ⟨t', ?_, trivial⟩⟩
  obtain ⟨x, y, z⟩ := s
  cases h1
  exact g

theorem AccH.traced {p : Nat → P DS α} (h : AccH u tl J p Γ ts Q Γ' ts') (hl : Nxt tl ts fun _ => True)
    (hr : Nxt tl ts' fun _ => True) : AccH u tl J (fun n => TP.traced (p n)) Γ ts Q Γ' ts' := by
  intro s h1 h2 h3 h4
  obtain ⟨a, s', g1, g2, g3, g4, g5, N, g6⟩ := h s h1 h2 h3 h4
  refine ⟨a, s', g1, g2, g3, g4, g5, N, fun n hn => ?_⟩
  obtain ⟨t, e1, -⟩ := hl
  obtain ⟨t', e2, -⟩ := hr
  show P.bind P.cur (fun _ => P.bind (p n) fun a => P.bind P.cur fun _ => Pure.pure a) s = _
  unfold P.bind
  rw [cur_run (t := t) (by obtain ⟨x, y, z⟩ := s; cases h1; cases h3; exact e1)]
  simp only
  rw [g6 n hn]
  simp only
  rw [cur_run (t := t') (by obtain ⟨x, y, z⟩ := s'; cases g1; cases g3; exact e2)]
  rfl

theorem idle_of_tr {p : Nat → P DS α} {f : α → List (TypeId (Decl Node))} {hs : List (TypeId (Decl Node))}
    (h : ∀ n, Tr (fun _ => True) SameTR (fun _ _ => True) hs (p n) f) : Idle p :=
  fun n s a s' e => (h n s trivial (fun _ _ => trivial) a s' e).2.1

theorem idle_of_quiet {p : Nat → P DS α} (h : ∀ n, Quiet (p n)) : Idle p := fun n s a s' e => by
  rw [h n s a s' e]
  exact SameTR.refl _

theorem AccH.pure {a : α} (h : ∀ k, J k → Q a k) : AccH u tl J (fun _ => pure a) Γ ts Q Γ ts :=
  fun s h1 h2 h3 h4 => ⟨a, s, h1, h2, h3, h2.rooted.own, h _ h4, 0, fun _ _ => rfl⟩

theorem AccH.mono {Q2 : α → DS → Prop} {p : Nat → P DS α} (h : AccH u tl J p Γ ts Q Γ' ts') (hq : ∀ a k, Q a k → Q2 a k) :
    AccH u tl J p Γ ts Q2 Γ' ts' := by
  intro s h1 h2 h3 h4
  obtain ⟨a, s', g1, g2, g3, g4, g5, g6⟩ := h s h1 h2 h3 h4
  exact ⟨a, s', g1, g2, g3, g4, hq _ _ g5, g6⟩

/-- `J` is still true afterwards -/
theorem AccH.keeps (hJ : Settled J) {p : Nat → P DS α} (h : AccH u tl J p Γ ts Q Γ' ts') (hp : Idle p) :
    AccH u tl J p Γ ts (fun a k => Q a k ∧ J k) Γ' ts' := by
  intro s h1 h2 h3 h4
  obtain ⟨a, s', g1, g2, g3, g4, g5, N, g6⟩ := h s h1 h2 h3 h4
  exact ⟨a, s', g1, g2, g3, g4, ⟨g5, hJ _ _ (hp _ _ _ _ (g6 N (Nat.le_refl N))) h4⟩, N, g6⟩

theorem Idle.traced {p : Nat → P DS α} (h : Idle p) : Idle fun n => TP.traced (p n) := by
  intro n s a s' e
  unfold TP.traced at e
  obtain ⟨_, s1, e1, e⟩ := ok_bind e
  obtain ⟨b, s2, e2, e⟩ := ok_bind e
  obtain ⟨_, s3, e3, e⟩ := ok_bind e
  cases e
  rw [quiet_cur _ _ _ e3, ← show s1.cx = s.cx from quiet_cur _ _ _ e1]
  exact h _ _ _ _ e2

end

/-! ## Members of the class itself -/

/-- the names of the fields, methods and properties of a section -/
def sectNames (s : Section Node) : List Str := s.fields.flatMap ClassField.names ++ (s.methods.map Decl.name ++ s.props.map Decl.name)

/-- the sections have members of these names -/
def HasNames (ss : List (Section Node)) (ns : List Str) : Prop := ∀ n ∈ ns, ∃ s ∈ ss, n ∈ sectNames s

section
open ClassType

theorem identFind_some {ns : List Str} {a : Str} (h : ∃ n ∈ ns, u.toLower n = u.toLower a) : (identFind u ns a).isSome = true := by
  induction ns with
  | nil => obtain ⟨_, h, _⟩ := h; cases h
  | cons n ns ih =>
    unfold identFind
    by_cases c : u.toLower n = u.toLower a
    · rw [if_pos c]; rfl
    · rw [if_neg c]
      obtain ⟨m, hm, e⟩ := h
      rcases List.mem_cons.1 hm with rfl | hm
      · exact absurd e c
      · exact ih ⟨m, hm, e⟩

theorem declsFind_some {nd : Node} : ∀ {ns : List Str} {a b : Str}, identFind u ns a = some b →
    ∃ d, declsFind u (ns.map fun n => (⟨n, nd⟩ : Decl Node)) a = some d
  | n :: ns, a, b, h => by
    unfold identFind at h
    rw [List.map_cons]
    unfold declsFind
    by_cases c : u.toLower n = u.toLower a
    · rw [if_pos c]; exact ⟨_, rfl⟩
    · rw [if_neg c] at h ⊢
      exact declsFind_some h

theorem findField_found {kw : Str} : ∀ {fs : List (ClassField Node)} {r : Option (Decl Node)}, findField u kw fs = some r → ∃ d, r = some d
  | f :: fs, r, h => by
    unfold findField at h
    cases e : identFind u f.names kw with
    | some b =>
      rw [e] at h
      obtain ⟨d, hd⟩ := declsFind_some (nd := f.node) e
      rw [hd] at h
      cases h
      exact ⟨d, rfl⟩
    | none =>
      rw [e] at h
      exact findField_found h

theorem findField_none {kw : Str} : ∀ {fs : List (ClassField Node)}, findField u kw fs = none →
    ∀ n ∈ fs.flatMap ClassField.names, u.toLower n ≠ u.toLower kw
  | [], _, n, hn => by cases hn
  | f :: fs, h, n, hn => by
    unfold findField at h
    cases e : identFind u f.names kw with
    | some b => rw [e] at h; cases h
    | none =>
      rw [e] at h
      rw [List.flatMap_cons] at hn
      rcases List.mem_append.1 hn with hn | hn
      · intro c
        have := identFind_some (u := u) ⟨n, hn, c⟩
        rw [e] at this
        cases this
      · exact findField_none h n hn

theorem findNamed_found {a : Str} (hl : u.toLower (u.toLower a) = u.toLower a) : ∀ {ds : List (Decl Node)} {r : Option (Decl Node)},
    findNamed u (u.toLower a) ds = some r → ∃ d, r = some d
  | d :: ds, r, h => by
    unfold findNamed at h
    by_cases c : u.toLower d.name = u.toLower a
    · rw [if_pos c] at h
      unfold declsFind at h
      rw [if_pos (c.trans hl.symm)] at h
      cases h
      exact ⟨d, rfl⟩
    · rw [if_neg c] at h
      exact findNamed_found hl h

theorem findNamed_none {kw : Str} : ∀ {ds : List (Decl Node)}, findNamed u kw ds = none → ∀ n ∈ ds.map Decl.name, u.toLower n ≠ kw
  | [], _, n, hn => by cases hn
  | d :: ds, h, n, hn => by
    unfold findNamed at h
    by_cases c : u.toLower d.name = kw
    · rw [if_pos c] at h; cases h
    · rw [if_neg c] at h
      rcases List.mem_cons.1 hn with rfl | hn
      · exact c
      · exact findNamed_none h n hn

theorem findOwn_found {a : Str} (hl : u.toLower (u.toLower a) = u.toLower a) : ∀ {ss : List (Section Node)} {ns : List Str}, HasNames ss ns →
    u.toLower a ∈ ns.map u.toLower → ∃ d, findOwn u (u.toLower a) true ss = some (some d)
  | [], ns, h, ha => by
    obtain ⟨n, hn, -⟩ := List.mem_map.1 ha
    obtain ⟨s, hs, -⟩ := h n hn
    cases hs
  | s :: ss, ns, h, ha => by
    obtain ⟨n, hn, e⟩ := List.mem_map.1 ha
    unfold findOwn
    simp only [Bool.not_true, Bool.false_and, Bool.false_eq_true, if_false]
    cases h1 : findField u (u.toLower a) s.fields with
    | some r => obtain ⟨d, rfl⟩ := findField_found h1; exact ⟨d, rfl⟩
    | none =>
      cases h2 : findNamed u (u.toLower a) s.methods with
      | some r => obtain ⟨d, rfl⟩ := findNamed_found hl h2; exact ⟨d, rfl⟩
      | none =>
        cases h3 : findNamed u (u.toLower a) s.props with
        | some r => obtain ⟨d, rfl⟩ := findNamed_found hl h3; exact ⟨d, rfl⟩
        | none =>
          refine findOwn_found hl (ns := [n]) ?_ (by simp [e])
          intro m hm
          rw [List.mem_singleton] at hm
          subst hm
          obtain ⟨s', hs', hm⟩ := h m hn
          rcases List.mem_cons.1 hs' with rfl | hs'
          · unfold sectNames at hm
            rcases List.mem_append.1 hm with hm | hm
            · exact absurd (e.trans hl.symm) (findField_none h1 m hm)
            · rcases List.mem_append.1 hm with hm | hm
              · exact absurd e (findNamed_none h2 m hm)
              · exact absurd e (findNamed_none h3 m hm)
          · exact ⟨s', hs', hm⟩

theorem findMember_found {k : DS} {h : List (TypeId (Decl Node))} {ms : Sects (Decl Node)} {a : Str} {ns : List Str}
    (hl : u.toLower (u.toLower a) = u.toLower a) (hn : HasNames (DS.sections ms) ns) (ha : u.toLower a ∈ ns.map u.toLower) :
    ∃ d, k.findMember u h ms a = .found d := by
  obtain ⟨d, e⟩ := findOwn_found hl hn ha
  refine ⟨d, ?_⟩
  unfold DS.findMember
  rw [e]
  rfl

/-- the class has no parent class -/
def NoParent (h : List (TypeId (Decl Node))) (k : DS) : Prop := getParentClass k.typeNodes (h.map k.typeNo) = none

theorem findProp_ends {k : DS} {h : List (TypeId (Decl Node))} {ms : Sects (Decl Node)} {a : Str} (hk : NoParent h k) :
    k.findProp u h ms a ≠ .hang := by
  unfold DS.findProp
  cases findOwnProperty u (u.toLower a) (DS.sections ms) with
  | some d => simp
  | none =>
    simp only
    rw [show getParentClass k.typeNodes (h.map k.typeNo) = none from hk]
    simp

/-- looking for a property comes to an end -/
def SearchEnds (u : Uni) (h : List (TypeId (Decl Node))) (k : DS) : Prop := ∀ ms a, k.findProp u h ms a ≠ .hang

theorem grounded_ends {k : DS} {a : Str} {i : Nat} (g : Grounded k.types i) :
    ∀ n, i < n → findProperty u k.typeNodes a n i true ≠ none := by
  have step : ∀ {i h ms} (n : Nat), k.types[i]? = some (.cls h ms) →
      (∀ c, getParentClass k.typeNodes (h.map k.typeNo) = some c → findProperty u k.typeNodes a n c true ≠ none) →
      findProperty u k.typeNodes a (n + 1) i true ≠ none := by
    intro i h ms n e hc
    unfold findProperty
    rw [show k.typeNodes i = .cls (h.map k.typeNo) (DS.sections ms) by unfold DS.typeNodes; rw [e]; rfl]
    simp only [if_true]
    cases findOwnProperty u (u.toLower a) (DS.sections ms) with
    | some d => simp
    | none =>
      simp only
      cases e' : getParentClass k.typeNodes (h.map k.typeNo) with
      | none => simp
      | some c => exact hc c e'
  have first : ∀ {b : TypeId (Decl Node)} {bs d j c}, b.ref = .now d → d.node = .type j →
      getParentClass k.typeNodes ((b :: bs).map k.typeNo) = some c → c = j ∧ ∃ x y, k.typeNodes j = .cls x y := by
    intro b bs d j c h1 h2 e
    have : k.typeNo b = some j := by
      obtain ⟨nm, nd⟩ := d
      cases h2
      unfold DS.typeNo DS.ref
      rw [h1]
    rw [List.map_cons, this] at e
    unfold getParentClass at e
    simp only at e
    split at e
    · rename_i x y e'
      exact ⟨(Option.some.inj e).symm, x, y, e'⟩
    · cases e
  induction g with
  | root e =>
    intro n hn
    obtain ⟨m, rfl⟩ : ∃ m, n = m + 1 := ⟨n - 1, by omega⟩
    exact step m e fun c hc => by cases hc
  | fwd e h1 h2 h3 =>
    intro n hn
    obtain ⟨m, rfl⟩ : ∃ m, n = m + 1 := ⟨n - 1, by omega⟩
    refine step m e fun c hc => ?_
    obtain ⟨-, x, y, hc⟩ := first h1 h2 hc
    unfold DS.typeNodes at hc
    rw [h3] at hc
    cases hc
  | @sub i j a as ms d e h1 h2 h3 h4 ih =>
    intro n hn
    obtain ⟨m, rfl⟩ : ∃ m, n = m + 1 := ⟨n - 1, by omega⟩
    refine step m e fun c hc => ?_
    obtain ⟨rfl, -⟩ := first h1 h2 hc
    exact ih m (by omega)

theorem groundedList_ends {k : DS} {h : List (TypeId (Decl Node))} (g : GroundedList k.types h) : SearchEnds u h k := by
  intro ms a
  rcases g with rfl | ⟨b, bs, d, j, rfl, h1, h2, h3⟩
  · exact findProp_ends rfl
  · have : k.typeNo b = some j := by
      obtain ⟨nm, nd⟩ := d
      cases h2
      unfold DS.typeNo DS.ref
      rw [h1]
    rcases h3 with h3 | h3
    · refine findProp_ends ?_
      unfold NoParent
      rw [List.map_cons, this]
      unfold getParentClass DS.typeNodes
      simp only [h3, DS.typeNode]
    · unfold DS.findProp
      cases findOwnProperty u (u.toLower a) (DS.sections ms) with
      | some d => simp
      | none =>
        simp only
        cases e : getParentClass k.typeNodes ((b :: bs).map k.typeNo) with
        | none => simp
        | some c =>
          have : c = j := by
            rw [List.map_cons, this] at e
            unfold getParentClass at e
            simp only at e
            split at e
            · exact (Option.some.inj e).symm
            · cases e
          subst this
          have := grounded_ends (u := u) (a := a) h3 (k.types.length + 1) (by have := h3.lt; omega)
          simp only
          cases e' : findProperty u k.typeNodes a (k.types.length + 1) c true with
          | none => exact absurd e' this
          | some r => cases r <;> simp [DS.findR]

theorem ends_settled {h : List (TypeId (Decl Node))} : Settled (SearchEnds u h) := by
  intro a b e ha ms n
  have e1 : b.typeNo = a.typeNo := by funext t; unfold DS.typeNo; rw [e.ref]
  have e2 : b.typeNodes = a.typeNodes := by
    funext i
    unfold DS.typeNodes
    rw [e.1]
    cases a.types[i]? with
    | none => rfl
    | some t =>
      cases t <;> simp only [DS.typeNode, e1]
  have := ha ms n
  unfold DS.findProp at this ⊢
  rw [e2, e1, e.1]
  exact this

end

/-! ## Words after the name of a property -/

theorem up_iff {c : Str} {t : Token} : Pred.upperCase u c t = true ↔ IsUp u c t := by
  unfold Pred.upperCase IsUp
  exact beq_iff_eq

/-- a word of this list or a semicolon -/
def SpecEnd (u : Uni) (ws : List Str) (t : Token) : Prop := (t.typ = .ident ∧ ∃ w ∈ ws, IsUp u w t) ∨ IsSym r!";" t

theorem SpecEnd.mono {ws ws' : List Str} {t : Token} (h : SpecEnd u ws t) (hs : ∀ w ∈ ws, w ∈ ws') : SpecEnd u ws' t :=
  h.imp (fun h => ⟨h.1, h.2.imp fun _ h => ⟨hs _ h.1, h.2⟩⟩) id

theorem SpecEnd.notSym {ws : List Str} {t : Token} {c : Str} (h : SpecEnd u ws t) (hc : r!";" ≠ c) : ¬ IsSym c t := by
  rcases h with h | h
  · exact ident_not_sym h.1
  · exact not_sym h hc

theorem SpecEnd.notUp {ws : List Str} {t : Token} {c : Str} (h : SpecEnd u ws t) (hc : c ∉ r!";" :: ws) : ¬ IsUp u c t := by
  intro h'
  rcases h with ⟨-, w, hw, e⟩ | h
  · have : w = c := e.symm.trans h'
    subst this
    exact hc (List.mem_cons_of_mem _ hw)
  · unfold IsUp at h'
    rw [sym_value h, toUpper_asc (by decide)] at h'
    exact hc (h' ▸ List.mem_cons_self ..)

/-- the words of a property -/
abbrev specWords : List Str := [r!"READ", r!"WRITE", r!"STORED", r!"DEFAULT"]

theorem SpecEnd.stops {t : Token} (h : SpecEnd u specWords t) : StopsExpr u t := by
  have : ∀ w ∈ specWords, ∀ c ∈ contSyms ++ contWords, Asc c ∧ c.map asciiUp ≠ w := by decide +kernel
  rcases h with ⟨-, w, hw, e⟩ | h
  · exact stops_of_up e (this w hw)
  · exact stops_of_value (sym_value h) (by decide)

theorem specExpr_head {w : Str} {ws : List Str} {x : List Token} (h : OkSpecExpr u Γ w x) (hr : Nxt tl rest (SpecEnd u ws)) :
    Nxt tl (x ++ rest) (SpecEnd u (w :: ws)) := by
  rcases h with rfl | ⟨v, x, rfl, h1, h2, -⟩
  · exact hr.mono fun _ h => h.mono fun _ h => List.mem_cons_of_mem _ h
  · exact .cons (.inl ⟨h1, _, List.mem_cons_self .., h2⟩)

theorem accessor_head {ms : List Str} {w : Str} {ws : List Str} {x : List Token} (h : OkAccessor u ms w x) (hr : Nxt tl rest (SpecEnd u ws)) :
    Nxt tl (x ++ rest) (SpecEnd u (w :: ws)) := by
  rcases h with rfl | ⟨v, t, rfl, h1, h2, -⟩
  · exact hr.mono fun _ h => h.mono fun _ h => List.mem_cons_of_mem _ h
  · exact .cons (.inl ⟨h1, _, List.mem_cons_self .., h2⟩)

theorem stored_head {ms : List Str} {ws : List Str} {x : List Token} (h : OkStored u ms x) (hr : Nxt tl rest (SpecEnd u ws)) :
    Nxt tl (x ++ rest) (SpecEnd u (r!"STORED" :: ws)) := by
  rcases h with rfl | ⟨v, t, rfl, h1, h2, -⟩
  · exact hr.mono fun _ h => h.mono fun _ h => List.mem_cons_of_mem _ h
  · exact .cons (.inl ⟨h1, _, List.mem_cons_self .., h2⟩)

/-! ## Parts of a property -/

variable {h : List (TypeId (Decl Node))} {ms : Sects (Decl Node)} {ns : List Str}

theorem acc_findMember {f : Nat → Decl Node → P DS β} {Q : β → DS → Prop} {ts ts' : List Token} {a : Str}
    (hl : u.toLower (u.toLower a) = u.toLower a) (hn : HasNames (DS.sections ms) ns) (ha : u.toLower a ∈ ns.map u.toLower)
    (hf : ∀ d, Acc u tl (fun n => f n d) Γ ts Q Γ' ts') : Acc u tl (fun n => findMember (declEnv u) h ms a >>= f n) Γ ts Q Γ' ts' := by
  refine Acc.op (fun s hs => ?_) hf
  obtain ⟨d, e⟩ := findMember_found (k := s.cx) (h := h) hl hn ha
  refine ⟨d, s.cx, ?_, hs, hs.rooted.own⟩
  unfold findMember
  rw [show (declEnv u).findMember s.cx h ms a = .found d from e]

theorem acc_accessor {w : Str} {ws : List Str} {x : List Token} (hw : w ∉ r!";" :: ws) (hx : OkAccessor u ns w x) (hn : HasNames (DS.sections ms) ns)
    (hr : Nxt tl rest (SpecEnd u ws)) : Acc u tl (fun _ => parseAccessor u (declEnv u) h ms w) Γ (x ++ rest) Any Γ rest := by
  unfold parseAccessor
  rcases hx with rfl | ⟨v, t, rfl, h1, h2, h3, h4, h5⟩
  · exact Acc.isF (hr.mono fun _ h => fun h' => h.notUp hw (up_iff.1 h')) (Acc.pure fun _ => trivial)
  · refine Acc.isT (.cons (up_iff.2 h2)) (Acc.next (.cons trivial) (Acc.cur rfl ?_))
    refine acc_findMember (ns := ns) (by rw [ident_value h3]; exact h4) hn (by rw [ident_value h3]; exact h5) fun d => ?_
    exact Acc.next hr.live (Acc.pure fun _ => trivial)

theorem acc_stored {ws : List Str} {x : List Token} (hw : r!"STORED" ∉ r!";" :: ws) (hx : OkStored u ns x) (hn : HasNames (DS.sections ms) ns)
    (hr : Nxt tl rest (SpecEnd u ws)) : Acc u tl (fun _ => parseStored u (declEnv u) h ms) Γ (x ++ rest) Any Γ rest := by
  unfold parseStored
  rcases hx with rfl | ⟨v, t, rfl, h1, h2, h3⟩
  · exact Acc.isF (hr.mono fun _ h => fun h' => h.notUp hw (up_iff.1 h')) (Acc.pure fun _ => trivial)
  · refine Acc.isT (.cons (up_iff.2 h2)) (Acc.next (.cons trivial) (Acc.cur rfl ?_))
    have ht : t.typ = .ident := by
      rcases h3 with h3 | h3 | h3
      · exact h3.2
      · exact h3.2
      · exact h3.1
    simp only [ident_value ht]
    by_cases c1 : u.toLower t.raw = r!"true"
    · simp only [c1, if_true]
      exact Acc.next hr.live (Acc.pure fun _ => trivial)
    · by_cases c2 : u.toLower t.raw = r!"false"
      · simp only [c2, show (r!"false" = r!"true") = False by decide, if_true, if_false]
        exact Acc.next hr.live (Acc.pure fun _ => trivial)
      · simp only [c1, c2, if_false]
        obtain ⟨-, h4, h5⟩ := (h3.resolve_left fun h => c1 h.1).resolve_left fun h => c2 h.1
        refine acc_findMember (ns := ns) (by rw [h4, h4]) hn (by rw [h4]; exact h5) fun d => ?_
        exact Acc.next hr.live (Acc.pure fun _ => trivial)

theorem acc_propIndex {x : List Token} (hx : OkSpecExpr u Γ r!"INDEX" x) (hr : Nxt tl rest (SpecEnd u specWords)) :
    Acc u tl (parsePropIndex u (declEnv u)) Γ (x ++ rest) Any Γ rest := by
  unfold parsePropIndex
  rcases hx with rfl | ⟨v, x, rfl, h1, h2, h3⟩
  · exact Acc.isF (hr.mono fun _ h => fun h' => h.notUp (by decide) (up_iff.1 h')) (Acc.pure fun _ => trivial)
  · exact Acc.isT (.cons (up_iff.2 h2)) (Acc.next (nxt_append hr)
      (Acc.bind (acc_expr h3 (hr.mono fun _ h => h.stops)) fun _ _ => Acc.pure fun _ => trivial))

theorem acc_default {x : List Token} (hx : OkSpecExpr u Γ r!"DEFAULT" x) (hr : Nxt tl rest (IsSym r!";")) :
    Acc u tl (parseDefault u (declEnv u)) Γ (x ++ rest) Any Γ rest := by
  have hr' : Nxt tl rest (SpecEnd u []) := hr.mono fun _ h => .inr h
  unfold parseDefault
  rcases hx with rfl | ⟨v, x, rfl, h1, h2, h3⟩
  · exact Acc.isF (hr'.mono fun _ h => fun h' => h.notUp (by decide) (up_iff.1 h'))
      (Acc.isF (hr'.mono fun _ h => fun h' => h.notUp (by decide) (up_iff.1 h')) (Acc.pure fun _ => trivial))
  · exact Acc.isT (.cons (up_iff.2 h2)) (Acc.next (nxt_append hr)
      (Acc.bind (acc_expr h3 (hr.mono fun _ h => stops_of_value (sym_value h) (by decide))) fun _ _ => Acc.pure fun _ => trivial))

theorem acc_propType {x : List Token} (hx : OkPropType u Γ x Γ') (hr : Nxt tl rest fun t => ¬ IsSym r!"[" t ∧ ¬ IsSym r!":" t) :
    Acc u tl (parseIntf u (declEnv u)) Γ (x ++ rest) Any Γ' rest := by
  refine Acc.succ ?_
  simp only [parseIntf]
  cases hx with
  | none => exact Acc.isF (hr.mono fun _ h => symF h.1) (Acc.isF (hr.mono fun _ h => symF h.2) (Acc.pure fun _ => trivial))
  | name h1 h2 =>
    refine Acc.isF (.cons (symF (not_sym h1 (by decide)))) (Acc.isT (.cons (symbol_iff.2 h1)) (Acc.next (.cons trivial) ?_))
    exact Acc.bind (acc_typeId h2 hr.live) fun _ _ => Acc.pure fun _ => trivial
  | array h1 h2 h3 h4 h5 =>
    simp only [List.cons_append, List.append_assoc, List.nil_append]
    refine Acc.isT (.cons (symbol_iff.2 h1)) (Acc.stacked (Q := Any) ?_)
    refine Acc.bind (p := parseParams u (declEnv u) r!"[" r!"]") (Q := Any) (Acc.succ ?_) fun _ _ => Acc.eatSym h4 (.cons trivial)
      (Acc.bind (acc_typeId h5 hr.live) fun _ _ => Acc.pure fun _ => trivial)
    simp only [parseParams]
    refine Acc.eatSym h1 nxt_snoc (Acc.bind (acc_params (by decide) h2 (.cons h3)) fun _ _ => ?_)
    exact Acc.eatSym h3 (.cons trivial) (Acc.pure fun _ => trivial)

/-! ## Properties -/

/-- what comes after the members of a section -/
def SectEnd (u : Uni) (t : Token) : Prop := (t.typ = .ident ∧ IsVisibilityWord u t) ∨ IsKw u r!"END" t

theorem vis_up {t : Token} (h : IsVisibilityWord u t) :
    ∃ w, u.toUpper (t.value u) = w ∧ (w = r!"PRIVATE" ∨ w = r!"PROTECTED" ∨ w = r!"PUBLIC" ∨ w = r!"PUBLISHED") :=
  ⟨_, rfl, h⟩

theorem kw_not_vis {t : Token} {c : Str} (h : IsKw u c t) (ha : Asc c)
    (hc : ∀ w ∈ [r!"PRIVATE", r!"PROTECTED", r!"PUBLIC", r!"PUBLISHED"], c.map asciiUp ≠ w) : ¬ IsVisibilityWord u t := by
  rintro (h' | h' | h' | h')
  · exact value_not_up (kw_value h) ha (hc _ (by decide)) h'
  · exact value_not_up (kw_value h) ha (hc _ (by decide)) h'
  · exact value_not_up (kw_value h) ha (hc _ (by decide)) h'
  · exact value_not_up (kw_value h) ha (hc _ (by decide)) h'

theorem SectEnd.props {t : Token} (h : SectEnd u t) : propertyBreak u t = true :=
  propertyBreak_iff.2 (h.imp And.right id)
theorem SectEnd.notSym {c : Str} {t : Token} (h : SectEnd u t) : ¬ IsSym c t := by
  rcases h with h | h
  · exact ident_not_sym h.1
  · exact not_sym_kw h

theorem property_goes {t : Token} (h : IsKw u r!"PROPERTY" t) : ¬ propertyBreak u t = true := by
  rw [propertyBreak_iff]
  rintro (h' | h')
  · exact kw_not_vis h (by decide) (by decide) h'
  · exact kw_ne h (by decide) h'

theorem props_head {x : List Token} {p : Token → Prop} (hx : OkProps u ns Γ x Γ') (hw : ∀ t, IsKw u r!"PROPERTY" t → p t)
    (hr : Nxt tl rest p) : Nxt tl (x ++ rest) p := by
  cases hx with
  | nil => exact hr
  | cons h1 => exact .cons (hw _ h1)

theorem accH_findProp {f : Nat → Option (Decl Node) → P DS β} {Q : β → DS → Prop} {ts ts' : List Token} {a : Str}
    (hf : ∀ o, Acc u tl (fun n => f n o) Γ ts Q Γ' ts') :
    AccH u tl (SearchEnds u h) (fun n => findProp (declEnv u) h ms a >>= f n) Γ ts Q Γ' ts' := by
  refine AccH.bind (p := fun _ => findProp (declEnv u) h ms a) (Q := Any) (Γ1 := Γ) (ts1 := ts) (fun s h1 h2 h3 h4 => ?_) fun o _ => (hf o).h
  have e := h4 ms a
  cases e' : s.cx.findProp u h ms a with
  | hang => exact (e e').elim
  | found d =>
    refine ⟨some d, s, h1, h2, h3, h2.rooted.own, trivial, 0, fun _ _ => ?_⟩
    show findProp (declEnv u) h ms a s = _
    unfold findProp
    rw [show (declEnv u).findProp s.cx h ms a = .found d from e']
  | none =>
    refine ⟨none, s, h1, h2, h3, h2.rooted.own, trivial, 0, fun _ _ => ?_⟩
    show findProp (declEnv u) h ms a s = _
    unfold findProp
    rw [show (declEnv u).findProp s.cx h ms a = .none from e']

theorem accH_prop {w t : Token} {x i r v d e : List Token} (h1 : IsKw u r!"PROPERTY" w) (h2 : t.typ = .ident) (h3 : OkPropType u Γ x Γ1)
    (h4 : OkSpecExpr u Γ1 r!"INDEX" i) (h5 : OkAccessor u ns r!"READ" r) (h6 : OkAccessor u ns r!"WRITE" v) (h7 : OkStored u ns d)
    (h8 : OkSpecExpr u Γ1 r!"DEFAULT" e) (hn : HasNames (DS.sections ms) ns) (hr : Nxt tl rest (IsSym r!";")) :
    AccH u tl (SearchEnds u h) (parseProp u (declEnv u) h ms) Γ (w :: t :: (x ++ (i ++ (r ++ (v ++ (d ++ (e ++ rest))))))) Any Γ1 rest := by
  have g0 : Nxt tl rest (SpecEnd u []) := hr.mono fun _ h => .inr h
  have g1 := specExpr_head h8 g0
  have g2 := stored_head h7 g1
  have g3 := accessor_head h6 g2
  have g4 := accessor_head h5 g3
  have g5 := specExpr_head h4 g4
  refine AccH.succ ?_
  simp only [parseProp]
  refine AccH.current rfl (kw_iff.2 h1) (AccH.next (.cons trivial) (AccH.cur rfl (AccH.traced ?_ (.cons trivial) hr.live)))
  refine AccH.next (nxt_append g5) ?_
  refine AccH.first ends_settled (acc_propType h3 (g5.mono fun _ h => ⟨h.notSym (by decide), h.notSym (by decide)⟩))
    (idle_of_tr fun n => (typesTr (sameTRBase u) n).intf) fun _ _ => ?_
  refine AccH.first ends_settled (acc_propIndex h4 g4) (idle_of_tr fun n => propIndex_tr (sameTRBase u) n) fun _ _ => ?_
  refine accH_findProp fun _ => ?_
  refine Acc.bind (acc_accessor (by decide) h5 hn g3) fun _ _ => Acc.bind (acc_accessor (by decide) h6 hn g2) fun _ _ => ?_
  refine Acc.bind (acc_stored (by decide) h7 hn g1) fun _ _ => Acc.bind (acc_default h8 hr) fun _ _ => ?_
  refine Acc.bind (p := fun _ => parseImplements u (declEnv u)) (Q := Any) (Γ1 := Γ1) (ts1 := rest) ?_ fun _ _ => ?_
  · unfold parseImplements
    exact Acc.isF (g0.mono fun _ h => fun h' => h.notUp (by decide) (up_iff.1 h')) (Acc.pure fun _ => trivial)
  · exact fun s e1 e2 e3 => ⟨_, s, e1, e2, e3, e2.rooted.own, trivial, 0, fun _ _ => rfl⟩

theorem accH_props {x : List Token} (hx : OkProps u ns Γ x Γ') (hn : HasNames (DS.sections ms) ns) (hr : Nxt tl rest (SectEnd u)) :
    AccH u tl (SearchEnds u h) (parseProps u (declEnv u) h ms) Γ (x ++ rest) Any Γ' rest := by
  induction hx with
  | nil =>
    refine AccH.succ ?_
    simp only [parseProps]
    exact AccH.isT (hr.mono fun _ h => h.props) (Acc.pure fun _ => trivial).h
  | @cons Γ w t x Γ1 i r v d e s y Γ' h1 h2 h3 h4 h5 h6 h7 h8 h9 h10 ih =>
    refine AccH.succ ?_
    simp only [parseProps, List.append_assoc, List.cons_append]
    refine AccH.isF (.cons (property_goes h1)) ?_
    have hp := accH_prop (tl := tl) (h := h) (rest := s :: (y ++ rest)) h1 h2 h3 h4 h5 h6 h7 h8 hn (.cons h9)
    have hp := hp.keeps ends_settled (idle_of_tr fun n => (typesTr (sameTRBase u) n).prop h ms)
    refine AccH.bind (hp.mono fun _ _ h => h.2) fun _ _ => ?_
    unfold optSemi
    simp only [P.bind_assoc]
    refine AccH.isT (.cons (symbol_iff.2 h9)) ?_
    simp only [if_true]
    refine AccH.next (nxt_append hr) ?_
    cases h10 with
    | nil =>
      obtain ⟨t, e, ht⟩ := hr
      refine AccH.cur? e ?_
      simp only [ht.props, if_true]
      exact AccH.pure fun _ _ => trivial
    | cons f1 =>
      refine AccH.cur? rfl ?_
      simp only [Bool.not_eq_true _ ▸ property_goes f1, Bool.false_eq_true, if_false]
      exact AccH.bind ih fun _ _ => AccH.pure fun _ _ => trivial

/-! ## Ancestors -/

/-- what is known of the first item of a heritage -/
structure FirstItem (u : Uni) (Γ : NameEnv) (t : Token) (a : TypeId (Decl Node)) (k : DS) : Prop where
  unknown : (u.toLower t.raw, .type) ∉ Γ.seen → k.typeNo a = none
  known : (u.toLower t.raw, .rooted) ∈ Γ.sure ∨ (u.toLower t.raw, .fwd) ∈ Γ.sure →
    ∃ d j, a.ref = .now d ∧ d.node = .type j ∧ (k.types[j]? = some .forward ∨ Grounded k.types j)

theorem acc_firstTypeId {t : Token} (h : OkTypeId u Γ t) (hr : Nxt tl rest fun _ => True) :
    Acc u tl (fun _ => parseTypeId u (declEnv u)) Γ (t :: rest) (FirstItem u Γ t) Γ rest := by
  unfold parseTypeId
  refine acc_noUnit h.2 ?_
  unfold parseTypeIdWithoutUnit
  refine Acc.cur rfl (Acc.next hr fun s h1 h2 h3 => ?_)
  have hg : TP.getDecl (declEnv u).toEnv t.raw s = .ok (s.cx.get u t.raw) s := rfl
  simp only [bind_ok hg]
  cases e : s.cx.get u t.raw with
  | some d =>
    refine ⟨⟨none, Ident.ofTok t, .now d⟩, s, h1, h2, h3, h2.rooted.own, ⟨fun hs => ?_, fun hs => ?_⟩, 0, fun _ _ => rfl⟩
    · have hd : ∀ i, d.node ≠ .type i := by
        intro i ei
        rcases h2.shown t.raw with h' | ⟨d', w, h1, h2, h3⟩
        · obtain ⟨a, b, hn⟩ := embGet_node (h'.symm.trans e)
          rw [ei] at hn
          cases hn
        · rw [e] at h1
          cases h1
          cases w with
          | type => exact hs h2
          | space =>
            rw [ei] at h3
            rcases h3 with ⟨_, h3⟩ | ⟨_, h3⟩ | h3 <;> cases h3
          | label =>
            rw [ei] at h3
            obtain ⟨_, h3⟩ := h3
            cases h3
          | other =>
            rw [ei] at h3
            obtain ⟨_, _, h3, -⟩ := h3
            cases h3
      unfold DS.typeNo DS.ref
      obtain ⟨n, nd⟩ := d
      cases nd <;> first | rfl | exact absurd rfl (hd _)
    · refine ⟨d, ?_⟩
      rcases hs with hs | hs
      · obtain ⟨d', j, g1, g2, g3⟩ := h2.sureT hs (by decide)
        rw [e] at g1
        cases g1
        obtain ⟨i, ty, f1, -, -, f2⟩ := g3 (by decide)
        exact ⟨i, rfl, f1, .inr (f2 rfl)⟩
      · obtain ⟨d', j, g1, g2, g3⟩ := h2.sureT hs (by decide)
        rw [e] at g1
        cases g1
        obtain ⟨i, ty, f1, f2, rfl, -⟩ := g3 (by decide)
        exact ⟨i, rfl, f1, .inl f2⟩
  | none =>
    refine ⟨⟨none, Ident.ofTok t, .later s.cx.refs.length⟩, { s with cx := (s.cx.newRef t.raw).1 }, h1, h2.same rfl rfl rfl, h3,
      h2.rooted.own.same rfl rfl rfl rfl rfl, ⟨fun _ => ?_, fun hs => ?_⟩, 0, fun _ _ => rfl⟩
    · simp [DS.typeNo, DS.ref, DS.newRef]
    · rcases hs with hs | hs <;>
      · obtain ⟨d', j, g1, -⟩ := h2.sureT hs (by decide)
        rw [e] at g1
        cases g1

theorem firstItem_settled {t : Token} {a : TypeId (Decl Node)} : Settled (FirstItem u Γ t a) := by
  intro x y e h
  refine ⟨fun hp => ?_, fun hs => ?_⟩
  · have := h.unknown hp
    unfold DS.typeNo at this ⊢
    rw [e.ref]
    exact this
  · rw [e.1]
    exact h.known hs

theorem noParent_of {a : TypeId (Decl Node)} {as : List (TypeId (Decl Node))} {k : DS} (h : k.typeNo a = none) : NoParent (a :: as) k := by
  unfold NoParent
  rw [List.map_cons, h]
  rfl

theorem ends_imp {p : Prop} : Settled fun k => p → SearchEnds u h k := fun a b e ha hp => ends_settled a b e (ha hp)

/-! ## Names of the members -/

theorem sections_snoc (vis : Visibility) (fs : Fields (Decl Node)) (m : Methods (Decl Node)) :
    ∀ prev, DS.sections (Sects.snoc vis fs m prev) = DS.sections prev ++ [⟨vis == .priv, DS.fields fs, DS.methods m, []⟩]
  | .nil => rfl
  | .cons _ _ _ _ rest => by
    show _ :: DS.sections (Sects.snoc vis fs m rest) = _
    rw [sections_snoc vis fs m rest]
    rfl

theorem sections_add (vis : Visibility) (fs : Fields (Decl Node)) (m : Methods (Decl Node)) (ps : Props (Decl Node)) :
    ∀ prev, DS.sections (Sects.add vis fs m ps prev) = DS.sections prev ++ [⟨vis == .priv, DS.fields fs, DS.methods m, DS.props ps⟩]
  | .nil => rfl
  | .cons _ _ _ _ rest => by
    show _ :: DS.sections (Sects.add vis fs m ps rest) = _
    rw [sections_add vis fs m ps rest]
    rfl

theorem HasNames.snoc {ss : List (Section Node)} {b : Bool} {fs : Fields (Decl Node)} {m : Methods (Decl Node)} {ps : List (Decl Node)}
    {fn mn : List Str} (h : HasNames ss ns) (hf : (DS.fields fs).flatMap ClassField.names = fn) (hm : (DS.methods m).map Decl.name = mn) :
    HasNames (ss ++ [⟨b, DS.fields fs, DS.methods m, ps⟩]) (ns ++ (fn ++ mn)) := by
  intro n hn
  rcases List.mem_append.1 hn with hn | hn
  · obtain ⟨s, h1, h2⟩ := h n hn
    exact ⟨s, List.mem_append_left _ h1, h2⟩
  · refine ⟨_, List.mem_append_right _ (List.mem_singleton.2 rfl), ?_⟩
    unfold sectNames
    rcases List.mem_append.1 hn with hn | hn
    · exact List.mem_append_left _ (hf ▸ hn)
    · exact List.mem_append_right _ (List.mem_append_left _ (hm ▸ hn))

end TP
