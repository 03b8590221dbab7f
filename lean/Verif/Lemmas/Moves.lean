import Verif.Lemmas.Within
import Verif.Lemmas.AccUnit

/-!
# The contexts of several units

Each parser of a unit works in a context of its own; what it declares is not seen by the others.
-/

namespace TP
open Maps Spec

variable {u : Uni} {tl : Tail} {α β : Type} {Γ Γ1 Γ' : NameEnv} {k k' : DS}

/-- the state with another parser in charge -/
abbrev DS.on (k : DS) (c : Nat) : DS := { k with cur := c }

/-- the maps that the context shows -/
def Sees (k : DS) (t : Nat) : Prop := ∃ o, k.w.ctxs.obj k.cur = some o ∧ t ∈ layers k.w.maps o.dm

/-- What a parser with the unit context `cu` has changed: nothing but the table where it declares, and the context `cu`;
it is in its context or a new one, and sees nothing but what it has seen, what is new, and maps in `U`. -/
structure Moves (U : Nat → Prop) (cu : Nat) (k k' : DS) : Prop where
  frame : Frame (OwnS k) k.w.maps k'.w.maps
  len : k.w.ctxs.length ≤ k'.w.ctxs.length
  ctx : ∀ x < k.w.ctxs.length, x ≠ cu → k'.w.ctxs.obj x = k.w.ctxs.obj x
  cur : OwnM k k'.cur
  tgt : ∀ t, Innermost k' t → OwnS k t
  lay : ∀ t, Sees k' t → Sees k t ∨ k.w.maps.length ≤ t ∨ U t
  types : k.types <+: k'.types

theorem Moves.trans {U : Nat → Prop} {cu : Nat} {a b c : DS} (h1 : Moves U cu a b) (h2 : Moves U cu b c) : Moves U cu a c where
  frame := h1.frame.trans (h2.frame.mono fun t ht => by
    rcases ht with ht | ht
    · exact h1.tgt t ht
    · exact .inr (Nat.le_trans h1.frame.len ht))
  len := Nat.le_trans h1.len h2.len
  ctx x hx hn := by rw [h2.ctx x (Nat.lt_of_lt_of_le hx h1.len) hn, h1.ctx x hx hn]
  cur := by
    rcases h2.cur with e | e
    · rw [e]; exact h1.cur
    · exact .inr (Nat.le_trans h1.len e)
  tgt t ht := by
    rcases h2.tgt t ht with h | h
    · exact h1.tgt t h
    · exact .inr (Nat.le_trans h1.frame.len h)
  lay t ht := by
    rcases h2.lay t ht with h | h | h
    · exact h1.lay t h
    · exact .inr (.inl (Nat.le_trans h1.frame.len h))
    · exact .inr (.inr h)
  types := h1.types.trans h2.types

/-- what a parser does in its context -/
abbrev Strolls (k k' : DS) : Prop := Confined (fun t => Sees k t ∨ k.w.maps.length ≤ t) (OwnS k) (OwnM k) k k'

theorem Rooted.strolls (h : Rooted k) : Strolls k k where
  heap := h.own
  reach i o ho hM t ht := by
    rcases hM with rfl | hM
    · exact .inl ⟨o, ho, ht⟩
    · have := Ctxs.obj_lt ho; omega
  newR _ h := .inr h

theorem Strolls.moves (h : Strolls k k') (U : Nat → Prop) (cu : Nat) : Moves U cu k k' where
  frame := h.heap.frame
  len := h.heap.len
  ctx x hx _ := h.heap.ctx x hx
  cur := h.heap.cur
  tgt t ht := Own.innermost h.heap ht
  lay t ht := by
    obtain ⟨o, h1, h2⟩ := ht
    exact (h.reach _ o h1 h.heap.cur t h2).imp_right .inl
  types := h.heap.types

theorem Rets.wp {p : Nat → P DS α} {s s' : PS DS} {a : α} (h : Rets p s a s') {Q : α → PS DS → Prop} (hq : ∀ n, wp (p n) s Q True True) : Q a s' := by
  obtain ⟨N, h⟩ := h
  have := hq N
  unfold TP.wp at this
  rw [h N (Nat.le_refl _)] at this
  exact this

theorem Frame.ownS (f : Frame (fun t => k.w.maps.length ≤ t) k.w.maps k'.w.maps) : Frame (OwnS k) k.w.maps k'.w.maps :=
  f.mono fun _ h => .inr h

/-- The names in a context are those of before if its tables have not changed. -/
theorem Agrees.kept (A : Agrees u Γ k) {S : Nat → Prop} (f : Frame S k.w.maps k'.w.maps) {o o' : CtxObj}
    (h1 : k.w.ctxs.obj k.cur = some o) (h1' : k'.w.ctxs.obj k'.cur = some o') (hd : o'.dm = o.dm) (hp : ∀ p q d, o' ≠ .stackable p q d)
    (hs : ∀ t, Sees k t → ¬ S t) (ht : k.types <+: k'.types) : Agrees u Γ k' := by
  obtain ⟨o1, t, g1, g2, g3⟩ := A.rooted
  rw [h1] at g1; cases g1
  have hlt : t < k.w.maps.length := target_lt g3
  have hget : ∀ name, k'.get u name = k.get u name := by
    intro name
    rw [rooted_get u h1' hp, rooted_get u h1 g2, hd]
    exact f.get u (target_lt' g3) (fun i hi => hs i ⟨o, h1, hi⟩) name
  refine ⟨⟨o', t, h1', hp, by rw [hd, f.tgt _ (target_lt' g3)]; exact g3⟩, fun name => ?_, fun t' ht' key d hf => ?_, fun name b hb => ?_⟩
  · rw [hget]; exact A.shown name
  · obtain ⟨o2, e1, e2⟩ := ht'
    rw [h1'] at e1; cases e1
    rw [hd, f.tgt _ (target_lt' g3), g3] at e2; cases e2
    have htb : tbl k'.w.maps t = tbl k.w.maps t := by
      have := f.obj t hlt (hs t ⟨o, h1, target_mem_layers g3⟩)
      rcases target_obj g3 with e1 | ⟨p, e1⟩ <;> rw [e1] at this <;> (rw [tbl_obj this]; rfl)
    rw [htb] at hf
    exact A.inner t ⟨o, h1, g3⟩ _ _ hf
  · obtain ⟨d, e1, e2⟩ := A.sure name b hb
    exact ⟨d, by rw [hget]; exact e1, e2.mono ht⟩

/-! ## The units of a program -/

/-- The parsers of the units, each with the context of the unit and its own one, do not see what the others declare; nor
does the program, and nobody declares in the map of a unit. -/
structure Seats (cp N : Nat) (k : DS) (cs : List (Nat × Nat)) : Prop where
  len : N ≤ k.w.ctxs.length
  cu : ∀ c ∈ cs, c.1 < N ∧ (c.2 = c.1 ∨ N ≤ c.2)
  cpN : cp < N ∧ ∀ c ∈ cs, c.1 ≠ cp
  one : ∀ (i j : Nat) (c c' : Nat × Nat), cs[i]? = some c → cs[j]? = some c' → c.1 = c'.1 → i = j
  root : ∀ c ∈ cs, Rooted (k.on c.2)
  rootP : Rooted (k.on cp)
  apart : ∀ (i j : Nat) (c c' : Nat × Nat), cs[i]? = some c → cs[j]? = some c' → i ≠ j → ∀ t, Innermost (k.on c.2) t → ¬ Sees (k.on c'.2) t
  apartP : ∀ c ∈ cs, ∀ t, Innermost (k.on c.2) t → ¬ Sees (k.on cp) t
  units : ∀ j m, k.w.unitDm j = some m → m < k.w.maps.length ∧ ∀ c ∈ cs, ¬ Innermost (k.on c.2) m

section
variable {cp N : Nat} {cs : List (Nat × Nat)} {i : Nat} {c : Nat × Nat} {c2 : Nat}

/-- the maps of units -/
def UnitMap (k : DS) (m : Nat) : Prop := ∃ j, k.w.unitDm j = some m

/-- a context that is not the one of the moving parser -/
theorem Moves.obj_same {U : Nat → Prop} {cu x : Nat} (h : Moves U cu k k') {o : CtxObj} (ho : k.w.ctxs.obj x = some o) (hx : x ≠ cu) :
    k'.w.ctxs.obj x = some o := by rw [h.ctx x (Ctxs.obj_lt ho) hx]; exact ho

theorem Moves.sees_same {U : Nat → Prop} {cu x : Nat} {a : Nat} (h : Moves U cu (k.on a) k') (hr : Rooted (k.on x)) (hx : x ≠ cu) {t : Nat} :
    Sees (k'.on x) t ↔ Sees (k.on x) t := by
  obtain ⟨o, r, h1, h2, h3⟩ := hr
  have e := h.obj_same (x := x) (o := o) h1 hx
  constructor
  · rintro ⟨o', g1, g2⟩
    rw [show k'.w.ctxs.obj x = some o from e] at g1; cases g1
    exact ⟨o, h1, by rw [← h.frame.lay _ (target_lt' h3)]; exact g2⟩
  · rintro ⟨o', g1, g2⟩
    rw [h1] at g1; cases g1
    exact ⟨o, e, by show t ∈ layers k'.w.maps o.dm; rw [h.frame.lay _ (target_lt' h3)]; exact g2⟩

theorem Moves.inner_same {U : Nat → Prop} {cu x : Nat} {a : Nat} (h : Moves U cu (k.on a) k') (hr : Rooted (k.on x)) (hx : x ≠ cu) {t : Nat} :
    Innermost (k'.on x) t ↔ Innermost (k.on x) t := by
  obtain ⟨o, r, h1, h2, h3⟩ := hr
  have e := h.obj_same (x := x) (o := o) h1 hx
  constructor
  · rintro ⟨o', g1, g2⟩
    rw [show k'.w.ctxs.obj x = some o from e] at g1; cases g1
    exact ⟨o, h1, by rw [← h.frame.tgt _ (target_lt' h3)]; exact g2⟩
  · rintro ⟨o', g1, g2⟩
    rw [h1] at g1; cases g1
    exact ⟨o, e, by show target k'.w.maps o.dm = some t; rw [h.frame.tgt _ (target_lt' h3)]; exact g2⟩

theorem Moves.rooted_same {U : Nat → Prop} {cu x : Nat} {a : Nat} (h : Moves U cu (k.on a) k') (hr : Rooted (k.on x)) (hx : x ≠ cu) :
    Rooted (k'.on x) := by
  obtain ⟨o, r, h1, h2, h3⟩ := hr
  exact ⟨o, r, h.obj_same (x := x) h1 hx, h2, by
    show target k'.w.maps o.dm = some r
    rw [h.frame.tgt _ (target_lt' h3)]; exact h3⟩

theorem Innermost.sees {t : Nat} (h : Innermost k t) : Sees k t := by
  obtain ⟨o, h1, h2⟩ := h
  exact ⟨o, h1, target_mem_layers h2⟩

theorem Sees.lt {t : Nat} (h : Sees k t) : t < k.w.maps.length := by
  obtain ⟨o, -, h2⟩ := h
  exact layers_lt h2

/-- the context of another unit -/
theorem Seats.other (S : Seats cp N k cs) (hi : cs[i]? = some c) {j : Nat} {c' : Nat × Nat} (hj : cs[j]? = some c') (hn : j ≠ i) : c'.2 ≠ c.1 := by
  intro e
  obtain ⟨h1, h2⟩ := S.cu c' (List.mem_of_getElem? hj)
  obtain ⟨h3, -⟩ := S.cu c (List.mem_of_getElem? hi)
  rcases h2 with h2 | h2
  · exact hn (S.one j i c' c hj hi (h2 ▸ e))
  · omega

/-- A name that others see is not changed. -/
theorem Seats.agrees (S : Seats cp N k cs) (hi : cs[i]? = some c) (M : Moves (UnitMap k) c.1 (k.on c.2) k') {j : Nat} {c' : Nat × Nat}
    (hj : cs[j]? = some c') (hn : j ≠ i) (A : Agrees u Γ (k.on c'.2)) : Agrees u Γ (k'.on c'.2) := by
  obtain ⟨o, r, h1, h2, h3⟩ := id A.rooted
  refine A.kept (S := OwnS (k.on c.2)) (o := o) (o' := o) M.frame h1 (M.obj_same (x := c'.2) h1 (S.other hi hj hn)) rfl h2 ?_ M.types
  rintro t ht (h | h)
  · exact S.apart i j c c' hi hj (Ne.symm hn) t h ht
  · exact absurd h (Nat.not_le.2 ht.lt)

theorem Seats.agreesP (S : Seats cp N k cs) (hi : cs[i]? = some c) (M : Moves (UnitMap k) c.1 (k.on c.2) k')
    (A : Agrees u Γ (k.on cp)) : Agrees u Γ (k'.on cp) := by
  obtain ⟨o, r, h1, h2, h3⟩ := id A.rooted
  have hc := List.mem_of_getElem? hi
  refine A.kept (S := OwnS (k.on c.2)) (o := o) (o' := o) M.frame h1 (M.obj_same (x := cp) h1 (Ne.symm (S.cpN.2 c hc))) rfl h2 ?_ M.types
  rintro t ht (h | h)
  · exact S.apartP c hc t h ht
  · exact absurd h (Nat.not_le.2 ht.lt)

/-- The map of a unit is not changed. -/
theorem Seats.unitObj (S : Seats cp N k cs) (hi : cs[i]? = some c) (M : Moves (UnitMap k) c.1 (k.on c.2) k') {m : Nat} (hm : UnitMap k m) :
    k'.w.maps.obj m = k.w.maps.obj m := by
  obtain ⟨j, hj⟩ := hm
  obtain ⟨h1, h2⟩ := S.units j m hj
  refine M.frame.obj m h1 ?_
  rintro (h | h)
  · exact h2 c (List.mem_of_getElem? hi) h
  · exact absurd h1 (Nat.not_lt.2 h)

theorem Seats.move (S : Seats cp N k cs) (hi : cs[i]? = some c) (M : Moves (UnitMap k) c.1 (k.on c.2) (k'.on c2)) (hr : Rooted (k'.on c2))
    (hu : ∀ j m, k'.w.unitDm j = some m → k.w.unitDm j = some m ∨ (k.w.maps.length ≤ m ∧ m < k'.w.maps.length ∧ ¬ Innermost (k'.on c2) m)) :
    Seats cp N k' (cs.set i (c.1, c2)) := by
  have hc := List.mem_of_getElem? hi
  have hlt : i < cs.length := by
    by_contra h
    rw [List.getElem?_eq_none (by omega)] at hi; cases hi
  have get : ∀ j c', (cs.set i (c.1, c2))[j]? = some c' → (j = i ∧ c' = (c.1, c2)) ∨ (j ≠ i ∧ cs[j]? = some c') := by
    intro j c' h
    rw [List.getElem?_set] at h
    by_cases e : i = j
    · subst e
      rw [if_pos rfl, if_pos hlt] at h
      exact .inl ⟨rfl, (Option.some.inj h).symm⟩
    · rw [if_neg e] at h
      exact .inr ⟨fun h' => e h'.symm, h⟩
  have mem : ∀ c' ∈ cs.set i (c.1, c2), c' = (c.1, c2) ∨ ∃ j, j ≠ i ∧ cs[j]? = some c' := by
    intro c' h
    obtain ⟨j, hj⟩ := List.mem_iff_getElem?.1 h
    rcases get j c' hj with ⟨-, h⟩ | ⟨h, h'⟩
    · exact .inl h
    · exact .inr ⟨j, h, h'⟩
  have hcp : cp ≠ c.1 := Ne.symm (S.cpN.2 c hc)
  have ho : ∀ {j : Nat} {c' : Nat × Nat}, cs[j]? = some c' → j ≠ i → Rooted (k.on c'.2) ∧ c'.2 ≠ c.1 := fun hj hn =>
    ⟨S.root _ (List.mem_of_getElem? hj), S.other hi hj hn⟩
  constructor
  · exact Nat.le_trans S.len M.len
  · intro c' h
    rcases mem c' h with rfl | ⟨j, -, h⟩
    · obtain ⟨h1, h2⟩ := S.cu c hc
      refine ⟨h1, ?_⟩
      rcases M.cur with e | e
      · have e : c2 = c.2 := e
        simp only [e]; exact h2
      · exact .inr (Nat.le_trans S.len e)
    · exact S.cu c' (List.mem_of_getElem? h)
  · refine ⟨S.cpN.1, fun c' h => ?_⟩
    rcases mem c' h with rfl | ⟨j, -, h⟩
    · exact S.cpN.2 c hc
    · exact S.cpN.2 c' (List.mem_of_getElem? h)
  · intro a b x y hx0 hy0 e
    rcases get a x hx0 with ⟨rfl, rfl⟩ | ⟨ha, hx⟩ <;> rcases get b y hy0 with ⟨rfl, rfl⟩ | ⟨hb, hy⟩
    · rfl
    · exact S.one _ _ _ _ hi hy e
    · exact S.one _ _ _ _ hx hi e
    · exact S.one _ _ _ _ hx hy e
  · intro c' h
    rcases mem c' h with rfl | ⟨j, hn, h⟩
    · exact hr
    · exact M.rooted_same (x := c'.2) (ho h hn).1 (ho h hn).2
  · exact M.rooted_same (x := cp) S.rootP hcp
  · intro a b x y hx0 hy0 hab t ht hs
    rcases get a x hx0 with ⟨rfl, rfl⟩ | ⟨ha, hx⟩ <;> rcases get b y hy0 with ⟨rfl, rfl⟩ | ⟨hb, hy⟩
    · exact hab rfl
    · have hs := (M.sees_same (x := y.2) (ho hy hb).1 (ho hy hb).2).1 hs
      rcases M.tgt t ht with h | h
      · exact S.apart a b c y hi hy hab t h hs
      · have := hs.lt; exact absurd h (Nat.not_le.2 this)
    · have ht := (M.inner_same (x := x.2) (ho hx ha).1 (ho hx ha).2).1 ht
      rcases M.lay t hs with h | h | h
      · exact S.apart a b x c hx hi hab t ht h
      · have := ht.sees.lt; exact absurd h (Nat.not_le.2 this)
      · obtain ⟨j, hj⟩ := h
        exact (S.units j t hj).2 x (List.mem_of_getElem? hx) ht
    · have ht := (M.inner_same (x := x.2) (ho hx ha).1 (ho hx ha).2).1 ht
      have hs := (M.sees_same (x := y.2) (ho hy hb).1 (ho hy hb).2).1 hs
      exact S.apart a b x y hx hy hab t ht hs
  · intro c' h t ht hs
    have hs := (M.sees_same (x := cp) S.rootP hcp).1 hs
    rcases mem c' h with rfl | ⟨j, hn, h⟩
    · rcases M.tgt t ht with h | h
      · exact S.apartP c hc t h hs
      · have := hs.lt; exact absurd h (Nat.not_le.2 this)
    · have ht := (M.inner_same (x := c'.2) (ho h hn).1 (ho h hn).2).1 ht
      exact S.apartP c' (List.mem_of_getElem? h) t ht hs
  · intro j m hm
    rcases hu j m hm with h | ⟨h1, h2, h3⟩
    · obtain ⟨g1, g2⟩ := S.units j m h
      refine ⟨Nat.lt_of_lt_of_le g1 M.frame.len, fun c' hc' ht => ?_⟩
      rcases mem c' hc' with rfl | ⟨j', hn, h'⟩
      · rcases M.tgt m ht with h | h
        · exact g2 c hc h
        · exact absurd h (Nat.not_le.2 g1)
      · exact g2 c' (List.mem_of_getElem? h') ((M.inner_same (x := c'.2) (ho h' hn).1 (ho h' hn).2).1 ht)
    · refine ⟨h2, fun c' hc' ht => ?_⟩
      rcases mem c' hc' with rfl | ⟨j', hn, h'⟩
      · exact h3 ht
      · have ht := (M.inner_same (x := c'.2) (ho h' hn).1 (ho h' hn).2).1 ht
        have := ht.sees.lt
        exact absurd h1 (Nat.not_le.2 this)

end

end TP
