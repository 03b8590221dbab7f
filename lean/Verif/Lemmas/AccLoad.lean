import Verif.Lemmas.AccImpl

/-!
# The units of a program are loaded
-/

namespace TP
open Maps Spec

variable {u : Uni} {tl : Tail} {α β : Type} {Γ Γ1 Γ' : NameEnv} {k k' : DS} {cp N : Nat} {cs : List (Nat × Nat)} {files : Str → FileR}

/-! ## New contexts -/

theorem layers_embedded {h : Maps Node} {i : Nat} (e : h.obj i = some .embedded) : layers h i = [i] := by
  induction h with
  | nil => cases e
  | cons o h ih =>
    unfold Maps.obj at e
    unfold layers
    by_cases c : i = (h : List (MapObj Node)).length
    · rw [if_pos c] at e ⊢; cases e; rfl
    · rw [if_neg c] at e ⊢; exact ih e

theorem get_embedded {h : Maps Node} {i : Nat} (e : h.obj i = some .embedded) (name : Str) : h.get u i name = embGet u name := by
  induction h with
  | nil => cases e
  | cons o h ih =>
    unfold Maps.obj at e
    unfold Maps.get
    by_cases c : i = (h : List (MapObj Node)).length
    · rw [if_pos c] at e ⊢; cases e; rfl
    · rw [if_neg c] at e ⊢; exact ih e

theorem Innermost.not_embedded {t : Nat} (h : Innermost k t) : k.w.maps.obj t ≠ some .embedded := by
  obtain ⟨o, -, h2⟩ := h
  intro e
  rcases target_obj h2 with e1 | ⟨p, e1⟩ <;> rw [e1] at e <;> cases e

section
variable (cp) (path : Str)

theorem newContext_obj (x : Nat) : (k.newUnitContext cp path).1.w.ctxs.obj x =
    if x = (k.newUnitContext cp path).2 then some (.unit cp path k.w.maps.length) else k.w.ctxs.obj x := by
  unfold DS.newUnitContext World.newMap
  simp only [Ctxs.obj]

theorem newContext_moves {a : Nat} (hr : Rooted (k.on a)) (U : Nat → Prop) :
    Moves U (k.newUnitContext cp path).2 (k.on a) ((k.newUnitContext cp path).1.on a) := by
  have ho : ∀ x < k.w.ctxs.length, (k.newUnitContext cp path).1.w.ctxs.obj x = k.w.ctxs.obj x := by
    intro x hx
    exact (newContext_obj cp path x).trans (if_neg (Nat.ne_of_lt hx))
  have ha : a < k.w.ctxs.length := by obtain ⟨o, r, h1, -⟩ := hr; exact Ctxs.obj_lt h1
  exact Moves.still hr (.cons _ _ _) (Nat.le_succ _) (fun x hx _ => ho x hx) rfl (ho a ha) List.prefix_rfl

theorem newContext_agrees (h0 : k.w.maps.obj 0 = some .embedded) :
    Agrees u NameEnv.empty ((k.newUnitContext cp path).1.on (k.newUnitContext cp path).2) := by
  have ho : (k.newUnitContext cp path).1.w.ctxs.obj (k.newUnitContext cp path).2 = some (.unit cp path k.w.maps.length) := by
    rw [newContext_obj, if_pos rfl]
  have hp : ∀ p q d, (CtxObj.unit cp path k.w.maps.length) ≠ .stackable p q d := by intro p q d h; cases h
  refine ⟨⟨_, k.w.maps.length, ho, hp, ?_⟩, fun name => .inl ?_, ?_, fun _ _ h => (nomatch h)⟩
  · show target (.chained 0 [] :: k.w.maps) _ = _
    simp only [target, CtxObj.dm, if_true]
  · rw [rooted_get u ho hp]
    show Maps.get u (.chained 0 [] :: k.w.maps) (k.w.maps : List (MapObj Node)).length name = _
    simp only [Maps.get, if_true, Tbl.get, Tbl.find]
    exact get_embedded h0 name
  · rintro t ⟨o, g1, g2⟩ key d hf
    have g1 := ho.symm.trans g1
    cases g1
    have : t = k.w.maps.length := by
      have g2 : target (.chained 0 [] :: k.w.maps) (k.w.maps : List (MapObj Node)).length = some t := g2
      simp only [target, if_true, Option.some.injEq] at g2
      exact g2.symm
    subst this
    have : tbl (k.newUnitContext cp path).1.w.maps k.w.maps.length = [] := by
      show tbl (.chained 0 [] :: k.w.maps) (k.w.maps : List (MapObj Node)).length = _
      simp [tbl]
    rw [this] at hf
    cases hf

/-- A new context is apart from the others. -/
theorem Seats.newContext (S : Seats cp k.w.ctxs.length k cs) (h0 : k.w.maps.obj 0 = some .embedded) (hcs : ∀ c ∈ cs, c.2 = c.1)
    (hd : ∀ j, k.w.unitDm j = none) :
    Seats cp (k.newUnitContext cp path).1.w.ctxs.length (k.newUnitContext cp path).1
      (cs ++ [((k.newUnitContext cp path).2, (k.newUnitContext cp path).2)]) := by
  have hnew : (k.newUnitContext cp path).2 = k.w.ctxs.length := rfl
  have M := newContext_moves cp path S.rootP (fun _ => False)
  have A := newContext_agrees (u := asciiUni) cp path h0
  have hlt : ∀ c ∈ cs, c.2 ≠ k.w.ctxs.length ∧ c.1 ≠ k.w.ctxs.length := by
    intro c hc
    have := (S.cu c hc).1
    rw [hcs c hc]
    exact ⟨Nat.ne_of_lt this, Nat.ne_of_lt this⟩
  have hcp : cp ≠ k.w.ctxs.length := Nat.ne_of_lt S.cpN.1
  have get : ∀ (j : Nat) (c' : Nat × Nat), (cs ++ [(k.w.ctxs.length, k.w.ctxs.length)])[j]? = some c' →
      cs[j]? = some c' ∨ (j = cs.length ∧ c' = (k.w.ctxs.length, k.w.ctxs.length)) := by
    intro j c' h
    by_cases c : j < cs.length
    · rw [List.getElem?_append_left c] at h; exact .inl h
    · rw [List.getElem?_append_right (by omega)] at h
      have : j = cs.length := by
        by_contra hne
        rw [List.getElem?_eq_none (by simp; omega)] at h; cases h
      subst this
      simp only [Nat.sub_self, List.getElem?_cons_zero, Option.some.injEq] at h
      exact .inr ⟨rfl, h.symm⟩
  have inN : ∀ t, Innermost ((k.newUnitContext cp path).1.on k.w.ctxs.length) t → t = k.w.maps.length := by
    rintro t ⟨o, g1, g2⟩
    rw [show (k.newUnitContext cp path).1.w.ctxs.obj k.w.ctxs.length = _ from (newContext_obj cp path _).trans (if_pos rfl)] at g1
    cases g1
    have g2 : target (.chained 0 [] :: k.w.maps) (k.w.maps : List (MapObj Node)).length = some t := g2
    simp only [target, if_true, Option.some.injEq] at g2
    exact g2.symm
  have seN : ∀ t, Sees ((k.newUnitContext cp path).1.on k.w.ctxs.length) t → t = k.w.maps.length ∨ t = 0 := by
    rintro t ⟨o, g1, g2⟩
    rw [show (k.newUnitContext cp path).1.w.ctxs.obj k.w.ctxs.length = _ from (newContext_obj cp path _).trans (if_pos rfl)] at g1
    cases g1
    have g2 : t ∈ layers (.chained 0 [] :: k.w.maps) (k.w.maps : List (MapObj Node)).length := g2
    simp only [layers, if_true, List.mem_cons, layers_embedded h0, List.not_mem_nil, or_false] at g2
    exact g2
  constructor
  · exact Nat.le_refl _
  · intro c hc
    rcases List.mem_append.1 hc with hc | hc
    · exact ⟨Nat.lt_succ_of_lt (S.cu c hc).1, .inl (hcs c hc)⟩
    · rw [List.mem_singleton.1 hc]; exact ⟨Nat.lt_succ_self _, .inl rfl⟩
  · refine ⟨Nat.lt_succ_of_lt S.cpN.1, fun c hc => ?_⟩
    rcases List.mem_append.1 hc with hc | hc
    · exact S.cpN.2 c hc
    · rw [List.mem_singleton.1 hc]; exact Ne.symm hcp
  · intro a b x y hx0 hy0 e
    rcases get a x hx0 with hx | ⟨ha, rfl⟩ <;> rcases get b y hy0 with hy | ⟨hb, rfl⟩
    · exact S.one _ _ _ _ hx hy e
    · exact absurd e (hlt x (List.mem_of_getElem? hx)).2
    · exact absurd e.symm (hlt y (List.mem_of_getElem? hy)).2
    · rw [ha, hb]
  · intro c hc
    rcases List.mem_append.1 hc with hc | hc
    · exact M.rooted_same (x := c.2) (S.root c hc) (hlt c hc).1
    · rw [List.mem_singleton.1 hc]; exact A.rooted
  · exact M.rooted_same (x := cp) S.rootP hcp
  · intro a b x y hx0 hy0 hab t ht hs
    rcases get a x hx0 with hx | ⟨ha, rfl⟩ <;> rcases get b y hy0 with hy | ⟨hb, rfl⟩
    · have hxm := List.mem_of_getElem? hx
      have hym := List.mem_of_getElem? hy
      exact S.apart a b x y hx hy hab t ((M.inner_same (x := x.2) (S.root x hxm) (hlt x hxm).1).1 ht)
        ((M.sees_same (x := y.2) (S.root y hym) (hlt y hym).1).1 hs)
    · have hxm := List.mem_of_getElem? hx
      have ht := (M.inner_same (x := x.2) (S.root x hxm) (hlt x hxm).1).1 ht
      rcases seN t hs with rfl | rfl
      · exact absurd ht.sees.lt (Nat.lt_irrefl _)
      · exact ht.not_embedded h0
    · have hym := List.mem_of_getElem? hy
      have hs := (M.sees_same (x := y.2) (S.root y hym) (hlt y hym).1).1 hs
      rw [inN t ht] at hs
      exact absurd hs.lt (Nat.lt_irrefl _)
    · exact hab (ha.trans hb.symm)
  · intro c hc t ht hs
    have hs := (M.sees_same (x := cp) S.rootP hcp).1 hs
    rcases List.mem_append.1 hc with hc | hc
    · exact S.apartP c hc t ((M.inner_same (x := c.2) (S.root c hc) (hlt c hc).1).1 ht) hs
    · rw [List.mem_singleton.1 hc] at ht
      rw [inN t ht] at hs
      exact absurd hs.lt (Nat.lt_irrefl _)
  · intro j m hm
    have : k.w.unitDm j = some m := hm
    rw [hd] at this; cases this

end

/-- what is known when the contexts of the units are made -/
structure Fresh (u : Uni) (cp : Nat) (Γ : NameEnv) (k : DS) (cs : List (Nat × Nat)) : Prop where
  seats : Seats cp k.w.ctxs.length k cs
  emb : k.w.maps.obj 0 = some .embedded
  cur : ∀ c ∈ cs, c.2 = c.1
  dms : ∀ j, k.w.unitDm j = none
  prog : Agrees u Γ (k.on cp)
  names : ∀ c ∈ cs, Agrees u NameEnv.empty (k.on c.1)

theorem Agrees.newContext {a : Nat} (A : Agrees u Γ (k.on a)) (cp : Nat) (path : Str) : Agrees u Γ ((k.newUnitContext cp path).1.on a) := by
  obtain ⟨o, r, h1, h2, h3⟩ := id A.rooted
  have M := newContext_moves cp path A.rooted (fun _ => False)
  have h1' : (k.newUnitContext cp path).1.w.ctxs.obj a = some o := M.obj_same (x := a) h1 (Nat.ne_of_lt (Ctxs.obj_lt h1))
  exact A.grown (.cons _ _ _) h1 h1' rfl h2 List.prefix_rfl

theorem Fresh.newContext (h : Fresh u cp Γ k cs) (path : Str) :
    Fresh u cp Γ (k.newUnitContext cp path).1 (cs ++ [((k.newUnitContext cp path).2, (k.newUnitContext cp path).2)]) where
  seats := h.seats.newContext cp path h.emb h.cur h.dms
  emb := by
    show Maps.obj (.chained 0 [] :: k.w.maps) 0 = _
    have : 0 < (k.w.maps : List (MapObj Node)).length := by
      cases e : k.w.maps with
      | nil => have := h.emb; rw [e] at this; cases this
      | cons a b => exact Nat.succ_pos _
    unfold Maps.obj
    rw [if_neg (Nat.ne_of_lt this)]
    exact h.emb
  cur c hc := by
    rcases List.mem_append.1 hc with hc | hc
    · exact h.cur c hc
    · rw [List.mem_singleton.1 hc]
  dms := h.dms
  prog := h.prog.newContext cp path
  names c hc := by
    rcases List.mem_append.1 hc with hc | hc
    · exact (h.names c hc).newContext cp path
    · rw [List.mem_singleton.1 hc]; exact newContext_agrees cp path h.emb

theorem newLoaders_rets {sep : Char} : ∀ (es : List UsesEntry) (s : PS DS) (cs : List (Nat × Nat)), Fresh u cp Γ s.cx cs →
    ∃ ls s', newLoaders sep cp es s = .ok ls s' ∧ Fresh u cp Γ s'.cx (cs ++ ls.map fun x => (x.2, x.2)) ∧ s'.cx.items = s.cx.items
  | [], s, cs, h => ⟨[], s, rfl, by simpa using h, rfl⟩
  | e :: es, s, cs, h => by
    by_cases c : UsesItem.effectivePath sep e.path = []
    · obtain ⟨ls, s', h1, h2, h3⟩ := newLoaders_rets (sep := sep) es s cs h
      refine ⟨ls, s', ?_, h2, h3⟩
      rw [newLoaders]
      simp only [c, if_true]
      exact h1
    · obtain ⟨ls, s', h1, h2, h3⟩ := newLoaders_rets (sep := sep) es
        { s with cx := (s.cx.newUnitContext cp (UsesItem.effectivePath sep e.path)).1 } _ (h.newContext (UsesItem.effectivePath sep e.path))
      refine ⟨(UsesItem.effectivePath sep e.path, (s.cx.newUnitContext cp (UsesItem.effectivePath sep e.path)).2) :: ls, s', ?_, ?_, h3⟩
      · rw [newLoaders]
        simp only [c, if_false]
        show (newLoaders sep cp es >>= fun rest => pure (_ :: rest)) { s with cx := (s.cx.newUnitContext cp (UsesItem.effectivePath sep e.path)).1 } = _
        rw [bind_ok h1]
        rfl
      · simpa using h2

/-! ## Units of the program -/

theorem addUnit_obj (cp j x : Nat) : (k.addUnit cp j).w.ctxs.obj x = if x = cp then (k.w.ctxs.obj x).map (CtxObj.addUnit j) else k.w.ctxs.obj x := by
  unfold DS.addUnit
  simp only [Ctxs.obj_modify]

theorem addUnit_some (cp j x : Nat) {o : CtxObj} (h : k.w.ctxs.obj x = some o) : ∃ o', (k.addUnit cp j).w.ctxs.obj x = some o' ∧ o'.dm = o.dm ∧
    ((∀ p q d, o ≠ .stackable p q d) → ∀ p q d, o' ≠ .stackable p q d) := by
  rw [addUnit_obj, h]
  by_cases c : x = cp
  · rw [if_pos c]
    refine ⟨_, rfl, Fine.addUnit_dm j o, fun hp => ?_⟩
    cases o with
    | stackable p q d => exact absurd rfl (hp p q d)
    | unit => intro _ _ _ e; cases e
    | program => intro _ _ _ e; cases e
  · rw [if_neg c]; exact ⟨o, rfl, rfl, id⟩

theorem addUnit_back (cp j x : Nat) {o' : CtxObj} (h : (k.addUnit cp j).w.ctxs.obj x = some o') : ∃ o, k.w.ctxs.obj x = some o ∧ o'.dm = o.dm := by
  rw [addUnit_obj] at h
  by_cases c : x = cp
  · rw [if_pos c] at h
    obtain ⟨o, h1, rfl⟩ := Option.map_eq_some_iff.1 h
    exact ⟨o, h1, Fine.addUnit_dm j o⟩
  · rw [if_neg c] at h; exact ⟨o', h, rfl⟩

theorem addUnit_sees {cp j x t : Nat} (h : Sees ((k.addUnit cp j).on x) t) : Sees (k.on x) t := by
  obtain ⟨o', h1, h2⟩ := h
  obtain ⟨o, h3, h4⟩ := addUnit_back cp j x h1
  exact ⟨o, h3, by rw [← h4]; exact h2⟩

theorem addUnit_inner {cp j x t : Nat} (h : Innermost ((k.addUnit cp j).on x) t) : Innermost (k.on x) t := by
  obtain ⟨o', h1, h2⟩ := h
  obtain ⟨o, h3, h4⟩ := addUnit_back cp j x h1
  exact ⟨o, h3, by rw [← h4]; exact h2⟩

theorem addUnit_rooted {cp j x : Nat} (h : Rooted (k.on x)) : Rooted ((k.addUnit cp j).on x) := by
  obtain ⟨o, r, h1, h2, h3⟩ := h
  obtain ⟨o', h4, h5, h6⟩ := addUnit_some cp j x h1
  exact ⟨o', r, h4, h6 h2, by rw [h5]; exact h3⟩

theorem Agrees.addUnit {x : Nat} (A : Agrees u Γ (k.on x)) (cp j : Nat) : Agrees u Γ ((k.addUnit cp j).on x) := by
  obtain ⟨o, r, h1, h2, h3⟩ := id A.rooted
  obtain ⟨o', h4, h5, h6⟩ := addUnit_some cp j x h1
  exact A.grown (.refl _ _) h1 h4 h5 (h6 h2) List.prefix_rfl

theorem Seats.addUnit (S : Seats cp N k cs) (cp' j : Nat) : Seats cp N (k.addUnit cp' j) cs where
  len := by
    show N ≤ (k.w.ctxs.modify _ cp').length
    rw [Ctxs.length_modify]; exact S.len
  cu := S.cu
  cpN := S.cpN
  one := S.one
  root c hc := addUnit_rooted (S.root c hc)
  rootP := addUnit_rooted S.rootP
  apart i j c c' h1 h2 h3 t ht hs := S.apart i j c c' h1 h2 h3 t (addUnit_inner ht) (addUnit_sees hs)
  apartP c hc t ht hs := S.apartP c hc t (addUnit_inner ht) (addUnit_sees hs)
  units j m hm := ⟨(S.units j m hm).1, fun c hc h => (S.units j m hm).2 c hc (addUnit_inner h)⟩

/-! ## Reading the head of a unit -/

/-- a parser that leaves the items and the current context alone -/
def StaysPut {α : Type} (p : P DS α) : Prop := ∀ s a s', p s = .ok a s' → s'.cx.items = s.cx.items ∧ s'.cx.cur = s.cx.cur

theorem StaysPut.bind {p : P DS α} {f : α → P DS β} (h : StaysPut p) (hf : ∀ a, StaysPut (f a)) : StaysPut (p >>= f) := by
  intro s b s' e
  obtain ⟨a, s1, e1, e2⟩ := ok_bind e
  obtain ⟨h1, h2⟩ := h s a s1 e1
  obtain ⟨h3, h4⟩ := hf a s1 b s' e2
  exact ⟨h3.trans h1, h4.trans h2⟩

theorem NoCx.staysPut {p : P DS α} (h : NoCx p) : StaysPut p := fun s a s' e => by rw [h s a s' e]; exact ⟨rfl, rfl⟩

theorem NoCx.nextIs {pred : Pred} : NoCx (P.nextIs pred) := NoCx.next.bind fun _ => NoCx.current

theorem unitIdent_stays : StaysPut (parseUnitIdent u) := by
  unfold parseUnitIdent
  refine NoCx.current.staysPut.bind fun _ => NoCx.nextIs.staysPut.bind fun _ => StaysPut.bind (fun s a s' e => by cases e; exact ⟨rfl, rfl⟩) fun _ =>
    StaysPut.bind (fun s a s' e => by cases e; exact ⟨rfl, rfl⟩) fun _ => NoCx.staysPut (NoCx.next.bind fun _ => NoCx.bind ?_ fun _ => NoCx.is.bind fun b => ?_)
  · refine NoCx.cur.bind fun t => ?_
    split
    · exact NoCx.next.bind fun _ => .pure
    · exact .pure
  · cases b
    · exact NoCx.pure
    · exact NoCx.next.bind fun _ => .pure

/-- the tokens of a unit from IMPLEMENTATION on -/
def ImplText (u : Uni) (m : UnitParts) (ts : List Token) : Prop := ∃ im e d rest, IsKw u r!"IMPLEMENTATION" im ∧ IsKw u r!"END" e ∧ IsSym r!"." d ∧
  ts = im :: (m.implUses ++ (m.impl ++ (m.init ++ e :: d :: rest)))

/-- the unit is read up to the declarations of the interface -/
structure Headed (u : Uni) (us : List UnitParts) (k : DS) (l : Loader) (m : UnitParts) : Prop where
  cur : l.cur = l.cu
  names : ∃ Γ, Agrees u Γ (k.on l.cur) ∧
    OkIntf u ⟨[u.toLower m.name], (u.toLower m.name, .space) :: (imported u us m.uses ++ Γ.seen), []⟩ m.intf m.names
  ts : ∃ ts, l.ts = m.intf ++ ts ∧ ImplText u m ts

theorem loadUnit_rets {path : Str} {c : Nat} {s : PS DS} {us : List UnitParts} {m : UnitParts} {ts : List Token} (hf : files path = .tokens ts tl)
    (ht : IsUnitText u ts m) (hok : OkParts u us m) (A : Agrees u NameEnv.empty (s.cx.on c)) (U : Nat → Prop) :
    ∃ l s', Rets (fun n => loadUnit u files n path c) s l s' ∧ l.cu = c ∧ Headed u us s'.cx l m ∧ l.head.ident.name = m.name ∧
      l.uses.map (fun e => e.ident.name) = usedNames m.uses ∧ Moves U c (s.cx.on c) (s'.cx.on c) ∧
      (∀ j, s'.cx.w.unitDm j = s.cx.w.unitDm j) ∧ NewItems (s.cx.on c) (s'.cx.on c) l.uses ∧ ∀ n : Nat, (s'.cx.items[n]?).join = (s.cx.items[n]?).join := by
  obtain ⟨w, t, sc, i, im, e, d, rest, h1, h2, h3, h4, h5, h6, h7, hn, rfl⟩ := ht
  obtain ⟨g1, g2, g3, g4, g5⟩ := hok
  have hi : Nxt tl (m.intf ++ im :: (m.implUses ++ (m.impl ++ (m.init ++ e :: d :: rest)))) (BlockWord u) := intf_head g2 (.cons ⟨_, by decide, h5⟩)
  have hu : ∀ t, BlockWord u t → ¬ IsKw u r!"USES" t := by
    rintro t ⟨c, hc, h⟩
    exact kw_ne h (by rintro rfl; revert hc; decide)
  let k0 : DS := { s.cx with cur := c, pending := [] }
  have A0 : Agrees u NameEnv.empty k0 := A.same' rfl rfl rfl rfl
  obtain ⟨a1, k1, A1, O1, ⟨q1, q1'⟩, R1⟩ := (acc_unitIdent (tl := tl) (rest := i :: (m.uses ++ (m.intf ++ im :: (m.implUses ++ (m.impl ++ (m.init ++ e :: d :: rest))))))
    h1 h2 h3 (.cons trivial)).runs A0
  obtain ⟨a2, k2, A2, O2, q2, R2⟩ := (acc_intfUses (tl := tl) h4 g1 (hi.mono hu)).runs A1
  obtain ⟨n1, r1⟩ := R1.inv
  obtain ⟨n2, r2⟩ := R2.inv
  obtain ⟨i1, c1⟩ := unitIdent_stays _ _ _ r1
  have I2 := intfUses_nos r2
  simp only at i1 c1 I2
  have hc2 : k2.cur = c := I2.cur.trans c1
  have M := ((unitIdent_walk A0.rooted R1).moves U c).trans ((intfUses_walk A1.rooted R2).moves U c)
  let l : Loader := ⟨path, m.intf ++ im :: (m.implUses ++ (m.impl ++ (m.init ++ e :: d :: rest))), tl, k2.cur, k2.pending, c, a1.1, a2, [], [], ⟨.nil, [], none⟩⟩
  refine ⟨l, { s with cx := { k2 with cur := s.cx.cur, pending := s.cx.pending } }, ?_, rfl, ⟨hc2, ⟨_, A2.same' rfl rfl rfl rfl, g2⟩, _, rfl, ?_⟩,
    ?_, noFiles_names q2, ?_, ?_, ?_, ?_⟩
  · unfold loadUnit
    simp only [hf]
    refine Rets.bind (Rets.run (a := (a1, a2)) (s1 := ⟨_, tl, k2⟩) ?_) (.one rfl)
    refine Rets.then (a := some w) rfl ?_
    unfold parseIdentAndUses
    exact R1.bind (R2.bind (.one rfl))
  · exact ⟨im, e, d, rest, h5, h6, h7, rfl⟩
  · show a1.1.ident.name = _
    rw [q1, hn]; rfl
  · have := M
    refine ⟨M.frame, M.len, M.ctx, .inl rfl, fun t ht => M.tgt t ?_, fun t ht => M.lay t ?_, M.types⟩
    · unfold Innermost at ht ⊢; rw [hc2]; exact ht
    · unfold Sees at ht ⊢; rw [hc2]; exact ht
  · intro j; exact (O2.dms j).trans (O1.dms j)
  · refine ⟨rfl, ?_, fun e he => ?_, I2.one⟩
    · show s.cx.items.length ≤ k2.items.length
      have := I2.len; rw [i1] at this; exact this
    · have := I2.nos e he
      rw [i1] at this; exact this
  · intro n; exact (O2.items n).trans (O1.items n)

end TP
