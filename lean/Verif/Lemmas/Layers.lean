import Verif.Lemmas.Moves
import Verif.Lemmas.NoPanicProgram

/-!
# What a context shows after maps of units were put into it
-/

namespace TP
open Maps Spec

variable {u : Uni} {tl : Tail} {α β : Type} {Γ Γ1 Γ' : NameEnv} {k k' : DS}

theorem get_impl {h : Maps Node} {i : Nat} {tb : Tbl Node} (e : h.obj i = some (.impl tb)) (name : Str) : h.get u i name = tb.get u name := by
  induction h with
  | nil => cases e
  | cons o h ih =>
    unfold Maps.obj at e
    unfold Maps.get
    by_cases c : i = (h : List (MapObj Node)).length
    · rw [if_pos c] at e ⊢; cases e; rfl
    · rw [if_neg c] at e ⊢; exact ih e

theorem layers_impl {h : Maps Node} {i : Nat} {tb : Tbl Node} (e : h.obj i = some (.impl tb)) : layers h i = [i] := by
  induction h with
  | nil => cases e
  | cons o h ih =>
    unfold Maps.obj at e
    unfold layers
    by_cases c : i = (h : List (MapObj Node)).length
    · rw [if_pos c] at e ⊢; cases e; rfl
    · rw [if_neg c] at e ⊢; exact ih e

theorem target_impl {h : Maps Node} {i : Nat} {tb : Tbl Node} (e : h.obj i = some (.impl tb)) : target h i = some i := by
  induction h with
  | nil => cases e
  | cons o h ih =>
    unfold Maps.obj at e
    unfold target
    by_cases c : i = (h : List (MapObj Node)).length
    · rw [if_pos c] at e ⊢; cases e; rfl
    · rw [if_neg c] at e ⊢; exact ih e

/-- the entries of the table stand for things in `ex` -/
def ShowsTbl (ex : List (Str × What)) (tb : Tbl Node) : Prop := ∀ p ∈ tb, ∃ w, (p.1, w) ∈ ex ∧ HasWhat w p.2.node

theorem ShowsTbl.get {ex : List (Str × What)} {tb : Tbl Node} (h : ShowsTbl ex tb) {name : Str} {d : Decl Node} (e : tb.get u name = some d) :
    ∃ w, (u.toLower name, w) ∈ ex ∧ HasWhat w d.node := h _ (find_mem e)

theorem ShowsTbl.mono {ex ex' : List (Str × What)} {tb : Tbl Node} (h : ShowsTbl ex tb) (g : ∀ x ∈ ex, x ∈ ex') : ShowsTbl ex' tb := by
  intro p hp
  obtain ⟨w, h1, h2⟩ := h p hp
  exact ⟨w, g _ h1, h2⟩

/-- Tables around the map of a context. -/
structure Layered (k k' : DS) (o o' : CtxObj) (h2 : Maps Node) (l : Nat) (m : Tbl Node) (as bs : List Nat) : Prop where
  frame : Frame (fun t => k.w.maps.length ≤ t) k.w.maps h2
  old : k.w.ctxs.obj k.cur = some o
  own : h2.obj l = some (.impl m)
  new : k.w.maps.length ≤ l
  maps : k'.w.maps = .composite (l :: as ++ o.dm :: bs) :: h2
  obj : k'.w.ctxs.obj k'.cur = some o'
  dm : o'.dm = (h2 : List (MapObj Node)).length
  plain : ∀ p q d, o' ≠ .stackable p q d
  types : k.types <+: k'.types

namespace Layered
variable {o o' : CtxObj} {h2 : Maps Node} {l : Nat} {m : Tbl Node} {as bs : List Nat}

theorem lt (L : Layered k k' o o' h2 l m as bs) : l < (h2 : List (MapObj Node)).length := by
  have := target_lt (target_impl L.own)
  exact this

theorem target (L : Layered k k' o o' h2 l m as bs) : Spec.target k'.w.maps o'.dm = some l := by
  rw [L.maps, L.dm]
  simp only [Spec.target, if_true, List.cons_append]
  exact target_impl L.own

theorem sees (L : Layered k k' o o' h2 l m as bs) (hr : Rooted k) (has : ∀ i ∈ as ++ bs, ∃ tb, h2.obj i = some (.impl tb)) {t : Nat} (ht : Sees k' t) :
    Sees k t ∨ k.w.maps.length ≤ t ∨ t ∈ as ++ bs := by
  obtain ⟨o1, r, e1, -, e3⟩ := hr
  rw [L.old] at e1; cases e1
  obtain ⟨o2, e4, e5⟩ := ht
  rw [L.obj] at e4; cases e4
  rw [L.maps, L.dm] at e5
  simp only [layers, if_true] at e5
  obtain ⟨i, hi, hit⟩ := List.mem_flatMap.1 e5
  have side : i ∈ as ++ bs → t ∈ as ++ bs := by
    intro hi
    obtain ⟨tb, hb⟩ := has i hi
    rw [layers_impl hb, List.mem_singleton] at hit
    rw [hit]; exact hi
  rcases List.mem_append.1 hi with hi | hi
  · rcases List.mem_cons.1 hi with rfl | hi
    · rw [layers_impl L.own, List.mem_singleton] at hit
      rw [hit]; exact .inr (.inl L.new)
    · exact .inr (.inr (side (List.mem_append_left _ hi)))
  · rcases List.mem_cons.1 hi with rfl | hi
    · rw [L.frame.lay _ (target_lt' e3)] at hit
      exact .inl ⟨o, L.old, hit⟩
    · exact .inr (.inr (side (List.mem_append_right _ hi)))

theorem agrees (L : Layered k k' o o' h2 l m as bs) (A : Agrees u Γ k) {ex : List (Str × What)} {inn : List Str} {σ : List (Str × NameSort)}
    (hm : ShowsTbl ex m) (hin : ∀ p ∈ m, p.1 ∈ inn) (has : ∀ i ∈ as ++ bs, ∃ tb, h2.obj i = some (.impl tb) ∧ ShowsTbl ex tb)
    (hs : σ = [] ∨ (σ = Γ.sure ∧ as = [] ∧ m = [])) : Agrees u ⟨inn, ex ++ Γ.seen, σ⟩ k' := by
  obtain ⟨o1, r, e1, e2, e3⟩ := id A.rooted
  rw [L.old] at e1; cases e1
  have hold : ∀ name, h2.get u o.dm name = k.get u name := by
    intro name
    rw [rooted_get u L.old e2]
    exact L.frame.get u (target_lt' e3) (fun i hi => Nat.not_le.2 (layers_lt hi)) name
  have hget : ∀ name, k'.get u name = (l :: as ++ o.dm :: bs).findSome? fun j => h2.get u j name := by
    intro name
    rw [rooted_get u L.obj L.plain, L.dm, L.maps]
    simp only [Maps.get, if_true]
  have side : ∀ i ∈ as ++ bs, ∀ name d, h2.get u i name = some d → ∃ w, (u.toLower name, w) ∈ ex ++ Γ.seen ∧ HasWhat w d.node := by
    intro i hi name d hd
    obtain ⟨tb, g1, g2⟩ := has i hi
    rw [get_impl g1] at hd
    obtain ⟨w, g3, g4⟩ := g2.get hd
    exact ⟨w, List.mem_append_left _ g3, g4⟩
  refine ⟨⟨o', l, L.obj, L.plain, L.target⟩, fun name => ?_, fun t ht key d hf => ?_, fun name b hb => ?_⟩
  · rw [hget]
    cases e : (l :: as ++ o.dm :: bs).findSome? fun j => h2.get u j name with
    | none =>
      rw [List.findSome?_eq_none_iff] at e
      have := e o.dm (List.mem_append_right _ List.mem_cons_self)
      rw [hold] at this
      rcases A.shown name with g | ⟨d, w, g, -⟩
      · exact .inl (by rw [← g, this])
      · rw [this] at g; cases g
    | some d =>
      obtain ⟨i, hi, hid⟩ := List.exists_of_findSome?_eq_some e
      rcases List.mem_append.1 hi with hi | hi
      · rcases List.mem_cons.1 hi with rfl | hi
        · rw [get_impl L.own] at hid
          obtain ⟨w, g3, g4⟩ := hm.get hid
          exact .inr ⟨d, w, rfl, List.mem_append_left _ g3, g4⟩
        · obtain ⟨w, g3, g4⟩ := side i (List.mem_append_left _ hi) name d hid
          exact .inr ⟨d, w, rfl, g3, g4⟩
      · rcases List.mem_cons.1 hi with rfl | hi
        · rw [hold] at hid
          rcases A.shown name with g | ⟨d', w, g, g', g''⟩
          · exact .inl (by rw [← g, hid])
          · rw [hid] at g; cases g
            exact .inr ⟨d, w, rfl, List.mem_append_right _ g', g''⟩
        · obtain ⟨w, g3, g4⟩ := side i (List.mem_append_right _ hi) name d hid
          exact .inr ⟨d, w, rfl, g3, g4⟩
  · obtain ⟨o2, g1, g2⟩ := ht
    rw [L.obj] at g1; cases g1
    rw [L.target] at g2; cases g2
    have : tbl k'.w.maps l = m := by
      refine tbl_obj (o := .impl m) ?_
      rw [L.maps]
      unfold Maps.obj
      rw [if_neg (Nat.ne_of_lt L.lt)]
      exact L.own
    rw [this] at hf
    exact hin _ (find_mem hf)
  · rcases hs with rfl | ⟨rfl, rfl, rfl⟩
    · cases hb
    · obtain ⟨d, f1, f2⟩ := A.sure name b hb
      refine ⟨d, ?_, f2.mono L.types⟩
      rw [hget]
      simp only [List.nil_append, List.cons_append, List.findSome?_cons, get_impl L.own, hold, f1]
      rfl

theorem moves (L : Layered k k' o o' h2 l m as bs) (hr : Rooted k) {U : Nat → Prop} (has : ∀ i ∈ as ++ bs, U i ∧ ∃ tb, h2.obj i = some (.impl tb))
    {cu : Nat} (hlen : k.w.ctxs.length ≤ k'.w.ctxs.length) (hctx : ∀ x < k.w.ctxs.length, x ≠ cu → k'.w.ctxs.obj x = k.w.ctxs.obj x)
    (hc : k'.cur = k.cur) : Moves U cu k k' where
  frame := by
    rw [L.maps]
    exact (L.frame.trans (.cons _ _ _)).mono fun _ h => .inr h
  len := hlen
  ctx := hctx
  cur := .inl hc
  tgt t ht := by
    obtain ⟨o2, g1, g2⟩ := ht
    rw [L.obj] at g1; cases g1
    rw [L.target] at g2; cases g2
    exact .inr L.new
  lay t ht := by
    rcases L.sees hr (fun i hi => (has i hi).2) ht with h | h | h
    · exact .inl h
    · exact .inr (.inl h)
    · exact .inr (.inr (has t h).1)
  types := L.types

end Layered

/-- Nothing has happened to the context but that there are more maps. -/
theorem Moves.still (hr : Rooted k) {U : Nat → Prop} {cu : Nat} (f : Frame (OwnS k) k.w.maps k'.w.maps) (hlen : k.w.ctxs.length ≤ k'.w.ctxs.length)
    (hctx : ∀ x < k.w.ctxs.length, x ≠ cu → k'.w.ctxs.obj x = k.w.ctxs.obj x) (hc : k'.cur = k.cur)
    (ho : k'.w.ctxs.obj k.cur = k.w.ctxs.obj k.cur) (ht : k.types <+: k'.types) : Moves U cu k k' := by
  obtain ⟨o, r, e1, e2, e3⟩ := id hr
  refine ⟨f, hlen, hctx, .inl hc, ?_, ?_, ht⟩
  · rintro t ⟨o', g1, g2⟩
    rw [hc, ho, e1] at g1; cases g1
    rw [f.tgt _ (target_lt' e3)] at g2
    exact .inl ⟨o, e1, g2⟩
  · rintro t ⟨o', g1, g2⟩
    rw [hc, ho, e1] at g1; cases g1
    rw [f.lay _ (target_lt' e3)] at g2
    exact .inl ⟨o, e1, g2⟩

/-- a scope opened in the context of the unit -/
theorem Moves.stackAt (hr : Rooted k) {U : Nat → Prop} (cu : Nat) : Moves U cu k (k.stackAt cu) := by
  have hr' := hr
  obtain ⟨o, r, e1, e2, e3⟩ := hr
  unfold DS.stackAt World.stack
  cases e : k.w.dm cu with
  | none => exact Moves.still hr' (.refl _ _) (Nat.le_refl _) (fun _ _ _ => rfl) rfl rfl List.prefix_rfl
  | some d =>
    simp only [World.newMap, World.setDm]
    have f : Frame (OwnS k) k.w.maps (.chained d [] :: k.w.maps) := .cons _ _ _
    have hctx : ∀ x < k.w.ctxs.length, x ≠ cu →
        (k.w.ctxs.modify (CtxObj.withDm (k.w.maps : List (MapObj Node)).length) cu).obj x = k.w.ctxs.obj x := by
      intro x _ hx
      rw [Ctxs.obj_modify, if_neg hx]
    by_cases c : k.cur = cu
    · subst c
      obtain ⟨o1, e4, e5⟩ := World.dm_eq.1 e
      rw [e1] at e4; cases e4
      have ho : (k.w.ctxs.modify (CtxObj.withDm (k.w.maps : List (MapObj Node)).length) k.cur).obj k.cur =
          some (CtxObj.withDm (k.w.maps : List (MapObj Node)).length o) := by rw [Ctxs.obj_modify, if_pos rfl, e1]; rfl
      refine ⟨f, by simp only [Ctxs.length_modify]; exact Nat.le_refl _, hctx, .inl rfl, ?_, ?_, List.prefix_rfl⟩
      · rintro t ⟨o', g1, g2⟩
        have := ho.symm.trans g1
        injection this with this
        subst this
        rw [Heap.withDm_dm] at g2
        simp only [Spec.target, if_true, Option.some.injEq] at g2
        exact .inr (Nat.le_of_eq g2)
      · rintro t ⟨o', g1, g2⟩
        have := ho.symm.trans g1
        injection this with this
        subst this
        rw [Heap.withDm_dm] at g2
        simp only [layers, if_true, List.mem_cons] at g2
        rcases g2 with rfl | g2
        · exact .inr (.inl (Nat.le_refl _))
        · rw [← e5] at g2; exact .inl ⟨o, e1, g2⟩
    · exact Moves.still hr' f (by simp only [Ctxs.length_modify]; exact Nat.le_refl _) hctx rfl
        (by simp only [Ctxs.obj_modify]; rw [if_neg c]) List.prefix_rfl

/-! ## The units of a uses clause -/

theorem assignUnits_items {cu : Nat} : ∀ {es : List UsesEntry} {k : DS} {n j : Nat}, ((k.assignUnits u cu es).items[n]?).join = some j →
    (k.items[n]?).join = some j ∨ ∃ e ∈ es, e.no = n ∧ k.w.byName u (k.parentUnits cu) e.ident.name = some j
  | [], k, n, j, h => .inl h
  | e :: es, k, n, j, h => by
    unfold DS.assignUnits at h
    cases hb : k.w.byName u (k.parentUnits cu) e.ident.name with
    | none =>
      rw [hb] at h
      rcases assignUnits_items h with h | ⟨e', h1, h2⟩
      · exact .inl h
      · exact .inr ⟨e', List.mem_cons_of_mem _ h1, h2⟩
    | some j' =>
      rw [hb] at h
      rcases assignUnits_items h with h | ⟨e', h1, h2⟩
      · simp only [List.getElem?_set] at h
        by_cases c : e.no = n
        · rw [if_pos c] at h
          split at h
          · cases h; exact .inr ⟨e, List.mem_cons_self, c, hb⟩
          · cases h
        · rw [if_neg c] at h; exact .inl h
      · exact .inr ⟨e', List.mem_cons_of_mem _ h1, h2⟩

theorem mapM_mem {f : Nat → Option Nat} : ∀ {l ms : List Nat}, l.mapM f = some ms → ∀ m ∈ ms, ∃ j ∈ l, f j = some m
  | [], ms, h, m, hm => by cases h; cases hm
  | j :: l, ms, h, m, hm => by
    rw [List.mapM_cons] at h
    cases e : f j with
    | none => rw [e] at h; cases h
    | some x =>
      rw [e] at h
      cases e' : l.mapM f with
      | none => rw [e'] at h; cases h
      | some xs =>
        rw [e'] at h
        cases h
        rcases List.mem_cons.1 hm with rfl | hm
        · exact ⟨j, List.mem_cons_self, e⟩
        · obtain ⟨j', h1, h2⟩ := mapM_mem e' m hm
          exact ⟨j', List.mem_cons_of_mem _ h1, h2⟩

theorem usedMaps_mem {w : World Node} {us : List (Option Nat)} {ms : List Nat} (h : w.usedMaps us = some ms) {m : Nat} (hm : m ∈ ms) :
    ∃ j, some j ∈ us ∧ w.unitDm j = some m := by
  unfold World.usedMaps at h
  obtain ⟨xs, h1, rfl⟩ := Option.map_eq_some_iff.1 h
  obtain ⟨j, h2, h3⟩ := mapM_mem h1 m (List.mem_reverse.1 hm)
  obtain ⟨o, ho, h4⟩ := List.mem_filterMap.1 h2
  exact ⟨j, by rw [← show o = some j from h4]; exact ho, h3⟩

theorem unitsOf_mem {es : List UsesEntry} {j : Nat} (h : some j ∈ k.unitsOf es) : ∃ e ∈ es, (k.items[e.no]?).join = some j := by
  unfold DS.unitsOf at h
  obtain ⟨e, h1, h2⟩ := List.mem_map.1 h
  exact ⟨e, h1, h2⟩

/-! ## The numbers of the items -/

/-- a parser that leaves the context alone -/
def NoCx {α : Type} (p : P DS α) : Prop := ∀ s a s', p s = .ok a s' → s'.cx = s.cx

theorem NoCx.bind {p : P DS α} {f : α → P DS β} (h : NoCx p) (hf : ∀ a, NoCx (f a)) : NoCx (p >>= f) := by
  intro s b s' e
  change P.bind p f s = _ at e
  unfold P.bind at e
  split at e
  · rename_i a s1 e1
    rw [hf a s1 b s' e, h s a s1 e1]
  all_goals cases e

theorem NoCx.pure {a : α} : NoCx (Pure.pure a : P DS α) := by
  intro s b s' e
  cases e
  rfl

theorem NoCx.fail : NoCx (P.fail : P DS α) := fun _ _ _ e => by cases e
theorem NoCx.wait : NoCx (P.wait : P DS α) := fun _ _ _ e => by cases e

theorem NoCx.ofWp {p : P DS α} (h : ∀ s, wp p s (fun _ s' => s'.cx = s.cx) True True) : NoCx p := by
  intro s a s' e
  have := h s
  unfold wp at this
  rw [e] at this
  exact this

theorem NoCx.cur? : NoCx P.cur? := .ofWp fun _ => wp_cur? (fun _ _ => rfl) (fun _ _ => rfl) (fun _ => trivial)
theorem NoCx.cur : NoCx P.cur := .ofWp fun _ => wp_cur (fun _ _ => rfl) (fun _ => trivial) (fun _ => trivial)
theorem NoCx.next : NoCx P.next := .ofWp fun _ => wp_next rfl (fun _ => trivial)
theorem NoCx.is {pred : Pred} : NoCx (P.is pred) := NoCx.cur.bind fun _ => .pure
theorem NoCx.current {pred : Pred} : NoCx (P.current pred) := .ofWp fun _ => wp_current (fun _ _ _ => rfl) (fun _ => trivial)

theorem NoCx.usesItem : NoCx (parseUsesItem u) := by
  unfold parseUsesItem
  refine .bind .current fun _ => .bind .next fun _ => .bind .is fun b => ?_
  cases b
  · exact .pure
  · refine .bind .next fun _ => .bind ?_ fun _ => .pure
    unfold stringFactor
    refine .bind .cur fun t => ?_
    by_cases c : t.typ = .charString
    · simp only [c, if_true]; exact .bind .next fun _ => .pure
    · simp only [c, if_false]; exact .fail

theorem NoCx.usesItems : ∀ n, NoCx (parseUsesItems u n)
  | 0 => .wait
  | n + 1 => by
    rw [parseUsesItems]
    refine .bind .usesItem fun i => .bind .cur? fun t => ?_
    cases t with
    | none => exact .fail
    | some t =>
      by_cases c : sym r!";" t = true
      · simp only [c, if_true]; exact .pure
      · by_cases c' : sym r!"," t = true
        · simp only [c, c', if_true]; exact .bind .next fun _ => .bind (NoCx.usesItems n) fun _ => .pure
        · simp only [c, c']; exact .fail

/-- the items of a uses clause are new, and have different numbers -/
structure NewItems (k k' : DS) (es : List UsesEntry) : Prop where
  cur : k'.cur = k.cur
  len : k.items.length ≤ k'.items.length
  nos : ∀ e ∈ es, k.items.length ≤ e.no ∧ e.no < k'.items.length
  one : ∀ e ∈ es, ∀ e' ∈ es, e.no = e'.no → e = e'

theorem setUses_len {i : Ident} (h : k.setUses u i = .ok k') : k'.items.length = k.items.length + 1 ∧ k'.cur = k.cur := by
  unfold DS.setUses DS.setR at h
  cases e : k.w.set u k.cur [⟨i.name, .uses k.items.length⟩] with
  | mk w r =>
    rw [e] at h
    cases r <;> simp only at h <;> cases h
    exact ⟨by simp, rfl⟩

theorem declareUses_nos : ∀ (is : List (Ident × Option Str)) {s s' : PS DS} {es : List UsesEntry}, declareUses u is s = .ok es s' →
    NewItems s.cx s'.cx es
  | [], s, s', es, h => by
    cases h
    exact ⟨rfl, Nat.le_refl _, fun _ h => (nomatch h), fun _ h => (nomatch h)⟩
  | (i, p) :: is, s, s', es, h => by
    rw [declareUses] at h
    change P.bind (askP _) _ s = _ at h
    unfold P.bind askP at h
    simp only at h
    change P.bind (stepR _) _ s = _ at h
    unfold P.bind stepR at h
    simp only at h
    cases e : s.cx.setUses u i with
    | err => rw [e] at h; cases h
    | panic => rw [e] at h; cases h
    | ok k1 =>
      rw [e] at h
      simp only at h
      change P.bind (declareUses u is) _ _ = _ at h
      unfold P.bind at h
      cases e1 : declareUses u is { s with cx := k1 } with
      | err => rw [e1] at h; cases h
      | panic => rw [e1] at h; cases h
      | wait => rw [e1] at h; cases h
      | ok rest s2 =>
        rw [e1] at h
        cases h
        obtain ⟨c1, h1, h2, h3⟩ := declareUses_nos is e1
        simp only at c1 h1 h2 h3
        obtain ⟨l1, c2⟩ := setUses_len e
        refine ⟨c1.trans c2, by omega, ?_, ?_⟩
        · intro e he
          rcases List.mem_cons.1 he with rfl | he
          · exact ⟨Nat.le_refl _, by show s.cx.items.length < _; omega⟩
          · have := h2 e he; omega
        · intro e he e' he' hn
          rcases List.mem_cons.1 he with rfl | he <;> rcases List.mem_cons.1 he' with rfl | he'
          · rfl
          · have := h2 e' he'; simp only at hn; omega
          · have := h2 e he; simp only at hn; omega
          · exact h3 e he e' he' hn

theorem uses_nos {n : Nat} {s s' : PS DS} {es : List UsesEntry} (h : parseUses u n s = .ok es s') : NewItems s.cx s'.cx es := by
  unfold parseUses at h
  obtain ⟨_, s1, h1, h⟩ := ok_bind h
  obtain ⟨_, s2, h2, h⟩ := ok_bind h
  obtain ⟨is, s3, h3, h⟩ := ok_bind h
  have := declareUses_nos is h
  rw [NoCx.usesItems n _ _ _ h3, NoCx.next _ _ _ h2, NoCx.current _ _ _ h1] at this
  exact this

theorem optUses_nos {n : Nat} {s s' : PS DS} {es : List UsesEntry} (h : parseOptUses u n s = .ok es s') : NewItems s.cx s'.cx es := by
  unfold parseOptUses at h
  obtain ⟨b, s1, h1, h⟩ := ok_bind h
  have e1 := NoCx.is _ _ _ h1
  cases b with
  | false =>
    simp only [Bool.false_eq_true, if_false] at h
    cases h
    rw [← e1]
    exact ⟨rfl, Nat.le_refl _, fun _ h => (nomatch h), fun _ h => (nomatch h)⟩
  | true =>
    simp only [if_true] at h
    obtain ⟨es', s2, h2, h⟩ := ok_bind h
    obtain ⟨_, s3, h3, h⟩ := ok_bind h
    cases h
    have := uses_nos h2
    rw [← NoCx.next _ _ _ h3, e1] at this
    exact this

theorem intfUses_nos {n : Nat} {s s' : PS DS} {es : List UsesEntry} (h : parseIntfUses u n s = .ok es s') : NewItems s.cx s'.cx es := by
  unfold parseIntfUses at h
  obtain ⟨_, s1, h1, h⟩ := ok_bind h
  obtain ⟨_, s2, h2, h⟩ := ok_bind h
  have := optUses_nos h
  rw [NoCx.next _ _ _ h2, NoCx.current _ _ _ h1] at this
  exact this

end TP
