import Verif.Lemmas.Heap
import Verif.Lemmas.TraceSection
import Verif.Props.C22

/-!
# The visible names while types are parsed
-/

namespace TP
open Spec Maps

/-- the current context is no `StackableContext` (the parser never makes one), and it has a table -/
def Rooted (k : DS) : Prop :=
  ∃ o t, k.w.ctxs.obj k.cur = some o ∧ (∀ p q d, o ≠ .stackable p q d) ∧ target k.w.maps o.dm = some t

/-- the table of the innermost scope -/
def Innermost (k : DS) (t : Nat) : Prop := ∃ o, k.w.ctxs.obj k.cur = some o ∧ target k.w.maps o.dm = some t

/-- the table of the innermost scope, and all new tables -/
def OwnS (k : DS) (t : Nat) : Prop := Innermost k t ∨ k.w.maps.length ≤ t

/-- the current context and all new contexts -/
def OwnM (k : DS) (i : Nat) : Prop := i = k.cur ∨ k.w.ctxs.length ≤ i

abbrev Own (k0 k : DS) : Prop := Heap (fun _ _ => True) (OwnS k0) (OwnM k0) k0 k

theorem Rooted.own {k : DS} (h : Rooted k) : Own k k := by
  obtain ⟨o, t, h1, h2, h3⟩ := h
  have hl : k.cur < k.w.ctxs.length := Ctxs.obj_lt h1
  refine ⟨?_, .inl rfl, hl, fun _ h => .inr h, fun _ h => .inr h, fun _ _ _ => trivial, .refl _ _, Nat.le_refl _, fun _ _ => rfl,
    List.prefix_rfl, fun _ => rfl, fun _ => rfl, rfl, List.prefix_rfl⟩
  rintro i o' ho' (rfl | hi)
  · rw [h1] at ho'; cases ho'
    exact ⟨t, h3, .inl ⟨o, h1, h3⟩⟩
  · have := Ctxs.obj_lt ho'
    omega

theorem Own.innermost {a b : DS} (h : Own a b) {t : Nat} (ht : Innermost b t) : OwnS a t := by
  obtain ⟨o, h1, h2⟩ := ht
  obtain ⟨t', h3, h4⟩ := h.owns _ o h1 h.cur
  rw [h2] at h3; cases h3; exact h4

theorem Own.subS {a b : DS} (h : Own a b) {t : Nat} (ht : OwnS b t) : OwnS a t := by
  rcases ht with ht | ht
  · exact h.innermost ht
  · exact .inr (Nat.le_trans h.frame.len ht)

theorem Own.subM {a b : DS} (h : Own a b) {i : Nat} (hi : OwnM b i) : OwnM a i := by
  rcases hi with rfl | hi
  · exact h.cur
  · exact .inr (Nat.le_trans h.len hi)

theorem Maps.Frame.mono {S S' : Nat → Prop} {a b : Maps Node} (h : Frame S a b) (hs : ∀ t, S t → S' t) : Frame S' a b :=
  ⟨h.len, fun j hj hn => h.obj j hj fun hS => hn (hs j hS), h.lay, h.tgt⟩

theorem Own.trans {a b c : DS} (h1 : Own a b) (h2 : Own b c) : Own a c where
  owns := by
    intro i o ho hM
    by_cases hi : i < b.w.ctxs.length
    · rw [h2.ctx i hi] at ho
      obtain ⟨t, h3, h4⟩ := h1.owns i o ho hM
      exact ⟨t, by rw [h2.frame.tgt _ (target_lt' h3)]; exact h3, h4⟩
    · obtain ⟨t, h3, h4⟩ := h2.owns i o ho (.inr (by omega))
      exact ⟨t, h3, h1.subS h4⟩
  cur := h1.subM h2.cur
  here := h2.here
  newS t ht := .inr (Nat.le_trans (Nat.le_trans h1.frame.len h2.frame.len) ht)
  newM i hi := .inr (Nat.le_trans (Nat.le_trans h1.len h2.len) hi)
  stored := fun _ _ _ => trivial
  frame := h1.frame.trans (h2.frame.mono fun _ => h1.subS)
  len := Nat.le_trans h1.len h2.len
  ctx i hi := by rw [h2.ctx i (Nat.lt_of_lt_of_le hi h1.len), h1.ctx i hi]
  units := h1.units.trans h2.units
  dms j := (h2.dms j).trans (h1.dms j)
  items j := (h2.items j).trans (h1.items j)
  program := h2.program.trans h1.program
  types := h1.types.trans h2.types

/-! ## Lookups -/

section
variable (u : Uni)

theorem rooted_get {k : DS} {o : CtxObj} (h1 : k.w.ctxs.obj k.cur = some o) (h2 : ∀ p q d, o ≠ .stackable p q d) (name : Str) :
    k.get u name = k.w.maps.get u o.dm name := Props.ctx_get_dm u _ _ _ _ h1 h2 name

/-- a lookup after a table was extended at the innermost scope -/
theorem get_upd {h : Maps Node} {i t : Nat} (ht : target h i = some t) (m : Tbl Node) (name : Str)
    (hm : ∀ d, m.get u name = none → (tbl h t).get u name = some d → False) :
    (upd h t m).get u i name = (m.get u name).or (h.get u i name) := by
  rw [get_layers, get_layers, layers_upd]
  cases e : m.get u name with
  | some d =>
    obtain ⟨l, hl⟩ := layers_target ht
    rw [hl, List.findSome?_cons, own_upd_target u ht, e]
    rfl
  | none =>
    rw [Option.none_or]
    congr 1
    funext j
    by_cases c : j = t
    · subst c
      rw [own_upd_target u ht, own_target u ht, e]
      cases e' : (tbl h j).get u name with
      | none => rfl
      | some d => exact (hm d e e').elim
    · exact own_upd_ne u c name

end

/-- what `name` was before, or a new element of an enumeration, or a parameter -/
def Shadowed (u : Uni) (name : Str) (d : Decl Node) : Prop :=
  ∃ tg i, (tg = .enumElem ∨ tg = .param) ∧ u.toLower i.name = u.toLower name ∧ d = ⟨i.name, .decl tg i⟩

/-- from `k` to `k'` nothing but elements of enumerations and parameters have been declared -/
structure Evolves (u : Uni) (k k' : DS) : Prop where
  own : Own k k'
  get : ∀ name, k'.get u name = k.get u name ∨ ∃ d, k'.get u name = some d ∧ Shadowed u name d
  types : k'.types = k.types
  actual : k'.actual = k.actual

theorem Evolves.trans {u : Uni} {a b c : DS} (h1 : Evolves u a b) (h2 : Evolves u b c) : Evolves u a c where
  own := h1.own.trans h2.own
  get name := by
    rcases h2.get name with e | e
    · rw [e]; exact h1.get name
    · exact .inr e
  types := h2.types.trans h1.types
  actual := h2.actual.trans h1.actual

section
variable {u : Uni} {k k' : DS}

theorem evolves_same (h : Rooted k) (hw : k'.w = k.w) (hc : k'.cur = k.cur) (hi : k'.items = k.items) (hp : k'.program = k.program)
    (ht : k'.types = k.types) (ha : k'.actual = k.actual) : Rooted k' ∧ Evolves u k k' :=
  ⟨by unfold Rooted; rw [hw, hc]; exact h, h.own.same hw hc hi hp ht, fun name => .inl (by unfold DS.get; rw [hw, hc]), ht, ha⟩

theorem evolves_rollback (h : Rooted k) : Rooted k.rollback ∧ Evolves u k k.rollback := by
  have own := h.own.rollback
  obtain ⟨o, t, h1, h2, h3⟩ := h
  have e : k.rollback = { k with w := { k.w with ctxs := o.clone :: k.w.ctxs }, cur := k.w.ctxs.length } := by
    unfold DS.rollback World.clone; rw [h1]
  have hp : (∀ p q d, o.clone ≠ .stackable p q d) ∧ o.clone.dm = o.dm := by
    cases o with
    | stackable p q d => exact absurd rfl (h2 p q d)
    | _ => exact ⟨fun _ _ _ h => (by cases h), rfl⟩
  have ho : k.rollback.w.ctxs.obj k.rollback.cur = some o.clone := by rw [e]; simp [Ctxs.obj]
  have hm : k.rollback.w.maps = k.w.maps := by rw [e]
  refine ⟨⟨o.clone, t, ho, hp.1, by rw [hp.2, hm]; exact h3⟩, own, fun name => .inl ?_, by rw [e], by rw [e]⟩
  rw [rooted_get u ho hp.1, rooted_get u h1 h2, hp.2, hm]

/-- declarations: what the current context becomes -/
theorem evolves_upd (h : Rooted k) {t : Nat} (ht : Innermost k t) (m : Tbl Node)
    (hm : ∀ key, m.find key = none → (tbl k.w.maps t).find key = none) (name : Str)
    {ts : List (PType (Decl Node))} {ac : List (Nat × Nat)} :
    Rooted { k with w := { k.w with maps := Maps.upd k.w.maps t m }, types := ts, actual := ac } ∧
    ({ k with w := { k.w with maps := Maps.upd k.w.maps t m }, types := ts, actual := ac } : DS).get u name =
      (m.get u name).or (k.get u name) := by
  obtain ⟨o, t', h1, h2, h3⟩ := h
  obtain ⟨o', h4, h5⟩ := ht
  rw [h1] at h4; cases h4
  rw [h3] at h5; cases h5
  refine ⟨⟨o, t, h1, h2, by simp only [target_upd]; exact h3⟩, ?_⟩
  rw [rooted_get u (by exact h1) h2, rooted_get u h1 h2]
  refine get_upd u h3 m name fun d e e' => ?_
  have := hm _ e
  unfold Tbl.get at e'
  rw [e'] at this; cases this

theorem evolves_set (h : Rooted k) {is : List Ident} {kind : DKind (Decl Node)} (hk : kind = .enumElem ∨ kind = .param)
    (e : k.set u is kind = .ok k') : Rooted k' ∧ Evolves u k k' := by
  have own := h.own.set u (fun _ _ _ _ _ => trivial) is kind
  rw [e] at own
  have hat : k'.types = k.types ∧ k'.actual = k.actual := by
    rw [setR_ok e]; rcases hk with rfl | rfl <;> exact ⟨rfl, rfl⟩
  obtain ⟨o, t, h1, h2, h3⟩ := id h
  have hd : k.w.dm k.cur = some o.dm := World.dm_eq.2 ⟨o, h1, rfl⟩
  have hset := set_eq u k.w.maps o.dm (is.map fun i => ⟨i.name, k.mkNode kind i⟩)
  rw [h3] at hset
  simp only at hset
  have hk' : k' = { k with w := { k.w with
      maps := Maps.upd k.w.maps t ((tbl k.w.maps t).set u (is.map fun i => ⟨i.name, k.mkNode kind i⟩)).1 } } := by
    rw [setR_ok e]
    unfold World.set
    rw [hd]
    simp only
    rw [hset]
    rcases hk with rfl | rfl <;> rfl
  obtain ⟨pre, post, hp1, hp2, hp3, -⟩ := Tbl.set_spec u (is.map fun i => (⟨i.name, k.mkNode kind i⟩ : Decl Node)) (tbl k.w.maps t) _ _ rfl
  have hm : ∀ key, ((tbl k.w.maps t).set u (is.map fun i => ⟨i.name, k.mkNode kind i⟩)).1.find key = none →
      (tbl k.w.maps t).find key = none := by
    intro key hn
    rw [hp2] at hn
    exact (Option.or_eq_none_iff.1 hn).2
  have main := fun name => evolves_upd (u := u) h ⟨o, h1, h3⟩ _ hm name (ts := k.types) (ac := k.actual)
  refine ⟨?_, own, fun name => ?_, hat.1, hat.2⟩
  · rw [hk']; exact (main []).1
  · have := (main name).2
    rw [← hk'] at this
    rw [this]
    unfold Tbl.get Tbl.regularize
    rw [hp2]
    cases hf : pre.find? (fun d => u.toLower d.name == u.toLower name) with
    | some d =>
      have hd1 := List.find?_some hf
      have hd2 := List.mem_of_find?_eq_some hf
      have hd3 : d ∈ is.map fun i => (⟨i.name, k.mkNode kind i⟩ : Decl Node) := by rw [hp1]; exact List.mem_append_left _ hd2
      obtain ⟨i, -, rfl⟩ := List.mem_map.1 hd3
      refine .inr ⟨_, rfl, ?_⟩
      rcases hk with rfl | rfl
      · exact ⟨.enumElem, i, .inl rfl, by simpa using hd1, rfl⟩
      · exact ⟨.param, i, .inr rfl, by simpa using hd1, rfl⟩
    | none =>
      left
      rw [Option.none_or]
      cases hf2 : (tbl k.w.maps t).find (u.toLower name) with
      | none => rfl
      | some d =>
        rw [Option.some_or]
        rw [rooted_get u h1 h2, get_layers]
        obtain ⟨l, hl⟩ := layers_target h3
        rw [hl, List.findSome?_cons, own_target u h3]
        unfold Tbl.get Tbl.regularize
        rw [hf2]

/-! ## Scopes -/

theorem stack_eq' (h : Rooted k) : ∃ o, k.w.ctxs.obj k.cur = some o ∧ (∀ p q d, o ≠ .stackable p q d) ∧
    (∃ t, target k.w.maps o.dm = some t) ∧
    k.stack = { k with w := (k.w.newMap (.chained o.dm [])).1.setDm k.cur k.w.maps.length } := by
  obtain ⟨o, t, h1, h2, h3⟩ := h
  refine ⟨o, h1, h2, ⟨t, h3⟩, ?_⟩
  have hd : k.w.dm k.cur = some o.dm := World.dm_eq.2 ⟨o, h1, rfl⟩
  unfold DS.stack World.stack
  rw [hd]
  rfl

theorem withDm_plain {o : CtxObj} (d : Nat) (h : ∀ p q d, o ≠ .stackable p q d) : ∀ p q d', CtxObj.withDm d o ≠ .stackable p q d' := by
  cases o with
  | stackable p q d => exact absurd rfl (h p q d)
  | _ => exact fun _ _ _ h => (by cases h)

/-- the context at the beginning of a scope -/
theorem stack_obj (h : Rooted k) : ∃ o, k.w.ctxs.obj k.cur = some o ∧ k.stack.w.ctxs.obj k.cur = some (CtxObj.withDm k.w.maps.length o) ∧
    k.stack.w.maps = .chained o.dm [] :: k.w.maps ∧ k.stack.cur = k.cur ∧ k.stack.w.ctxs.length = k.w.ctxs.length := by
  obtain ⟨o, h1, h2, _, e⟩ := stack_eq' h
  refine ⟨o, h1, ?_, ?_, ?_, ?_⟩ <;> rw [e]
  · simp only [World.setDm, World.newMap, Ctxs.obj_modify, if_pos, h1]; rfl
  · rfl
  · simp only [World.setDm, World.newMap, Ctxs.length_modify]

theorem rooted_stack (h : Rooted k) : Rooted k.stack ∧ (∀ name, k.stack.get u name = k.get u name) := by
  obtain ⟨o, t, h1, h2, h3⟩ := id h
  obtain ⟨o', h1', h4, h5, h6, h7⟩ := stack_obj h
  rw [h1] at h1'; cases h1'
  have hp := withDm_plain k.w.maps.length h2
  refine ⟨⟨_, k.w.maps.length, by rw [h6]; exact h4, hp, ?_⟩, fun name => ?_⟩
  · rw [h5, Heap.withDm_dm]; simp [target]
  · rw [rooted_get u (by rw [h6]; exact h4) hp, rooted_get u h1 h2, h5, Heap.withDm_dm]
    simp [Maps.get, Tbl.get, Tbl.find]

theorem evolves_restore (h : Rooted k) (h' : Rooted k') (e : Evolves u k.stack k') :
    Rooted (k.restore k') ∧ Evolves u k (k.restore k') := by
  obtain ⟨o, t, h1, h2, h3⟩ := id h
  obtain ⟨o', h1', h4, h5, h6, h7⟩ := stack_obj h
  rw [h1] at h1'; cases h1'
  have hd : k.w.dm k.cur = some o.dm := World.dm_eq.2 ⟨o, h1, rfl⟩
  have he : k.restore k' = { k' with w := k'.w.setDm k.cur o.dm } := by unfold DS.restore; rw [hd]; rfl
  -- the scope has its own table
  have hS : ∀ t, OwnS k.stack t → k.w.maps.length ≤ t := by
    rintro t (⟨o', ho', ht'⟩ | ht)
    · rw [h6, h4] at ho'; cases ho'
      rw [Heap.withDm_dm, h5] at ht'
      simp [target] at ht'
      omega
    · rw [h5] at ht; simp at ht; omega
  have own : Heap (fun _ _ => True) (OwnS k) (OwnM k) k.stack k' := {
    owns := fun i o ho hM => by
      obtain ⟨t, h1, h2⟩ := e.own.owns i o ho (by unfold OwnM at hM ⊢; rw [h6, h7]; exact hM)
      exact ⟨t, h1, .inr (hS t h2)⟩
    cur := by have := e.own.cur; unfold OwnM at this ⊢; rw [h6, h7] at this; exact this
    here := e.own.here
    newS := fun t ht => .inr (hS t (e.own.newS t ht))
    newM := fun i hi => by have := e.own.newM i hi; unfold OwnM at this ⊢; rw [h6, h7] at this; exact this
    stored := e.own.stored
    frame := e.own.frame.mono fun t ht => .inr (hS t ht)
    len := e.own.len
    ctx := e.own.ctx
    units := e.own.units
    dms := e.own.dms
    items := e.own.items
    program := e.own.program
    types := e.own.types }
  have own' := h.own.restore own
  have htypes : (k.restore k').types = k.types ∧ (k.restore k').actual = k.actual := by
    have e1 := e.types
    have e2 := e.actual
    obtain ⟨o2, -, -, -, e3⟩ := stack_eq' h
    rw [he]
    rw [e3] at e1 e2
    exact ⟨e1, e2⟩
  by_cases hc : k'.cur = k.cur
  · -- back in the old map
    have hob : k'.w.ctxs.obj k.cur = some (CtxObj.withDm k.w.maps.length o) := by
      rw [e.own.ctx k.cur (by rw [h7]; exact Ctxs.obj_lt h1)]; exact h4
    have hob' : (k.restore k').w.ctxs.obj (k.restore k').cur = some o := by
      rw [he]
      simp only [World.setDm, Ctxs.obj_modify, hc, if_pos, hob]
      cases o <;> rfl
    have hm : (k.restore k').w.maps = k'.w.maps := by rw [he]; rfl
    have fr : Frame (fun t => k.w.maps.length ≤ t) k.w.maps k'.w.maps := by
      have := e.own.frame.mono hS
      rw [h5] at this
      exact (Frame.cons _ _ _).trans this
    have hlt : o.dm < k.w.maps.length := target_lt' h3
    refine ⟨⟨o, t, hob', h2, by rw [hm, fr.tgt _ hlt]; exact h3⟩, own', fun name => .inl ?_, htypes.1, htypes.2⟩
    rw [rooted_get u hob' h2, rooted_get u h1 h2, hm]
    refine fr.get u hlt (fun j hj => ?_) name
    have := layers_lt hj
    omega
  · -- the parser has left the context
    obtain ⟨o2, t2, g1, g2, g3⟩ := id h'
    have hob' : (k.restore k').w.ctxs.obj (k.restore k').cur = some o2 := by
      rw [he]
      simp only [World.setDm, Ctxs.obj_modify]
      rw [if_neg hc]; exact g1
    have hm : (k.restore k').w.maps = k'.w.maps := by rw [he]; rfl
    refine ⟨⟨o2, t2, hob', g2, by rw [hm]; exact g3⟩, own', fun name => ?_, htypes.1, htypes.2⟩
    rw [rooted_get u hob' g2, hm, ← rooted_get u g1 g2, ← (rooted_stack (u := u) h).2]
    exact e.get name

/-- while a type is parsed -/
theorem evolveBase (u : Uni) : TrBase u (declEnv u) Rooted (fun k k' => Rooted k → Rooted k' ∧ Evolves u k k') (fun _ _ => True) where
  refl _ h := evolves_same h rfl rfl rfl rfl rfl rfl
  trans h1 h2 h := ⟨(h2 (h1 h).1).1, (h1 h).2.trans (h2 (h1 h).1).2⟩
  up _ _ := trivial
  roll h := ⟨(evolves_rollback (u := u) h).1, evolves_rollback⟩
  set hk h e := ⟨(evolves_set (u := u) h hk e).1, fun h => evolves_set h hk e⟩
  newRef {c t} h _ :=
    have := evolves_same (u := u) (k' := (c.newRef t.raw).1) h rfl rfl rfl rfl rfl rfl
    ⟨this.1, fun _ => this, trivial⟩
  now _ _ := trivial
  emb _ _ := trivial
  qual _ := trivial
  stack h := ⟨(rooted_stack (u := u) h).1, fun _ _ => trivial⟩
  restore h h' e :=
    have := evolves_restore h h' (e (rooted_stack (u := u) h).1).2
    ⟨this.1, fun _ => this, fun _ _ => trivial⟩

end
end TP
