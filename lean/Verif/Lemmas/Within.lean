import Verif.Lemmas.SealProgram
import Verif.Lemmas.Evolve

/-!
# The maps a parser can reach

A parser that begins in some context sees the maps it saw at the beginning, and those it has made.
-/

namespace TP
open Spec Maps

/-- `Heap`, and the contexts in `M` see nothing but maps in `R` -/
structure Confined (R S M : Nat → Prop) (k0 k : DS) : Prop where
  heap : Heap (fun _ _ => True) S M k0 k
  reach : ∀ i o, k.w.ctxs.obj i = some o → M i → ∀ t ∈ layers k.w.maps o.dm, R t
  newR : ∀ t, k.w.maps.length ≤ t → R t

namespace Confined
variable {u : Uni} {R S M : Nat → Prop} {k0 k k' : DS}

theorem congr (h : Confined R S M k0 k) (hp : Heap (fun _ _ => True) S M k0 k') (hc : k'.w.ctxs = k.w.ctxs)
    (hl : ∀ i, layers k'.w.maps i = layers k.w.maps i) (hn : k.w.maps.length ≤ k'.w.maps.length) : Confined R S M k0 k' where
  heap := hp
  reach i o ho hM t ht := by
    rw [hc] at ho
    rw [hl] at ht
    exact h.reach i o ho hM t ht
  newR t ht := h.newR t (Nat.le_trans hn ht)

theorem same (h : Confined R S M k0 k) (hw : k'.w = k.w) (hc : k'.cur = k.cur) (hi : k'.items = k.items) (hp : k'.program = k.program)
    (ht : k'.types = k.types) : Confined R S M k0 k' :=
  h.congr (h.heap.same hw hc hi hp ht) (by rw [hw]) (fun _ => by rw [hw]) (by rw [hw]; exact Nat.le_refl _)

theorem rollback (h : Confined R S M k0 k) : Confined R S M k0 k.rollback where
  heap := h.heap.rollback
  reach := by
    obtain ⟨o, ho⟩ := Ctxs.obj_some h.heap.here
    have hod : o.clone.dm = o.dm := by cases o <;> rfl
    unfold DS.rollback World.clone
    rw [ho]
    intro i o' ho' hM
    simp only [Ctxs.obj] at ho' ⊢
    split at ho'
    · cases ho'
      rw [hod]; exact h.reach _ o ho h.heap.cur
    · exact h.reach i o' ho' hM
  newR := by
    unfold DS.rollback World.clone
    cases k.w.ctxs.obj k.cur <;> exact h.newR

/-- a declaration changes nothing but a table -/
theorem _root_.TP.worldSet_same {u : Uni} {w w' : World Node} {c : Nat} {ds : List (Decl Node)} {r : Outcome} (e : w.set u c ds = (w', r)) :
    w'.ctxs = w.ctxs ∧ (∀ i, layers w'.maps i = layers w.maps i) ∧ w'.maps.length = w.maps.length := by
  unfold World.set at e
  cases hd : w.dm c with
  | none => rw [hd] at e; cases e; exact ⟨rfl, fun _ => rfl, rfl⟩
  | some d =>
    rw [hd] at e
    have hset := set_eq u w.maps d ds
    simp only at e
    cases ht : target w.maps d with
    | none =>
      rw [ht] at hset
      cases e
      simp only at hset ⊢
      rw [hset.1]
      exact ⟨trivial, fun _ => rfl, rfl⟩
    | some t =>
      rw [ht] at hset
      simp only at hset
      rw [hset] at e
      cases e
      exact ⟨rfl, fun i => layers_upd _ _ _ i, upd_length _ _ _⟩

theorem _root_.TP.worldOverwrite_same {u : Uni} {w w' : World Node} {c : Nat} {n : Str} {x : Decl Node} {r : Outcome}
    (e : w.overwrite u c n x = (w', r)) :
    w'.ctxs = w.ctxs ∧ (∀ i, layers w'.maps i = layers w.maps i) ∧ w'.maps.length = w.maps.length := by
  unfold World.overwrite at e
  cases hd : w.dm c with
  | none => rw [hd] at e; cases e; exact ⟨rfl, fun _ => rfl, rfl⟩
  | some d =>
    rw [hd] at e
    have hset := overwrite_eq u w.maps d n x
    simp only at e
    cases ht : target w.maps d with
    | none =>
      rw [ht] at hset
      cases e
      simp only at hset ⊢
      rw [hset]
      exact ⟨trivial, fun _ => rfl, rfl⟩
    | some t =>
      rw [ht] at hset
      simp only at hset
      rw [hset] at e
      cases e
      exact ⟨rfl, fun i => layers_upd _ _ _ i, upd_length _ _ _⟩

theorem after (h : Confined R S M k0 k) {r : SetR DS} (g : SetAfter (Heap (fun _ _ => True) S M k0) r)
    (hs : ∀ k', r = .ok k' → k'.w.ctxs = k.w.ctxs ∧ (∀ i, layers k'.w.maps i = layers k.w.maps i) ∧ k'.w.maps.length = k.w.maps.length) :
    SetAfter (Confined R S M k0) r := by
  cases r with
  | ok k' =>
    obtain ⟨h1, h2, h3⟩ := hs k' rfl
    exact h.congr g h1 h2 (Nat.le_of_eq h3.symm)
  | err => trivial
  | panic => exact g

theorem set (h : Confined R S M k0 k) (is : List Ident) (kind : DKind (Decl Node)) : SetAfter (Confined R S M k0) (k.set u is kind) := by
  refine h.after (h.heap.set u (fun _ _ _ _ _ => trivial) is kind) fun k' e => ?_
  unfold DS.set DS.setR at e
  cases hs : k.w.set u k.cur (is.map fun i => ⟨i.name, k.mkNode kind i⟩) with
  | mk w r =>
    rw [hs] at e
    have := worldSet_same hs
    cases r <;> simp only at e <;> cases e
    cases kind <;> exact this

theorem setUses (h : Confined R S M k0 k) (i : Ident) : SetAfter (Confined R S M k0) (k.setUses u i) := by
  refine h.after (h.heap.setUses u (fun _ _ => trivial) i) fun k' e => ?_
  unfold DS.setUses DS.setR at e
  cases hs : k.w.set u k.cur [⟨i.name, .uses k.items.length⟩] with
  | mk w r =>
    rw [hs] at e
    have := worldSet_same hs
    cases r <;> simp only at e <;> cases e
    exact this

theorem newUnit (h : Confined R S M k0 k) (i : Ident) : Confined R S M k0 (k.newUnit i) :=
  h.congr (h.heap.newUnit i) rfl (fun _ => rfl) (Nat.le_refl _)

theorem complete (h : Confined R S M k0 k) (old : Decl Node) (i : Ident) (ty : PType (Decl Node)) :
    SetAfter (Confined R S M k0) (k.complete u old i ty) := by
  refine h.after (h.heap.complete u (fun _ _ _ _ _ => trivial) old i ty) fun k' e => ?_
  have key : ∀ (x : Decl Node) (ts : List (PType (Decl Node))) (ac : List (Nat × Nat)),
      ({ k with types := ts, actual := ac } : DS).setR (k.w.overwrite u k.cur i.name x) = .ok k' →
      k'.w.ctxs = k.w.ctxs ∧ (∀ i, layers k'.w.maps i = layers k.w.maps i) ∧ k'.w.maps.length = k.w.maps.length := by
    intro x ts ac e
    unfold DS.setR at e
    cases hs : k.w.overwrite u k.cur i.name x with
    | mk w r =>
      rw [hs] at e
      have := worldOverwrite_same hs
      cases r <;> simp only at e <;> cases e
      exact this
  unfold DS.complete at e
  split at e
  · split at e
    · exact key _ _ _ e
    · cases e
  · cases e

theorem start (h : Confined R S M k0 k) : Confined R S M k k := ⟨h.heap.start, h.reach, h.newR⟩

theorem stack (h : Confined R S M k0 k) : Confined R S M k.stack k.stack where
  heap := h.heap.stack
  reach := by
    obtain ⟨d, h1, e⟩ := h.heap.stack_eq
    obtain ⟨o, ho, hod⟩ := World.dm_eq.1 h1
    rw [e]
    intro i o' ho' hM t ht
    simp only [World.setDm, World.newMap, Ctxs.obj_modify] at ho' ht
    by_cases c : i = k.cur
    · rw [if_pos c, Option.map_eq_some_iff] at ho'
      obtain ⟨x, -, rfl⟩ := ho'
      rw [Heap.withDm_dm] at ht
      simp only [layers, if_true, List.mem_cons] at ht
      rcases ht with rfl | ht
      · exact h.newR _ (Nat.le_refl _)
      · rw [← hod] at ht; exact h.reach _ o ho h.heap.cur t ht
    · rw [if_neg c] at ho'
      obtain ⟨t', g1, -⟩ := h.heap.owns i o' ho' hM
      rw [layers_cons_lt _ _ (target_lt' g1)] at ht
      exact h.reach i o' ho' hM t ht
  newR := by
    obtain ⟨d, h1, e⟩ := h.heap.stack_eq
    rw [e]
    exact fun t ht => h.newR t (by simp [World.setDm, World.newMap] at ht; omega)

theorem restore (h : Confined R S M k0 k) (h' : Confined R S M k.stack k') : Confined R S M k0 (k.restore k') where
  heap := h.heap.restore h'.heap
  reach := by
    obtain ⟨d, h1, e⟩ := h.heap.stack_eq
    obtain ⟨o, ho, hod⟩ := World.dm_eq.1 h1
    have fr : Frame S k.w.maps k'.w.maps := by
      have := h'.heap.frame
      rw [e] at this
      exact (Frame.cons S (.chained d []) k.w.maps).trans this
    unfold DS.restore
    rw [h1]
    intro i o' ho' hM t ht
    simp only [World.restore, World.setDm, Ctxs.obj_modify] at ho' ht
    by_cases c : i = k.cur
    · rw [if_pos c, Option.map_eq_some_iff] at ho'
      obtain ⟨x, -, rfl⟩ := ho'
      rw [Heap.withDm_dm] at ht
      obtain ⟨t', h2, h3⟩ := h.heap.owns _ o ho h.heap.cur
      rw [hod] at h2
      rw [fr.lay d (target_lt' h2), ← hod] at ht
      exact h.reach _ o ho h.heap.cur t ht
    · rw [if_neg c] at ho'
      exact h'.reach i o' ho' hM t ht
  newR := by
    unfold DS.restore
    cases k.w.dm k.cur <;> exact h'.newR

theorem runRef (h : Confined R S M k0 k) (r : Nat × Str) : Confined R S M k0 (k.runRef u r) := by
  unfold DS.runRef
  cases k.get u r.2 with
  | none => exact h
  | some d => exact h.same rfl rfl rfl rfl rfl

theorem runSection (h : Confined R S M k0 k) : Confined R S M k0 (k.runSection u) := by
  unfold DS.runSection
  generalize k.pending = l
  induction l generalizing k with
  | nil => exact h
  | cons r l ih => exact ih (h.runRef r)

/-- the parser of declarations keeps it -/
theorem base (u : Uni) (R S M : Nat → Prop) (k0 : DS) (tl : Tail) :
    DBase u (declEnv u) (Confined R S M k0) (fun _ => True) tl True True := by
  refine .of (F := fun J => ∃ k1 : DS, J = Confined R S M k1) ?_ ⟨k0, rfl⟩
  rintro J ⟨k1, rfl⟩
  refine ⟨?_, fun c h => ⟨_, ⟨c.stack, rfl⟩, h.stack, fun c' h' => h.restore h'⟩, fun _ _ _ _ c h => ?_⟩
  · exact {
      roll := fun c h => h.rollback
      nil := fun _ => trivial
      hang := fun _ => trivial
      ns := fun _ _ _ _ _ _ _ _ _ _ _ _ => trivial
      set := by
        intro c h is kind _
        have := h.set (u := u) is kind
        rw [show (declEnv u).set c is kind = DS.set u c is kind from rfl]
        cases e : DS.set u c is kind with
        | ok k' => rw [e] at this; exact this
        | err => trivial
        | panic => trivial
      newRef := fun c name h => h.same rfl rfl rfl rfl rfl
      ordinal := fun _ _ _ _ => trivial
      findMember := fun _ _ _ _ _ _ => trivial
      findProp := fun _ _ _ _ _ _ => trivial
      good := fun _ _ _ => trivial
      asm := fun _ _ _ _ _ => trivial }
  · refine ⟨Confined R S M k1, _, ⟨k1, rfl⟩, ⟨h.same rfl rfl rfl rfl rfl, trivial, fun c' h' => ?_⟩, .any ?_ ?_⟩
    · exact (h'.runSection (u := u)).same rfl rfl rfl rfl rfl
    · intro c h i ty
      have := h.set (u := u) [i] (.type ty)
      rw [show (declEnv u).set c [i] (.type ty) = DS.set u c [i] (.type ty) from rfl]
      cases e : DS.set u c [i] (.type ty) with
      | ok k' => rw [e] at this; exact this
      | err => trivial
      | panic => trivial
    · intro c h d i ty
      have := h.complete (u := u) d i ty
      rw [show (declEnv u).complete c d i ty = DS.complete u c d i ty from rfl]
      cases e : DS.complete u c d i ty with
      | ok k' => rw [e] at this; exact this
      | err => trivial
      | panic => trivial

theorem uses (c : DS) (h : Confined R S M k0 c) (i : Ident) : match c.setUses u i with
    | .ok c' => Confined R S M k0 c'
    | .err => True
    | .panic => True := by
  have := h.setUses (u := u) i
  cases e : c.setUses u i with
  | ok k' => rw [e] at this; exact this
  | err => trivial
  | panic => trivial

end Confined

end TP
