import Verif.Props.C20

/-!
# C21  Built-in types cannot be changed
-/

namespace TP.Props
open TP Spec Maps
variable {ν : Type} [EmbNode ν] (u : Uni)

/-- everything a program can do with declaration maps -/
inductive HeapOp (ν : Type)
  | set (i : Nat) (ds : List (Decl ν))
  | overwrite (i : Nat) (name : Str) (d : Decl ν)
  | newImpl
  | newChained (p : Nat)
  | newComposite (ms : List Nat)

def HeapOp.run (h : Maps ν) : HeapOp ν → Maps ν
  | .set i ds => (h.set u i ds).1
  | .overwrite i name d => (h.overwrite u i name d).1
  | .newImpl => (alloc h (.impl [])).1
  | .newChained p => (alloc h (.chained p [])).1
  | .newComposite ms => (alloc h (.composite ms)).1

omit [EmbNode ν] in
theorem obj_embedded_run (h : Maps ν) (e : Nat) (he : h.obj e = some .embedded) (op : HeapOp ν) :
    (op.run u h).obj e = some .embedded := by
  have hlt := obj_lt he
  have hne : ¬ e = h.length := by omega
  have hupd : ∀ t m, (upd h t m).obj e = some .embedded := by
    intro t m; rw [obj_upd]; split <;> simp [he, withTbl]
  cases op with
  | set i ds =>
    have h1 := set_eq u h i ds
    simp only [HeapOp.run]
    cases ht : target h i with
    | none => rw [ht] at h1; rw [h1.1]; exact he
    | some t => rw [ht] at h1; rw [h1]; exact hupd _ _
  | overwrite i n d =>
    have h1 := overwrite_eq u h i n d
    simp only [HeapOp.run]
    cases ht : target h i with
    | none => rw [ht] at h1; rw [h1]; exact he
    | some t => rw [ht] at h1; rw [h1]; exact hupd _ _
  | newImpl => simp only [HeapOp.run, alloc, obj, if_neg hne]; exact he
  | newChained p => simp only [HeapOp.run, alloc, obj, if_neg hne]; exact he
  | newComposite ms => simp only [HeapOp.run, alloc, obj, if_neg hne]; exact he

theorem get_embedded (h : Maps ν) (e : Nat) (he : h.obj e = some .embedded) (name : Str) :
    h.get u e name = embGet u name := by
  induction h with
  | nil => cases he
  | cons o h ih =>
    simp only [obj] at he
    by_cases hi : e = h.length
    · rw [if_pos hi] at he; injection he with he; subst he; simp [Maps.get, hi]
    · rw [if_neg hi] at he; simp only [Maps.get, if_neg hi]; exact ih he

theorem toUpper_ascii (s : Str) (h : ∀ x ∈ s, x.toNat < 128) : u.toUpper s = s.map asciiUp := by
  unfold Uni.toUpper
  induction s with
  | nil => rfl
  | cons a s ih => rw [List.map_cons, List.map_cons, u.up_ascii a (h a (by simp)), ih (fun x hx => h x (by simp [hx]))]

/-- a built-in name resolves in any casing -/
theorem embGet_builtin (k : EmbKind) (n name : Str) (hk : (k, n) ∈ embeddedTypes) (hn : SameName name n) :
    embGet u (ν := ν) name = some ⟨n, EmbNode.emb k n⟩ := by
  have hascii : ∀ kn ∈ embeddedTypes, ∀ x ∈ kn.2, x.toNat < 128 := by decide
  have hnd : (embeddedTypes.map (fun kn => kn.2.map asciiUp)).Nodup := by decide
  have key : ∀ l : List (EmbKind × Str), (∀ kn ∈ l, ∀ x ∈ kn.2, x.toNat < 128) →
      (l.map (fun kn => kn.2.map asciiUp)).Nodup → (k, n) ∈ l →
      Tbl.find (l.map (fun kn => (u.toUpper kn.2, (⟨kn.2, EmbNode.emb kn.1 kn.2⟩ : Decl ν)))) (n.map asciiUp) =
        some ⟨n, EmbNode.emb k n⟩ := by
    intro l
    induction l with
    | nil => intro _ _ hm; cases hm
    | cons a l ih =>
      intro h1 h2 hm
      rw [List.map_cons, List.nodup_cons] at h2
      rw [List.map_cons, Tbl.find_cons, toUpper_ascii u a.2 (h1 a (by simp))]
      rcases List.mem_cons.mp hm with rfl | hm
      · simp
      · rw [if_neg]
        · exact ih (fun kn hkn => h1 kn (by simp [hkn])) h2.2 hm
        · intro e; apply h2.1; rw [e]; exact List.mem_map_of_mem (f := fun kn : EmbKind × Str => kn.2.map asciiUp) hm
  have := key embeddedTypes hascii hnd hk
  unfold embGet embTable
  rw [hn.upper u, toUpper_ascii u n (hascii (k, n) hk)]
  exact this

/-- Whatever is done to declaration maps, in any order, a fresh context (a new scope chained to the built-in map,
as `NewProgramContext` and `NewUnitContext` make it) resolves every built-in type name in any casing to the
built-in type. -/
theorem C21_builtin (h : Maps ν) (e : Nat) (he : h.obj e = some .embedded) (ops : List (HeapOp ν))
    (k : EmbKind) (n name : Str) (hk : (k, n) ∈ embeddedTypes) (hn : SameName name n) :
    let h' := ops.foldl (HeapOp.run u) h
    (alloc h' (.chained e [])).1.get u (alloc h' (.chained e [])).2 name = some ⟨n, EmbNode.emb k n⟩ := by
  intro h'
  have he' : h'.obj e = some .embedded := by
    show (ops.foldl (HeapOp.run u) h).obj e = some .embedded
    clear h'
    induction ops generalizing h with
    | nil => exact he
    | cons a ops ih => rw [List.foldl_cons]; exact ih _ (obj_embedded_run u h e he a)
  rw [C20_chained, get_embedded u h' e he', embGet_builtin u k n name hk hn]

omit [EmbNode ν] in
/-- The built-in map itself rejects declarations and ignores Overwrite: neither changes any map. -/
theorem C21_rejects (h : Maps ν) (e : Nat) (he : h.obj e = some .embedded) (ds : List (Decl ν)) (n : Str) (d : Decl ν) :
    h.set u e ds = (h, .err) ∧ h.overwrite u e n d = (h, .ok) := by
  induction h with
  | nil => cases he
  | cons o h ih =>
    simp only [obj] at he
    by_cases hi : e = h.length
    · rw [if_pos hi] at he; injection he with he; subst he; simp [Maps.set, Maps.overwrite, hi]
    · rw [if_neg hi] at he
      obtain ⟨h1, h2⟩ := ih he
      simp only [Maps.set, Maps.overwrite, if_neg hi, h1, h2, and_self]

/-- non-vacuity: `INTEGER` names the built-in `Integer`, and after declaring another `Integer` in a scope a fresh
scope still sees the built-in one. -/
example : SameName r!"INTEGER" r!"Integer" ∧ (EmbKind.ordIdent, r!"Integer") ∈ embeddedTypes ∧
    Maps.obj ([.chained 0 [], .embedded] : Maps Nat) 0 = some .embedded ∧
    (Maps.set asciiUni ([.chained 0 [], .embedded] : Maps Nat) 1 [⟨r!"integer", 7⟩]).1.get asciiUni 1 r!"Integer"
      = some ⟨r!"integer", 7⟩ := ⟨by unfold SameName; decide, by decide, by decide, by decide⟩

end TP.Props
