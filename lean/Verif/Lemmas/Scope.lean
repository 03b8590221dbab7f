import Verif.Spec.Cmd
import Verif.Lemmas.Context

/-!
# Lemmas for nested scopes
-/

namespace TP
open Spec
variable {ν : Type}

namespace Maps

theorem get_append [EmbNode ν] (u : Uni) (n h : Maps ν) (j : Nat) (hj : j < h.length) (name : Str) :
    Maps.get u (n ++ h) j name = Maps.get u h j name := by
  induction n with
  | nil => rfl
  | cons o n ih =>
    have : ¬ j = (n ++ h).length := by simp only [List.length_append]; omega
    rw [List.cons_append]
    simp only [Maps.get, if_neg this]; exact ih

theorem target_cons_lt (o : MapObj ν) (h : Maps ν) {j : Nat} (hj : j < h.length) : target (o :: h) j = target h j := by
  have : ¬ j = h.length := by omega
  simp [target, this]

/-- changing a new table keeps the old objects -/
theorem upd_append (n h : Maps ν) (t : Nat) (m : Tbl ν) (ht : h.length ≤ t) :
    ∃ n', upd (n ++ h) t m = n' ++ h ∧ n'.length = n.length := by
  induction n with
  | nil =>
    refine ⟨[], ?_, rfl⟩
    have key : ∀ (h : Maps ν), h.length ≤ t → upd h t m = h := by
      intro h
      induction h with
      | nil => intro _; rfl
      | cons o h ih =>
        intro hl
        simp only [List.length_cons] at hl
        simp only [upd]
        rw [if_neg (by omega), ih (by omega)]
    exact key h ht
  | cons o n ih =>
    obtain ⟨n', e1, e2⟩ := ih
    rw [List.cons_append]
    simp only [upd]
    split
    · exact ⟨withTbl m o :: n, rfl, by simp⟩
    · exact ⟨o :: n', by rw [e1, List.cons_append], by simp [e2]⟩

/-- `h'` arises from `h` by declarations and new maps: no declaration goes elsewhere than before -/
def Grow (h h' : Maps ν) : Prop := h.length ≤ h'.length ∧ ∀ j < h.length, target h' j = target h j

theorem Grow.refl (h : Maps ν) : Grow h h := ⟨Nat.le_refl _, fun _ _ => rfl⟩

theorem Grow.trans {a b c : Maps ν} (h1 : Grow a b) (h2 : Grow b c) : Grow a c :=
  ⟨Nat.le_trans h1.1 h2.1, fun j hj => by rw [h2.2 j (Nat.lt_of_lt_of_le hj h1.1), h1.2 j hj]⟩

theorem Grow.cons (o : MapObj ν) (h : Maps ν) : Grow h (o :: h) :=
  ⟨by simp, fun _ hj => target_cons_lt o h hj⟩

theorem Grow.upd (h : Maps ν) (t : Nat) (m : Tbl ν) : Grow h (upd h t m) :=
  ⟨by simp, fun _ _ => target_upd h t m _⟩

end Maps

namespace World
open Maps

/-- what a declaration through a context does to the objects -/
theorem set_cases (u : Uni) (w : World ν) (c : Nat) (ds : List (Decl ν)) :
    (w.set u c ds).1 = w ∨ ∃ d t m, w.dm c = some d ∧ target w.maps d = some t ∧
      (w.set u c ds).1 = { w with maps := upd w.maps t m } := by
  unfold World.set
  cases hd : w.dm c with
  | none => left; rfl
  | some d =>
    have h1 := set_eq u w.maps d ds
    simp only
    cases ht : target w.maps d with
    | none => rw [ht] at h1; left; rw [h1.1]
    | some t => rw [ht] at h1; right; exact ⟨d, t, _, rfl, ht, by rw [h1]⟩

theorem overwrite_cases (u : Uni) (w : World ν) (c : Nat) (name : Str) (d' : Decl ν) :
    (w.overwrite u c name d').1 = w ∨ ∃ d t m, w.dm c = some d ∧ target w.maps d = some t ∧
      (w.overwrite u c name d').1 = { w with maps := upd w.maps t m } := by
  unfold World.overwrite
  cases hd : w.dm c with
  | none => left; rfl
  | some d =>
    have h1 := overwrite_eq u w.maps d name d'
    simp only
    cases ht : target w.maps d with
    | none => rw [ht] at h1; left; rw [h1]
    | some t => rw [ht] at h1; right; exact ⟨d, t, _, rfl, ht, by rw [h1]⟩

end World

namespace Spec.Cmd
open Maps

/-- histories keep all contexts that existed before, in particular their current map -/
theorem run_ctxs (u : Uni) (cmd : Cmd ν) (w : World ν) :
    w.ctxs.length ≤ (run u cmd w).1.ctxs.length ∧
      (∀ i < w.ctxs.length, (run u cmd w).1.ctxs.obj i = w.ctxs.obj i) ∧ (run u cmd w).1.units = w.units := by
  induction cmd generalizing w with
  | nop => exact ⟨Nat.le_refl _, fun _ _ => rfl, rfl⟩
  | set c ds =>
    simp only [run]
    rcases World.set_cases u w c ds with e | ⟨_, _, _, _, _, e⟩ <;> rw [e] <;> exact ⟨Nat.le_refl _, fun _ _ => rfl, rfl⟩
  | overwrite c name d =>
    simp only [run]
    rcases World.overwrite_cases u w c name d with e | ⟨_, _, _, _, _, e⟩ <;> rw [e] <;>
      exact ⟨Nat.le_refl _, fun _ _ => rfl, rfl⟩
  | clone c =>
    simp only [run, World.clone]
    cases w.ctxs.obj c with
    | none => exact ⟨Nat.le_refl _, fun _ _ => rfl, rfl⟩
    | some o => exact ⟨by simp, fun i hi => Ctxs.obj_cons_lt _ hi, rfl⟩
  | seq a b iha ihb =>
    simp only [run]
    obtain ⟨a1, a2, a3⟩ := iha w
    cases hr : run u a w with
    | mk w1 out =>
      rw [hr] at a1 a2 a3
      cases out with
      | ok =>
        obtain ⟨b1, b2, b3⟩ := ihb w1
        exact ⟨Nat.le_trans a1 b1, fun i hi => by rw [b2 i (Nat.lt_of_lt_of_le hi a1)]; exact a2 i hi,
          by rw [b3]; exact a3⟩
      | err => exact ⟨a1, a2, a3⟩
      | panic => exact ⟨a1, a2, a3⟩
  | scope c body ih =>
    simp only [run, World.stack]
    cases hd : w.dm c with
    | none => exact ⟨Nat.le_refl _, fun _ _ => rfl, rfl⟩
    | some d =>
      simp only
      obtain ⟨o, ho, hod⟩ := World.dm_eq.mp hd
      obtain ⟨b1, b2, b3⟩ := ih ((w.newMap (.chained d [])).1.setDm c (w.newMap (.chained d [])).2)
      have hl : ((w.newMap (.chained d [])).1.setDm c (w.newMap (.chained d [])).2).ctxs.length = w.ctxs.length := by
        simp [World.setDm, World.newMap, Ctxs.length_modify]
      rw [hl] at b1 b2
      refine ⟨?_, ?_, b3⟩
      · simp only [World.restore, World.setDm, Ctxs.length_modify]; exact b1
      · intro i hi
        simp only [World.restore]
        rw [World.setDm, Ctxs.obj_modify, b2 i hi, World.setDm, Ctxs.obj_modify]
        by_cases hic : i = c
        · subst hic
          simp only [if_true, World.newMap, ho, Option.map_some]
          cases o <;> simp_all [CtxObj.withDm, CtxObj.dm]
        · simp only [if_neg hic, World.newMap]

/-- invariant of a scope opened when there were the maps `h0` and `n` contexts: the old maps are unchanged and
declarations through `c` and newer contexts go to new maps -/
structure Inv (h0 : Maps ν) (c n : Nat) (w : World ν) : Prop where
  old : ∃ new, w.maps = new ++ h0
  inner : ∀ i o, w.ctxs.obj i = some o → (i = c ∨ n ≤ i) → ∃ t, target w.maps o.dm = some t ∧ h0.length ≤ t

theorem Inv.upd {h0 : Maps ν} {c n : Nat} {w : World ν} (hw : Inv h0 c n w) {c' d t : Nat} (m : Tbl ν)
    (hc : c' = c ∨ n ≤ c') (hd : w.dm c' = some d) (ht : target w.maps d = some t) :
    Inv h0 c n { w with maps := Maps.upd w.maps t m } := by
  obtain ⟨new, e⟩ := hw.old
  obtain ⟨o, ho, hod⟩ := World.dm_eq.mp hd
  obtain ⟨t', ht', hge⟩ := hw.inner c' o ho hc
  rw [hod, ht] at ht'
  injection ht' with ht'; subst ht'
  refine ⟨?_, ?_⟩
  · obtain ⟨n', e1, _⟩ := upd_append new h0 t m hge
    exact ⟨n', by simp only [e, e1]⟩
  · intro i o' ho' hi
    obtain ⟨t2, h1, h2⟩ := hw.inner i o' ho' hi
    exact ⟨t2, by simp only [target_upd]; exact h1, h2⟩

theorem run_inv (u : Uni) {h0 : Maps ν} {c n : Nat} (cmd : Cmd ν) (hin : Within c n cmd) (w : World ν)
    (hw : Inv h0 c n w) (hn : n ≤ w.ctxs.length) :
    Inv h0 c n (run u cmd w).1 ∧ Grow w.maps (run u cmd w).1.maps := by
  induction cmd generalizing w with
  | nop => exact ⟨hw, Grow.refl _⟩
  | set c' ds =>
    simp only [run]
    rcases World.set_cases u w c' ds with e | ⟨d, t, m, hd, ht, e⟩ <;> rw [e]
    · exact ⟨hw, Grow.refl _⟩
    · exact ⟨hw.upd m hin hd ht, Grow.upd _ _ _⟩
  | overwrite c' name d' =>
    simp only [run]
    rcases World.overwrite_cases u w c' name d' with e | ⟨d, t, m, hd, ht, e⟩ <;> rw [e]
    · exact ⟨hw, Grow.refl _⟩
    · exact ⟨hw.upd m hin hd ht, Grow.upd _ _ _⟩
  | clone c' =>
    simp only [run, World.clone]
    cases ho : w.ctxs.obj c' with
    | none => exact ⟨hw, Grow.refl _⟩
    | some o =>
      refine ⟨⟨hw.old, ?_⟩, Grow.refl _⟩
      intro i o' ho' hi
      simp only at ho'
      simp only [Ctxs.obj] at ho'
      split at ho'
      · injection ho' with ho'
        subst ho'
        obtain ⟨t, h1, h2⟩ := hw.inner c' o ho hin
        refine ⟨t, ?_, h2⟩
        cases o <;> exact h1
      · exact hw.inner i o' ho' hi
  | seq a b iha ihb =>
    simp only [run]
    have ha := iha hin.1 w hw hn
    have hc := (run_ctxs u a w).1
    cases hr : run u a w with
    | mk w1 out =>
      rw [hr] at ha hc
      cases out with
      | ok =>
        have hb := ihb hin.2 w1 ha.1 (Nat.le_trans hn hc)
        exact ⟨hb.1, ha.2.trans hb.2⟩
      | err => exact ha
      | panic => exact ha
  | scope c' body ih =>
    simp only [run, World.stack]
    cases hd : w.dm c' with
    | none => exact ⟨hw, Grow.refl _⟩
    | some d =>
      simp only
      obtain ⟨o, ho, hod⟩ := World.dm_eq.mp hd
      obtain ⟨td, htd, hged⟩ := hw.inner c' o ho hin.1
      rw [hod] at htd
      have hdl : d < w.maps.length := by
        have key : ∀ (h : Maps ν) (t : Nat), target h d = some t → d < h.length := by
          intro h
          induction h with
          | nil => intro t ht; cases ht
          | cons x h ih =>
            intro t ht
            simp only [target] at ht
            by_cases hx : d = h.length
            · simp [hx]
            · rw [if_neg hx] at ht; have := ih t ht; simp only [List.length_cons]; omega
        exact key _ _ htd
      obtain ⟨new, e⟩ := hw.old
      have hw1 : Inv h0 c n ((w.newMap (.chained d [])).1.setDm c' (w.newMap (.chained d [])).2) := by
        refine ⟨⟨.chained d [] :: new, by simp [World.newMap, World.setDm, e]⟩, ?_⟩
        intro i o' ho' hi
        simp only [World.setDm, World.newMap, Ctxs.obj_modify] at ho' ⊢
        by_cases hic : i = c'
        · rw [if_pos hic] at ho'
          rw [hic, ho] at ho'
          simp only [Option.map_some, Option.some.injEq] at ho'
          refine ⟨w.maps.length, ?_, by rw [e]; simp⟩
          rw [← ho']
          cases o <;> simp [target, CtxObj.withDm, CtxObj.dm]
        · rw [if_neg hic] at ho'
          obtain ⟨t, h1, h2⟩ := hw.inner i o' ho' hi
          have hlt : o'.dm < w.maps.length := by
            have key : ∀ (h : Maps ν) (t : Nat), target h o'.dm = some t → o'.dm < h.length := by
              intro h
              induction h with
              | nil => intro t ht; cases ht
              | cons x h ih =>
                intro t ht
                simp only [target] at ht
                by_cases hx : o'.dm = h.length
                · simp [hx]
                · rw [if_neg hx] at ht; have := ih t ht; simp only [List.length_cons]; omega
            exact key _ _ h1
          exact ⟨t, by rw [target_cons_lt _ _ hlt]; exact h1, h2⟩
      have hb := ih hin.2 _ hw1 (by simpa [World.setDm, World.newMap, Ctxs.length_modify] using hn)
      have hg1 : Grow w.maps ((w.newMap (.chained d [])).1.setDm c' (w.newMap (.chained d [])).2).maps := by
        simp only [World.setDm, World.newMap]; exact Grow.cons _ _
      have hg := hg1.trans hb.2
      refine ⟨⟨?_, ?_⟩, hg⟩
      · exact hb.1.old
      · intro i o' ho' hi
        simp only [World.restore, World.setDm, Ctxs.obj_modify] at ho' ⊢
        by_cases hic : i = c'
        · rw [if_pos hic, Option.map_eq_some_iff] at ho'
          obtain ⟨x, _, hx⟩ := ho'
          refine ⟨td, ?_, hged⟩
          rw [← hx]
          have : (CtxObj.withDm d x).dm = d := by cases x <;> rfl
          rw [this]
          have := hg.2 d hdl
          simp only [World.setDm] at this
          rw [this]; exact htd
        · rw [if_neg hic] at ho'
          exact hb.1.inner i o' ho' hi

/-- opening a scope establishes the invariant -/
theorem inv_stack {w w1 : World ν} {c bak : Nat} (h : w.stack c = some (w1, bak)) :
    Inv w.maps c w.ctxs.length w1 ∧ w1.ctxs.length = w.ctxs.length := by
  unfold World.stack at h
  cases hd : w.dm c with
  | none => rw [hd] at h; cases h
  | some d =>
    rw [hd] at h
    simp only [Option.some.injEq, Prod.mk.injEq] at h
    obtain ⟨rfl, rfl⟩ := h
    refine ⟨⟨⟨[.chained d []], by simp [World.newMap, World.setDm]⟩, ?_⟩, by
      simp [World.newMap, World.setDm, Ctxs.length_modify]⟩
    intro i o ho hi
    have hlt := Ctxs.obj_lt ho
    simp only [World.newMap, World.setDm, Ctxs.length_modify] at hlt
    have hic : i = c := by rcases hi with h | h <;> omega
    simp only [World.setDm, World.newMap, Ctxs.obj_modify, if_pos hic] at ho ⊢
    rw [Option.map_eq_some_iff] at ho
    obtain ⟨x, _, hx⟩ := ho
    refine ⟨w.maps.length, ?_, Nat.le_refl _⟩
    rw [← hx]
    cases x <;> simp [target, CtxObj.withDm, CtxObj.dm]

end Spec.Cmd
end TP
