import Verif.Lemmas.Scope
import Verif.Model.UnitProc

/-!
# What a parser history can change
-/

namespace TP
open Spec
variable {ν : Type}

namespace Maps

theorem layers_cons_lt (o : MapObj ν) (h : Maps ν) {j : Nat} (hj : j < h.length) : layers (o :: h) j = layers h j := by
  have : ¬ j = h.length := by omega
  simp [layers, this]

theorem obj_cons_lt' (o : MapObj ν) (h : Maps ν) {j : Nat} (hj : j < h.length) : Maps.obj (o :: h) j = Maps.obj h j := by
  have : ¬ j = h.length := by omega
  simp [Maps.obj, this]

/-- only tables in `S` differ; nothing else changed about the old maps -/
structure Frame (S : Nat → Prop) (h0 h : Maps ν) : Prop where
  len : h0.length ≤ h.length
  obj : ∀ j < h0.length, ¬ S j → h.obj j = h0.obj j
  lay : ∀ j < h0.length, layers h j = layers h0 j
  tgt : ∀ j < h0.length, target h j = target h0 j

theorem Frame.refl (S : Nat → Prop) (h : Maps ν) : Frame S h h :=
  ⟨Nat.le_refl _, fun _ _ _ => rfl, fun _ _ => rfl, fun _ _ => rfl⟩

theorem Frame.trans {S : Nat → Prop} {a b c : Maps ν} (h1 : Frame S a b) (h2 : Frame S b c) : Frame S a c := by
  have hl := h1.len
  refine ⟨Nat.le_trans h1.len h2.len, fun j hj hs => ?_, fun j hj => ?_, fun j hj => ?_⟩
  · rw [h2.obj j (by omega) hs, h1.obj j hj hs]
  · rw [h2.lay j (by omega), h1.lay j hj]
  · rw [h2.tgt j (by omega), h1.tgt j hj]

theorem Frame.cons (S : Nat → Prop) (o : MapObj ν) (h : Maps ν) : Frame S h (o :: h) :=
  ⟨by simp, fun _ hj _ => obj_cons_lt' o h hj, fun _ hj => layers_cons_lt o h hj, fun _ hj => target_cons_lt o h hj⟩

theorem Frame.upd {S : Nat → Prop} (h : Maps ν) (t : Nat) (m : Tbl ν) (ht : S t) : Frame S h (upd h t m) := by
  refine ⟨by simp, fun j _ hs => ?_, fun j _ => layers_upd h t m j, fun j _ => target_upd h t m j⟩
  rw [obj_upd, if_neg]
  intro e; subst e; exact hs ht

/-- lookups that search no layer in `S` are unchanged -/
theorem Frame.get [EmbNode ν] (u : Uni) {S : Nat → Prop} {h0 h : Maps ν} (hf : Frame S h0 h) {j : Nat}
    (hj : j < h0.length) (hs : ∀ k ∈ layers h0 j, ¬ S k) (name : Str) : h.get u j name = h0.get u j name := by
  rw [get_layers, get_layers, hf.lay j hj]
  have : ∀ l : List Nat, (∀ k ∈ l, k ∈ layers h0 j) →
      l.findSome? (fun k => own u h k name) = l.findSome? (fun k => own u h0 k name) := by
    intro l hl
    induction l with
    | nil => rfl
    | cons a l ih =>
      have ha := hl a (by simp)
      rw [List.findSome?_cons, List.findSome?_cons, ih (fun k hk => hl k (by simp [hk]))]
      have : own u h a name = own u h0 a name := by
        unfold own; rw [hf.obj a (layers_lt ha) (hs a ha)]
      rw [this]
  exact this _ (fun _ hk => hk)

end Maps

open Maps

/-- invariant of a parser history that started with context `c`, `n` contexts, maps `h0`: declarations change only
tables in `S` -/
structure PInv (S : Nat → Prop) (h0 : Maps ν) (c n : Nat) (p : PCtx ν) : Prop where
  frame : Frame S h0 p.w.maps
  cur : p.cur = c ∨ n ≤ p.cur
  ctx : n ≤ p.w.ctxs.length
  dmlt : ∀ i o, p.w.ctxs.obj i = some o → (i = c ∨ n ≤ i) → o.dm < p.w.maps.length
  inner : ∀ i o, p.w.ctxs.obj i = some o → (i = c ∨ n ≤ i) → ∀ t, target p.w.maps o.dm = some t → S t

theorem PInv.upd {S : Nat → Prop} {h0 : Maps ν} {c n : Nat} {w : World ν} {cur : Nat}
    (hp : PInv S h0 c n ⟨w, cur⟩) {d t : Nat} (m : Tbl ν)
    (hd : w.dm cur = some d) (ht : target w.maps d = some t) :
    PInv S h0 c n ⟨{ w with maps := Maps.upd w.maps t m }, cur⟩ := by
  obtain ⟨o, ho, hod⟩ := World.dm_eq.mp hd
  have hst := hp.inner cur o ho hp.cur t (by rw [hod]; exact ht)
  refine ⟨hp.frame.trans (Frame.upd _ _ _ hst), hp.cur, hp.ctx, ?_, ?_⟩
  · intro i o' ho' hi; simp only [upd_length]; exact hp.dmlt i o' ho' hi
  · intro i o' ho' hi t' ht'
    simp only [target_upd] at ht'
    exact hp.inner i o' ho' hi t' ht'

theorem PInv.clone {S : Nat → Prop} {h0 : Maps ν} {c n : Nat} {p : PCtx ν} (hp : PInv S h0 c n p)
    {w1 : World ν} {k : Nat} (hc : p.w.clone p.cur = some (w1, k)) :
    PInv S h0 c n ⟨w1, p.cur⟩ ∧ n ≤ k ∧ w1.maps = p.w.maps ∧
      (∀ i < p.w.ctxs.length, w1.ctxs.obj i = p.w.ctxs.obj i) ∧ p.w.ctxs.length ≤ w1.ctxs.length ∧ w1.units = p.w.units := by
  unfold World.clone at hc
  cases ho : p.w.ctxs.obj p.cur with
  | none => rw [ho] at hc; cases hc
  | some o =>
    rw [ho] at hc
    simp only [Option.some.injEq, Prod.mk.injEq] at hc
    obtain ⟨rfl, rfl⟩ := hc
    have hod : o.clone.dm = o.dm := by cases o <;> rfl
    refine ⟨⟨hp.frame, hp.cur, Nat.le_trans hp.ctx (by simp), ?_, ?_⟩, hp.ctx, rfl,
      fun i hi => Ctxs.obj_cons_lt _ hi, by simp, rfl⟩
    · intro i o' ho' hi
      simp only [Ctxs.obj] at ho'
      split at ho'
      · injection ho' with ho'; subst ho'
        rw [hod]; exact hp.dmlt _ o ho hp.cur
      · exact hp.dmlt i o' ho' hi
    · intro i o' ho' hi t ht
      simp only [Ctxs.obj] at ho'
      split at ho'
      · injection ho' with ho'; subst ho'
        rw [hod] at ht
        exact hp.inner _ o ho hp.cur t ht
      · exact hp.inner i o' ho' hi t ht

theorem PInv.run (u : Uni) {S : Nat → Prop} {h0 : Maps ν} {c n : Nat} (hS : ∀ t, h0.length ≤ t → S t)
    (cmd : PCmd ν) (p : PCtx ν) (hp : PInv S h0 c n p) :
    PInv S h0 c n (cmd.run u p).1 ∧ Frame S p.w.maps (cmd.run u p).1.w.maps ∧
      p.w.ctxs.length ≤ (cmd.run u p).1.w.ctxs.length ∧
      (∀ i < p.w.ctxs.length, (cmd.run u p).1.w.ctxs.obj i = p.w.ctxs.obj i) ∧
      (cmd.run u p).1.w.units = p.w.units := by
  induction cmd generalizing p with
  | nop => exact ⟨hp, Frame.refl _ _, Nat.le_refl _, fun _ _ => rfl, rfl⟩
  | set ds =>
    simp only [PCmd.run]
    rcases World.set_cases u p.w p.cur ds with e | ⟨d, t, m, hd, ht, e⟩ <;> rw [e]
    · exact ⟨hp, Frame.refl _ _, Nat.le_refl _, fun _ _ => rfl, rfl⟩
    · obtain ⟨o, ho, hod⟩ := World.dm_eq.mp hd
      exact ⟨hp.upd m hd ht, Frame.upd _ _ _ (hp.inner p.cur o ho hp.cur t (by rw [hod]; exact ht)),
        Nat.le_refl _, fun _ _ => rfl, rfl⟩
  | overwrite name d' =>
    simp only [PCmd.run]
    rcases World.overwrite_cases u p.w p.cur name d' with e | ⟨d, t, m, hd, ht, e⟩ <;> rw [e]
    · exact ⟨hp, Frame.refl _ _, Nat.le_refl _, fun _ _ => rfl, rfl⟩
    · obtain ⟨o, ho, hod⟩ := World.dm_eq.mp hd
      exact ⟨hp.upd m hd ht, Frame.upd _ _ _ (hp.inner p.cur o ho hp.cur t (by rw [hod]; exact ht)),
        Nat.le_refl _, fun _ _ => rfl, rfl⟩
  | seq a b iha ihb =>
    simp only [PCmd.run]
    obtain ⟨a1, a2, a3, a4, a5⟩ := iha p hp
    cases hr : a.run u p with
    | mk p1 out =>
      rw [hr] at a1 a2 a3 a4 a5
      cases out with
      | ok =>
        obtain ⟨b1, b2, b3, b4, b5⟩ := ihb p1 a1
        exact ⟨b1, a2.trans b2, Nat.le_trans a3 b3, fun i hi => by rw [b4 i (Nat.lt_of_lt_of_le hi a3)]; exact a4 i hi,
          by rw [b5]; exact a5⟩
      | err => exact ⟨a1, a2, a3, a4, a5⟩
      | panic => exact ⟨a1, a2, a3, a4, a5⟩
  | keep body ih =>
    simp only [PCmd.run]
    cases hc : p.w.clone p.cur with
    | none => exact ⟨hp, Frame.refl _ _, Nat.le_refl _, fun _ _ => rfl, rfl⟩
    | some r =>
      obtain ⟨w1, k⟩ := r
      obtain ⟨c1, _, c3, c4, c5, c6⟩ := hp.clone hc
      obtain ⟨b1, b2, b3, b4, b5⟩ := ih ⟨w1, p.cur⟩ c1
      refine ⟨b1, ?_, Nat.le_trans c5 b3, fun i hi => ?_, ?_⟩
      · rw [← c3]; exact b2
      · rw [b4 i (Nat.lt_of_lt_of_le hi c5)]; exact c4 i hi
      · rw [b5]; exact c6
  | back body ih =>
    simp only [PCmd.run]
    cases hc : p.w.clone p.cur with
    | none => exact ⟨hp, Frame.refl _ _, Nat.le_refl _, fun _ _ => rfl, rfl⟩
    | some r =>
      obtain ⟨w1, k⟩ := r
      obtain ⟨c1, c2, c3, c4, c5, c6⟩ := hp.clone hc
      obtain ⟨b1, b2, b3, b4, b5⟩ := ih ⟨w1, p.cur⟩ c1
      refine ⟨⟨b1.frame, Or.inr c2, b1.ctx, b1.dmlt, b1.inner⟩, ?_, Nat.le_trans c5 b3, fun i hi => ?_, ?_⟩
      · rw [← c3]; exact b2
      · simp only; rw [b4 i (Nat.lt_of_lt_of_le hi c5)]; exact c4 i hi
      · simp only; rw [b5]; exact c6
  | scope body ih =>
    simp only [PCmd.run, World.stack]
    cases hd : p.w.dm p.cur with
    | none => exact ⟨hp, Frame.refl _ _, Nat.le_refl _, fun _ _ => rfl, rfl⟩
    | some d =>
      simp only
      obtain ⟨o, ho, hod⟩ := World.dm_eq.mp hd
      have hdl := hp.dmlt p.cur o ho hp.cur
      rw [hod] at hdl
      have hp1 : PInv S h0 c n ⟨(p.w.newMap (.chained d [])).1.setDm p.cur (p.w.newMap (.chained d [])).2, p.cur⟩ := by
        refine ⟨hp.frame.trans (Frame.cons _ _ _), hp.cur, ?_, ?_, ?_⟩
        · simpa [World.setDm, World.newMap, Ctxs.length_modify] using hp.ctx
        · intro i o' ho' hi
          simp only [World.setDm, World.newMap, Ctxs.obj_modify, List.length_cons] at ho' ⊢
          by_cases hic : i = p.cur
          · rw [if_pos hic, Option.map_eq_some_iff] at ho'
            obtain ⟨x, _, hx⟩ := ho'
            rw [← hx]
            have : (CtxObj.withDm p.w.maps.length x).dm = p.w.maps.length := by cases x <;> rfl
            omega
          · rw [if_neg hic] at ho'
            have := hp.dmlt i o' ho' hi
            omega
        · intro i o' ho' hi t ht
          simp only [World.setDm, World.newMap, Ctxs.obj_modify] at ho' ht
          by_cases hic : i = p.cur
          · rw [if_pos hic, Option.map_eq_some_iff] at ho'
            obtain ⟨x, _, hx⟩ := ho'
            rw [← hx] at ht
            have : (CtxObj.withDm p.w.maps.length x).dm = p.w.maps.length := by cases x <;> rfl
            rw [this] at ht
            simp only [target, if_true, Option.some.injEq] at ht
            exact hS t (by rw [← ht]; exact hp.frame.len)
          · rw [if_neg hic] at ho'
            rw [target_cons_lt _ _ (hp.dmlt i o' ho' hi)] at ht
            exact hp.inner i o' ho' hi t ht
      obtain ⟨b1, b2, b3, b4, b5⟩ := ih _ hp1
      have hf1 : Frame S p.w.maps ((p.w.newMap (.chained d [])).1.setDm p.cur (p.w.newMap (.chained d [])).2).maps := by
        simp only [World.setDm, World.newMap]; exact Frame.cons _ _ _
      have hf := hf1.trans b2
      have hlen : ((p.w.newMap (.chained d [])).1.setDm p.cur (p.w.newMap (.chained d [])).2).ctxs.length =
          p.w.ctxs.length := by simp [World.setDm, World.newMap, Ctxs.length_modify]
      refine ⟨⟨b1.frame, b1.cur, ?_, ?_, ?_⟩, hf, ?_, ?_, ?_⟩
      · simpa [World.restore, World.setDm, Ctxs.length_modify] using b1.ctx
      · intro i o' ho' hi
        simp only [World.restore, World.setDm, Ctxs.obj_modify] at ho' ⊢
        by_cases hic : i = p.cur
        · rw [if_pos hic, Option.map_eq_some_iff] at ho'
          obtain ⟨x, _, hx⟩ := ho'
          rw [← hx]
          have : (CtxObj.withDm d x).dm = d := by cases x <;> rfl
          rw [this]
          have := hf.len
          simp only [World.setDm] at this
          omega
        · rw [if_neg hic] at ho'
          exact b1.dmlt i o' ho' hi
      · intro i o' ho' hi t ht
        simp only [World.restore, World.setDm, Ctxs.obj_modify] at ho' ht
        by_cases hic : i = p.cur
        · rw [if_pos hic, Option.map_eq_some_iff] at ho'
          obtain ⟨x, _, hx⟩ := ho'
          rw [← hx] at ht
          have : (CtxObj.withDm d x).dm = d := by cases x <;> rfl
          rw [this] at ht
          have h2 := hf.tgt d hdl
          simp only [World.setDm] at h2
          rw [h2] at ht
          exact hp.inner p.cur o ho hp.cur t (by rw [hod]; exact ht)
        · rw [if_neg hic] at ho'
          exact b1.inner i o' ho' hi t ht
      · simp only [World.restore, World.setDm, Ctxs.length_modify]
        have := b3
        rw [hlen] at this
        simp only [World.setDm] at this
        exact this
      · intro i hi
        simp only [World.restore]
        rw [World.setDm, Ctxs.obj_modify, b4 i (by rw [hlen]; exact hi), World.setDm, Ctxs.obj_modify]
        by_cases hic : i = p.cur
        · subst hic
          simp only [if_true, World.newMap, ho, Option.map_some]
          cases o <;> simp_all [CtxObj.withDm, CtxObj.dm]
        · simp only [if_neg hic, World.newMap]
      · simp only [World.restore, World.setDm, World.newMap] at b5 ⊢
        exact b5

end TP
