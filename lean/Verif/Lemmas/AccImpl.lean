import Verif.Lemmas.AccIntf

/-!
# The implementation of a unit is accepted
-/

namespace TP
open Maps Spec

variable {u : Uni} {tl : Tail} {α β : Type} {Γ Γ1 Γ' : NameEnv} {k k' : DS}

/-- the maps of the units are not those where the parser declares -/
def UnitsApart (k : DS) : Prop := ∀ j m, k.w.unitDm j = some m → m < k.w.maps.length ∧ ¬ Innermost k m

theorem UnitsApart.moves {U : Nat → Prop} {cu : Nat} (h : UnitsApart k) (M : Moves U cu k k') (hd : ∀ j, k'.w.unitDm j = k.w.unitDm j) : UnitsApart k' := by
  intro j m hm
  rw [hd] at hm
  obtain ⟨h1, h2⟩ := h j m hm
  refine ⟨Nat.lt_of_lt_of_le h1 M.frame.len, fun h3 => ?_⟩
  rcases M.tgt m h3 with h | h
  · exact h2 h
  · exact absurd h1 (Nat.not_lt.2 h)

theorem UnitsShow.moves {us : List UnitParts} {U : Nat → Prop} {cu : Nat} (h : UnitsShow u us k) (a : UnitsApart k) (M : Moves U cu k k')
    (hd : ∀ j, k'.w.unitDm j = k.w.unitDm j)
    (hn : ∀ (j : Nat) (o : UnitObj), k.w.units[j]? = some o → ∃ o' : UnitObj, k'.w.units[j]? = some o' ∧ o'.name = o.name) : UnitsShow u us k' := by
  intro j m hm
  rw [hd] at hm
  obtain ⟨tb, o, h1, h2, h3⟩ := h j m hm
  obtain ⟨g1, g2⟩ := a j m hm
  obtain ⟨o', h4, h5⟩ := hn j o h2
  refine ⟨tb, o', ?_, h4, by rw [h5]; exact h3⟩
  rw [M.frame.obj m g1 ?_]
  · exact h1
  · rintro (h | h)
    · exact g2 h
    · exact absurd g1 (Nat.not_lt.2 h)

theorem setUnitDm_units {w : World Node} {i : Nat} {d : Option Nat} (j : Nat) : (w.setUnitDm i d).units[j]?.isSome = w.units[j]?.isSome := by
  unfold World.setUnitDm
  cases e : w.units[i]? with
  | none => rfl
  | some o =>
    simp only [List.getElem?_set]
    by_cases c : i = j
    · subst c
      rw [if_pos rfl, e]
      have : i < w.units.length := by
        by_contra h
        rw [List.getElem?_eq_none (by omega)] at e; cases e
      rw [if_pos this]; rfl
    · rw [if_neg c]

theorem openImpl_agrees {us : List UnitParts} {cu unit : Nat} {es : List UsesEntry} {c : Option (Str × Nat)} (F : Fine c k) (hc : cu < k.w.ctxs.length)
    (hu : k.w.unitDm unit ≠ none) (hm : Fine.Maps' u k cu es) (A : Agrees u Γ k) (U : UnitsShow u us k) (I : ItemsNamed u k es) :
    ∃ k' um, k.openImpl u cu unit es = some (k', um) ∧
      Agrees u ⟨Γ.inner, exportedBy u us (es.map fun e => e.ident.name) ++ Γ.seen, Γ.sure⟩ k' ∧
      Moves (UnitMap k) cu k k' ∧ k.w.unitDm unit = some um ∧ (∀ j, j ≠ unit → k'.w.unitDm j = k.w.unitDm j) ∧
      ∀ j : Nat, k'.w.units[j]?.isSome = k.w.units[j]?.isSome := by
  obtain ⟨is, e1⟩ := assignUnits_eq (u := u) cu es k
  obtain ⟨o, r, g1, g2, g3⟩ := id A.rooted
  obtain ⟨d, t, hd, ht⟩ := F.dm hc
  have hd' : (k.assignUnits u cu es).w.dm cu = some d := by rw [e1]; exact hd
  obtain ⟨ms, hms⟩ := (Fine.assignUnits u F hm).1.usedMaps es
  obtain ⟨um, hum⟩ := Option.ne_none_iff_exists'.1 hu
  have hum' : (k.assignUnits u cu es).w.unitDm unit = some um := by rw [e1]; exact hum
  have hs := usedUnits_show U I hms
  let n := (k.w.maps : List (MapObj Node)).length
  let h2 : Maps Node := .composite [n, um] :: .impl [] :: k.w.maps
  let w1 : World Node := { k.w with maps := h2 }
  let w2 : World Node := w1.setUnitDm unit (some (n + 1))
  have ew : w2.maps = h2 ∧ w2.ctxs = k.w.ctxs := setUnitDm_eqs w1 unit (some (n + 1))
  let k2 : DS := { k with items := is, w := { w2 with maps := .composite (n :: d :: ms) :: w2.maps, ctxs := w2.ctxs.modify (CtxObj.withDm (w2.maps : List (MapObj Node)).length) cu } }
  have hmaps : k2.w.maps = .composite (n :: d :: ms) :: h2 := by show MapObj.composite _ :: w2.maps = _; rw [ew.1]
  have hctxs : k2.w.ctxs = k.w.ctxs.modify (CtxObj.withDm (n + 2)) cu := by
    show w2.ctxs.modify (CtxObj.withDm (w2.maps : List (MapObj Node)).length) cu = _
    rw [ew.1, ew.2]
    rfl
  have hlen : k.w.ctxs.length ≤ k2.w.ctxs.length := by rw [hctxs, Ctxs.length_modify]; exact Nat.le_refl _
  have hctx : ∀ x < k.w.ctxs.length, x ≠ cu → k2.w.ctxs.obj x = k.w.ctxs.obj x := by
    intro x _ hx
    rw [hctxs, Ctxs.obj_modify, if_neg hx]
  have fr : Frame (fun t => k.w.maps.length ≤ t) k.w.maps h2 := Frame.trans (b := .impl [] :: k.w.maps) (.cons _ _ _) (.cons _ _ _)
  have hunits : ∀ j : Nat, k2.w.units[j]?.isSome = k.w.units[j]?.isSome := fun j => setUnitDm_units (w := w1) j
  have hdms : ∀ j, j ≠ unit → k2.w.unitDm j = k.w.unitDm j := by
    intro j hj
    show w2.unitDm j = _
    show (w1.setUnitDm unit (some (n + 1))).unitDm j = _
    rw [unitDm_set, if_neg fun h => hj h.1.symm]
    rfl
  refine ⟨k2, um, ?_, ?_⟩
  · unfold DS.openImpl
    simp only
    rw [hd', hum', hms, e1]
    rfl
  have ho : ∀ m ∈ ms, ∃ tb, h2.obj m = some (.impl tb) ∧ ShowsTbl (exportedBy u us (es.map fun e => e.ident.name)) tb := by
    intro m hm
    obtain ⟨-, tb, f1, f2⟩ := hs m hm
    refine ⟨tb, ?_, f2⟩
    have : m < k.w.maps.length := target_lt' (target_impl f1)
    rw [fr.obj m this (Nat.not_le.2 this)]
    exact f1
  by_cases cc : cu = k.cur
  · subst cc
    obtain ⟨o1, e4, e5⟩ := World.dm_eq.1 hd
    rw [g1] at e4; cases e4
    have L : Layered k k2 o (CtxObj.withDm (n + 2) o) h2 n [] [] ms := {
      frame := fr
      old := g1
      own := by
        show Maps.obj (.composite [n, um] :: .impl [] :: k.w.maps) n = _
        unfold Maps.obj
        rw [if_neg (by simp [n])]
        unfold Maps.obj
        rw [if_pos rfl]
      new := Nat.le_refl _
      maps := by rw [hmaps, ← e5]; rfl
      obj := by rw [hctxs]; show Ctxs.obj (k.w.ctxs.modify _ k.cur) k.cur = _; rw [Ctxs.obj_modify, if_pos rfl, g1]; rfl
      dm := Heap.withDm_dm _ _
      plain := withDm_plain _ g2
      types := List.prefix_rfl }
    refine ⟨?_, ?_, hum, hdms, hunits⟩
    · exact L.agrees A (inn := Γ.inner) (fun _ h => (nomatch h)) (fun _ h => (nomatch h)) (fun i hi => ho i hi) (.inr ⟨rfl, rfl, rfl⟩)
    · refine L.moves A.rooted (fun i hi => ?_) hlen hctx rfl
      obtain ⟨tb, f1, -⟩ := ho i hi
      exact ⟨(hs i hi).1, tb, f1⟩
  · have hobj : k2.w.ctxs.obj k.cur = k.w.ctxs.obj k.cur := hctx _ (Ctxs.obj_lt g1) fun h => cc h.symm
    have fr2 : Frame (fun t => k.w.maps.length ≤ t) k.w.maps k2.w.maps := by rw [hmaps]; exact fr.trans (.cons _ _ _)
    refine ⟨?_, ?_, hum, hdms, hunits⟩
    · exact (A.grown fr2 g1 (hobj.trans g1) rfl g2 List.prefix_rfl).le ⟨fun _ h => h, fun _ h => List.mem_append_right _ h, fun _ h => h⟩
    · exact Moves.still A.rooted (TP.Frame.ownS fr2) hlen hctx rfl hobj List.prefix_rfl

theorem stackAt_same (cu : Nat) : (k.stackAt cu).w.units = k.w.units ∧ (k.stackAt cu).items = k.items := by
  unfold DS.stackAt World.stack
  cases k.w.dm cu <;> exact ⟨rfl, rfl⟩

theorem prefix_get {l l' : List UnitObj} (h : l <+: l') {j : Nat} {o : UnitObj} (e : l[j]? = some o) : l'[j]? = some o := by
  obtain ⟨x, rfl⟩ := h
  have : j < l.length := by
    by_contra h
    rw [List.getElem?_eq_none (by omega)] at e; cases e
  rw [List.getElem?_append_left this]; exact e

theorem implStep_rets {files : Str → FileR} {cp : Nat} {ps : List Nat} {l : Loader} {s : PS DS} {us : List UnitParts} {m : UnitParts}
    {im e d : Token} {rest : List Token} {Γ3 Γ4 : NameEnv}
    (F : Fine none s.cx) (R : Ready u files cp s.cx l) (hp : IsProg s.cx cp ps) (A : Agrees u m.names (s.cx.on l.cur))
    (U : UnitsShow u us s.cx) (a : UnitsApart (s.cx.on l.cur)) (hm : ∀ j ∈ ps, s.cx.w.unitDm j ≠ none) (hd : s.cx.w.unitDm l.head.no ≠ none)
    (h1 : IsKw u r!"IMPLEMENTATION" im) (h2 : OkOptUses u m.names m.implUses Γ3)
    (h3 : OkImpl u ⟨Γ3.inner, imported u us m.implUses ++ Γ3.seen, Γ3.sure⟩ m.impl Γ4) (h4 : OkInitPart u Γ4 m.init)
    (h5 : IsKw u r!"END" e) (h6 : IsSym r!"." d)
    (hts : l.ts = im :: (m.implUses ++ (m.impl ++ (m.init ++ e :: d :: rest)))) :
    ∃ l' s', Rets (fun n => implStep u n l) s l' s' ∧ Rooted (s'.cx.on l'.cur) ∧
      Moves (UnitMap s.cx) l.cu (s.cx.on l.cur) (s'.cx.on l'.cur) ∧ l'.cu = l.cu ∧ ∀ j, s'.cx.w.unitDm j = s.cx.w.unitDm j := by
  have hb : Nxt l.tail (m.init ++ e :: d :: rest) (BodyWord u) := bodyWord_of h4 h5
  have hs : Nxt l.tail (m.impl ++ (m.init ++ e :: d :: rest)) (BlockWord u) := impl_head h3 hb
  have hu : ∀ t, BlockWord u t → ¬ IsKw u r!"USES" t := by
    rintro t ⟨c, hc, h⟩
    exact kw_ne h (by rintro rfl; revert hc; decide)
  have hcu : l.cu < s.cx.w.ctxs.length := by obtain ⟨p, d, e⟩ := R.cu; exact Ctxs.obj_lt e
  let k0 : DS := { s.cx with cur := l.cur, pending := l.pending }
  have F0 : Fine none k0 := F.switch l.cur l.pending
  have A0 : Agrees u m.names k0 := A.same' rfl rfl rfl rfl
  let k1 := k0.stackAt l.cu
  obtain ⟨F1, l1, c1⟩ := F0.stackAt (cu := l.cu) hcu
  have A1 : Agrees u m.names k1 := A0.stackAt l.cu
  have M1 : Moves (UnitMap k0) l.cu k0 k1 := Moves.stackAt A0.rooted l.cu
  have u1 := stackAt_same (k := k0) l.cu
  obtain ⟨es, k2, A2, O2, q2, R2⟩ := (acc_optUses (tl := l.tail) h2 (hs.mono hu)).runs A1
  have M2 := (optUses_walk A1.rooted R2).moves (UnitMap k0) l.cu
  have M12 := M1.trans M2
  have d2 : ∀ j, k2.w.unitDm j = k0.w.unitDm j := fun j => (O2.dms j).trans (unitDm_units u1.1 j)
  have n2 : ∀ (j : Nat) (o : UnitObj), k0.w.units[j]? = some o → ∃ o' : UnitObj, k2.w.units[j]? = some o' ∧ o'.name = o.name := by
    intro j o ho
    exact ⟨o, prefix_get O2.units (by rw [u1.1]; exact ho), rfl⟩
  have U2 : UnitsShow u us k2 := UnitsShow.moves (k := k0) U a M12 d2 n2
  have I2 : ItemsNamed u k2 es := by
    intro e he j hj
    obtain ⟨n, hn⟩ := R2.inv
    have := ((optUses_nos hn).nos e he).1
    rw [O2.items e.no, List.getElem?_eq_none (l := k1.items) this] at hj
    cases hj
  have hes : es.map (fun e => e.ident.name) = usedNames m.implUses := noFiles_names q2
  have F2 : Fine none k2 ∧ Later k0 k2 := by
    obtain ⟨ts, tl', rest', hf, hsf, htl, hname⟩ := R.file
    have hcur : k1.cur < k1.w.ctxs.length := by rw [c1]; exact Nat.lt_of_lt_of_le R.cur l1.len
    have B := F1.base (u := u) (Pp := True) ts (tl := l.tail) (fun _ => trivial) (fun _ _ h => by cases h)
    refine R2.wp (Q := fun _ s' => Fine none s'.cx ∧ Later k0 s'.cx) fun n => wp_mono (optUses_sound B (Heap.uses fun _ _ => trivial) n _
      ⟨rfl, F1.heap hcur, ?_⟩ (fun _ => trivial)) ?_ id id
    · obtain ⟨x, hx⟩ := hsf
      exact ⟨x ++ [im], by rw [← hx, hts]; simp⟩
    · rintro es s2 ⟨h2, -, -⟩
      exact ⟨Heap.fine F1 h2.cx, l1.trans h2.cx.later⟩
  obtain ⟨F2, l2⟩ := F2
  obtain ⟨k3, um, e3, A3, M3, hum, d3, n3⟩ := openImpl_agrees (us := us) (cu := l.cu) (unit := l.head.no) (es := es) F2
    (Nat.lt_of_lt_of_le hcu l2.len) (by rw [d2]; exact hd) (by
      unfold Fine.Maps'
      rw [parentUnits_eq (k := k2) (cp := cp) (us := ps) (IsUnit.later (k := k0) R.cu l2) (IsProg.later (k := k0) hp l2)]
      intro e _ j hj
      rw [d2]
      exact hm j (Fine.byName_mem u _ hj).1) A2 U2 I2
  have hUM : ∀ m, UnitMap k2 m → UnitMap k0 m := by
    rintro m ⟨j, hj⟩
    exact ⟨j, by rw [← d2]; exact hj⟩
  have M3 : Moves (UnitMap k0) l.cu k2 k3 :=
    ⟨M3.frame, M3.len, M3.ctx, M3.cur, M3.tgt, fun t ht => (M3.lay t ht).imp_right (Or.imp_right (hUM t)), M3.types⟩
  rw [hes, ← imported_eq] at A3
  obtain ⟨Γ5, h13⟩ := acc_implAndEnd (tl := l.tail) (rest := rest) h3 h4 h5 h6
  obtain ⟨b, k4, A4, O4, q4, R4⟩ := h13.runs A3
  have M4 := (impl_walk A3.rooted R4).moves (UnitMap k0) l.cu
  let k5 := k4.closeImpl l.head.no um
  have ew : k5.w.maps = k4.w.maps ∧ k5.w.ctxs = k4.w.ctxs := setUnitDm_eqs k4.w l.head.no (some um)
  have M5 : Moves (UnitMap k0) l.cu k4 k5 := by
    refine Moves.still A4.rooted ?_ ?_ (fun x _ _ => ?_) rfl ?_ List.prefix_rfl
    · rw [ew.1]; exact .refl _ _
    · rw [ew.2]; exact Nat.le_refl _
    · rw [ew.2]
    · rw [ew.2]
  have A5 : Agrees u Γ5 k5 := A4.same' ew.1 ew.2 rfl rfl
  have M := ((M12.trans M3).trans M4).trans M5
  have hdm : ∀ j, k5.w.unitDm j = k0.w.unitDm j := by
    intro j
    show (k4.w.setUnitDm l.head.no (some um)).unitDm j = _
    rw [unitDm_set]
    by_cases c : l.head.no = j
    · subst c
      have : (k4.w.units[l.head.no]?).isSome = true := by
        obtain ⟨o, ho, -⟩ := R.unit
        obtain ⟨o', ho', -⟩ := n2 _ o ho
        have h3' : (k3.w.units[l.head.no]?).isSome = true := by rw [n3, ho']; rfl
        obtain ⟨o3, ho3⟩ := Option.isSome_iff_exists.1 h3'
        rw [prefix_get O4.units ho3]; rfl
      rw [if_pos ⟨rfl, this⟩, ← d2, hum]
    · rw [if_neg fun h => c h.1, O4.dms j, d3 j (Ne.symm c), d2]
  refine ⟨{ l with ts := d :: rest, cur := k5.cur, pending := k5.pending, implUses := es, body := b },
    { s with cx := { k5 with cur := s.cx.cur, pending := s.cx.pending } }, ?_, ?_, ?_, rfl, hdm⟩
  · unfold implStep
    refine Rets.bind (Rets.run (a := (es, b)) (s1 := ⟨d :: rest, l.tail, k5⟩) ?_) (.one rfl)
    unfold processImpl parseImplUses
    have hc : P.current (kw u r!"IMPLEMENTATION") ⟨im :: (m.implUses ++ (m.impl ++ (m.init ++ e :: d :: rest))), l.tail, k0⟩ =
      .ok im ⟨im :: (m.implUses ++ (m.impl ++ (m.init ++ e :: d :: rest))), l.tail, k0⟩ := current_ok rfl (kw_iff.2 h1)
    have hn : P.next ⟨im :: (m.implUses ++ (m.impl ++ (m.init ++ e :: d :: rest))), l.tail, k0⟩ =
      .ok () ⟨m.implUses ++ (m.impl ++ (m.init ++ e :: d :: rest)), l.tail, k0⟩ := next_ok (nxt_append hs.live)
    rw [hts]
    refine Rets.bind (Rets.then hc (Rets.then hn (Rets.then (a := ()) rfl R2))) (Rets.bind (a := b) (s1 := ⟨d :: rest, l.tail, k5⟩) ?_ (.one rfl))
    obtain ⟨N, hN⟩ := R4
    refine ⟨N, fun n hn => ?_⟩
    unfold inImpl
    simp only [e3, hN n hn]
    rfl
  · exact (A5.same' (k' := { s.cx with w := k5.w, cur := k5.cur, types := k5.types }) rfl rfl rfl rfl).rooted
  · exact ⟨M.frame, M.len, M.ctx, M.cur, M.tgt, M.lay, M.types⟩

end TP
