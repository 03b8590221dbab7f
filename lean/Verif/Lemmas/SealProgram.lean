import Verif.Lemmas.Seal
import Verif.Lemmas.NoPanic

/-!
# The maps of the units of a program
-/

namespace TP
open Spec Props

variable {u : Uni} {files : Str → FileR} {cp : Nat} {sep : Char} {lib : TopoLib} {it : List UParser → List Str}
variable {X : Nat → Prop}

variable (u) in
/-- the map of the unit is made of these declarations, and final -/
def HasIntf (X : Nat → Prop) (k : DS) (no : Nat) (ds : List (IntfDecl (Decl Node))) : Prop :=
  ∃ m, X m ∧ k.w.unitDm no = some m ∧ k.w.maps.obj m = some (.impl (World.intfTable u (ds.flatMap DS.declNodes) []))

variable (u) in
/-- the parser of a unit between its parts -/
structure Held (X : Nat → Prop) (k : DS) (l : Loader) : Prop where
  cur : l.cur < k.w.ctxs.length
  no : l.head.no < k.w.units.length
  intf : k.w.unitDm l.head.no = none ∨ HasIntf u X k l.head.no l.intf

theorem HasIntf.onward {k k' : DS} {no : Nat} {ds : List (IntfDecl (Decl Node))} (h : HasIntf u X k no ds) (g : Onward X k k') :
    HasIntf u X k' no ds := by
  obtain ⟨m, h1, h2, h3⟩ := h
  exact ⟨m, h1, by rw [g.dms]; exact h2, by rw [g.obj m h1]; exact h3⟩

theorem Held.onward {k k' : DS} {l : Loader} (h : Held u X k l) (g : Onward X k k') : Held u X k' l :=
  ⟨Nat.lt_of_lt_of_le h.cur g.len, Nat.lt_of_lt_of_le h.no g.units, by
    rw [g.dms]; exact h.intf.imp_right (·.onward g)⟩

/-- parsing on -/
theorem wpT_sealed {α : Type} {p : P DS α} {G : α → Rd} {b n : Nat} {s : PS DS} (h : Seal X s.cx) (hc : s.cx.cur < s.cx.w.ctxs.length)
    (hp : TSound (Sealed X s.cx) (fun _ => True) s.tail True True p G b n) : wpT p s (fun _ s' => Onward X s.cx s'.cx ∧
      s'.cx.cur < s'.cx.w.ctxs.length) := by
  refine wp_mono (hp s ⟨rfl, h.start hc, trivial⟩ (fun _ => trivial)) ?_ id id
  rintro a s' ⟨h', -, -⟩
  exact ⟨Sealed.onward h h'.cx, h'.cx.here⟩

theorem wpT_stepP' {α : Type} {f : DS → Option DS} {s : PS DS} {g : Unit → P DS α} {Q : α → PS DS → Prop}
    (h : ∀ k, f s.cx = some k → wpT (g ()) { s with cx := k } Q) : wpT (stepP f >>= g) s Q := by
  show wp _ _ _ _ _
  rw [wp_bind]
  unfold stepP
  unfold wp
  simp only
  cases e : f s.cx with
  | none => trivial
  | some k => exact h k e

theorem wpT_stepR' {α : Type} {f : DS → SetR DS} {s : PS DS} {g : Unit → P DS α} {Q : α → PS DS → Prop}
    (h : ∀ k, f s.cx = .ok k → wpT (g ()) { s with cx := k } Q) : wpT (stepR f >>= g) s Q := by
  show wp _ _ _ _ _
  rw [wp_bind]
  unfold stepR
  unfold wp
  simp only
  cases e : f s.cx with
  | err => trivial
  | panic => trivial
  | ok k => exact h k e

theorem unitIdent_no (s : PS DS) : wpT (parseUnitIdent u) s (fun h s' => h.1.no = s.cx.w.units.length ∧
    s'.cx.w.units.length = s.cx.w.units.length + 1) := by
  unfold parseUnitIdent
  show wp _ _ _ _ _
  rw [wp_bind]
  refine wp_current (fun _ _ _ => ?_) (fun _ => trivial)
  rw [wp_bind]
  refine wp_nextIs (fun t _ _ => ?_) (fun _ => trivial)
  refine wp_askP ?_
  rw [wp_bind]
  show wp (P.next >>= _) _ _ _ _
  rw [wp_bind]
  refine wp_next ?_ (fun _ => trivial)
  refine wp_then (Q1 := fun _ s' => s'.cx = s.cx.newUnit (Ident.ofTok t)) ?_ ?_
  · rw [wp_bind]
    refine wp_cur (fun t' _ => wp_ite (fun _ => ?_) (fun _ => rfl)) (fun _ => trivial) (fun _ => trivial)
    rw [wp_bind]
    exact wp_next rfl (fun _ => trivial)
  · intro pd s2 h2
    rw [wp_bind]
    refine wp_is (fun _ _ => wp_ite (fun _ => ?_) (fun _ => ?_)) (fun _ => trivial) (fun _ => trivial)
    · rw [wp_bind]
      refine wp_next ?_ (fun _ => trivial)
      refine ⟨rfl, ?_⟩
      show s2.cx.w.units.length = _
      rw [h2]; simp [DS.newUnit]
    · refine ⟨rfl, ?_⟩
      rw [h2]; simp [DS.newUnit]

theorem cur?_wpT {α : Type} {p : P DS α} {s : PS DS} {Q : α → PS DS → Prop} (h : wpT p s Q) :
    wpT (do let _ ← P.cur?; p) s Q := by
  show wp _ _ _ _ _
  rw [wp_bind]
  unfold wp
  cases e : P.cur? s with
  | ok a s' =>
    have : s' = s := by
      unfold P.cur? at e
      revert e
      split <;> intro e <;> cases e <;> rfl
    subst this
    exact h
  | _ => trivial

theorem loadUnit_held {n : Nat} {path : Str} {ctx : Nat} {s : PS DS} (h : Seal X s.cx) (hc : ctx < s.cx.w.ctxs.length) :
    wpT (loadUnit u files n path ctx) s (fun l s' => Onward X s.cx s'.cx ∧ Held u X s'.cx l ∧ l.head.no = s.cx.w.units.length ∧
      s'.cx.cur = s.cx.cur) := by
  unfold loadUnit
  cases e : files path with
  | missing => trivial
  | unreadable => trivial
  | tokens ts tl =>
    have h1 := h.switch ctx []
    refine wp_then (Q1 := fun r s' => Onward X s.cx s'.cx ∧ r.2.cur < s'.cx.w.ctxs.length ∧ r.1.1.1.no = s.cx.w.units.length ∧
      s.cx.w.units.length < s'.cx.w.units.length ∧ s'.cx.cur = s.cx.cur) (wp_run (cur?_wpT ?_)) ?_
    · unfold parseIdentAndUses
      refine wp_then (wp_and (wpT_sealed h1 hc (unitIdent_sound (Seal.base u X _ tl) (fun c h i => h.newUnit i) n)) (unitIdent_no _)) ?_
      rintro hd s1 ⟨⟨o1, c1⟩, g1, g2⟩
      refine wp_then (wpT_sealed o1.fin c1 (intfUses_sound (Seal.base u X _ _) (Heap.uses fun _ _ => trivial) n)) ?_
      rintro es s2 ⟨o2, c2⟩
      refine ⟨(o1.trans o2).switch _ _ _ _, c2, g1, ?_, rfl⟩
      have := o2.units
      show s.cx.w.units.length < s2.cx.w.units.length
      have g2' : s1.cx.w.units.length = s.cx.w.units.length + 1 := g2
      omega
    · rintro r s' ⟨g1, g2, g3, g4, g5⟩
      refine ⟨g1, ⟨g2, by show r.1.1.1.no < _; rw [g3]; exact g4, .inl ?_⟩, g3, g5⟩
      show s'.cx.w.unitDm r.1.1.1.no = none
      rw [g1.dms, g3]
      unfold World.unitDm
      rw [List.getElem?_eq_none (Nat.le_refl _)]

theorem newLoaders_held : ∀ (es : List UsesEntry) {s : PS DS}, Seal X s.cx →
    wpT (newLoaders sep cp es) s (fun cs s' => Onward X s.cx s'.cx ∧ s'.cx.cur = s.cx.cur ∧ ∀ x ∈ cs, x.2 < s'.cx.w.ctxs.length)
  | [], s, h => ⟨.refl h, rfl, fun _ h => by cases h⟩
  | e :: es, s, h => by
    unfold newLoaders
    refine wp_ite (fun c => newLoaders_held es h) (fun c => ?_)
    refine wp_askP ?_
    rw [wp_bind]
    show wp (newLoaders sep cp es >>= _) _ _ _ _
    have o1 := h.newUnitContext cp (UsesItem.effectivePath sep e.path)
    refine wp_then (newLoaders_held es (s := { s with cx := (s.cx.newUnitContext cp (UsesItem.effectivePath sep e.path)).1 }) o1.fin) ?_
    rintro cs s2 ⟨h1, h2, h3⟩
    refine ⟨o1.trans h1, h2, ?_⟩
    intro x hx
    rcases List.mem_cons.1 hx with rfl | hx
    · refine Nat.lt_of_lt_of_le ?_ h1.len
      simp [DS.newUnitContext, World.newMap]
    · exact h3 x hx

theorem loadAll_held {n : Nat} : ∀ (cs : List (Str × Nat)) {s : PS DS}, Seal X s.cx → (∀ x ∈ cs, x.2 < s.cx.w.ctxs.length) →
    wpT (loadAll u files cp n cs) s (fun ls s' => Onward X s.cx s'.cx ∧ s'.cx.cur = s.cx.cur ∧ (∀ l ∈ ls, Held u X s'.cx l) ∧
      (∀ l ∈ ls, s.cx.w.units.length ≤ l.head.no) ∧ (ls.map fun l => l.head.no).Nodup)
  | [], s, h, _ => ⟨.refl h, rfl, fun _ h => (by cases h), fun _ h => (by cases h), List.nodup_nil⟩
  | (path, ctx) :: cs, s, h, hc => by
    unfold loadAll
    refine wp_then (loadUnit_held h (hc (path, ctx) List.mem_cons_self)) ?_
    rintro l s1 ⟨o1, h1, e1, c1⟩
    rw [wp_bind]
    show wp (loadAll u files cp n cs >>= _) _ _ _ _
    have o2 := o1.fin.addUnit cp l.head.no
    refine wp_then (loadAll_held cs (s := { s1 with cx := s1.cx.addUnit cp l.head.no }) o2.fin
      (fun x hx => Nat.lt_of_lt_of_le (hc x (List.mem_cons_of_mem _ hx)) (o1.trans o2).len)) ?_
    rintro ls s3 ⟨o3, c3, g3, g4, g5⟩
    have hno := h1.no
    refine ⟨(o1.trans o2).trans o3, c3.trans c1, ?_, ?_, ?_⟩
    · intro l' h'
      rcases List.mem_cons.1 h' with rfl | h'
      · exact (h1.onward o2).onward o3
      · exact g3 l' h'
    · intro l' h'
      rcases List.mem_cons.1 h' with rfl | h'
      · omega
      · exact Nat.le_trans o1.units (g4 l' h')
    · rw [List.map_cons, List.nodup_cons]
      refine ⟨fun hm => ?_, g5⟩
      obtain ⟨l', hl', e'⟩ := List.mem_map.1 hm
      have : s1.cx.w.units.length ≤ l'.head.no := g4 l' hl'
      omega

theorem intfStep_held {n : Nat} {l : Loader} {s : PS DS} (h : Seal X s.cx) (hl : Held u X s.cx l) :
    wpT (intfStep u n l) s (fun l' s' => ∃ X' : Nat → Prop, (∀ t, X t → X' t) ∧ Seal X' s'.cx ∧
      s.cx.w.ctxs.length ≤ s'.cx.w.ctxs.length ∧ s.cx.w.units.length ≤ s'.cx.w.units.length ∧
      (∀ t, X t → s'.cx.w.maps.obj t = s.cx.w.maps.obj t) ∧ (∀ j, j ≠ l.head.no → s'.cx.w.unitDm j = s.cx.w.unitDm j) ∧
      Held u X' s'.cx l' ∧ l'.head = l.head ∧ s'.cx.cur = s.cx.cur) := by
  unfold intfStep
  refine wp_then (Q1 := fun r s' => ∃ X' : Nat → Prop, (∀ t, X t → X' t) ∧ Seal X' s'.cx ∧
      s.cx.w.ctxs.length ≤ s'.cx.w.ctxs.length ∧ s.cx.w.units.length ≤ s'.cx.w.units.length ∧
      (∀ t, X t → s'.cx.w.maps.obj t = s.cx.w.maps.obj t) ∧ (∀ j, j ≠ l.head.no → s'.cx.w.unitDm j = s.cx.w.unitDm j) ∧
      HasIntf u X' s'.cx l.head.no r.1 ∧ r.2.cur < s'.cx.w.ctxs.length ∧ r.2.head = l.head ∧ s'.cx.cur = s.cx.cur) (wp_run ?_) ?_
  · unfold processIntf
    refine wpT_stepP' fun k1 e1 => ?_
    obtain ⟨o1, c1, -⟩ := (h.switch l.cur l.pending).importUnits u e1
    refine wpT_stepR' fun k2 e2 => ?_
    obtain ⟨o2, c2, -⟩ := o1.fin.setUnit u e2
    have hcur : k2.cur < k2.w.ctxs.length := by
      rw [c2, c1]; exact Nat.lt_of_lt_of_le hl.cur (o1.trans o2).len
    unfold parseIntfBody
    refine wp_then (wpT_sealed o2.fin hcur (intfDecls_sound (Seal.base u X k2 l.tail) n)) ?_
    rintro ds s3 ⟨o3, c3⟩
    have o13 := (o1.trans o2).trans o3
    refine wpT_stepR' fun k4 e4 => ?_
    cases e4
    obtain ⟨g1, g2, g3, g4, g5, g6, g7, g8⟩ := o3.fin.finishIntf u l.head.no ds (Nat.lt_of_lt_of_le hl.no o13.units)
    refine ⟨_, fun t => .inl, g1.switch _ _, ?_, ?_, fun t ht => ?_, fun j hj => ?_, ⟨_, .inr rfl, g7, g8⟩, ?_, rfl, rfl⟩
    · show _ ≤ (s3.cx.finishIntf u l.head.no ds).w.ctxs.length
      rw [g3]; exact o13.len
    · show _ ≤ (s3.cx.finishIntf u l.head.no ds).w.units.length
      rw [g4]; exact o13.units
    · exact (g2 t ht).trans (o13.obj t ht)
    · exact (g6 j hj).trans (o13.dms j)
    · show s3.cx.cur < (s3.cx.finishIntf u l.head.no ds).w.ctxs.length
      rw [g3]; exact c3
  · rintro r s' ⟨X', g1, g2, g3, g4, g5, g6, g7, g8, g9, g10⟩
    refine ⟨X', g1, g2, g3, g4, g5, g6, ⟨g8, ?_, .inr ?_⟩, g9, g10⟩
    · show r.2.head.no < _
      rw [g9]; exact Nat.lt_of_lt_of_le hl.no g4
    · show HasIntf u X' s'.cx r.2.head.no r.1
      rw [g9]; exact g7

theorem implStep_held {n : Nat} {l : Loader} {s : PS DS} (h : Seal X s.cx) (hl : Held u X s.cx l) :
    wpT (implStep u n l) s (fun l' s' => Onward X s.cx s'.cx ∧ Held u X s'.cx l' ∧ l'.head = l.head ∧ s'.cx.cur = s.cx.cur) := by
  unfold implStep
  refine wp_then (Q1 := fun r s' => Onward X s.cx s'.cx ∧ r.2.cur < s'.cx.w.ctxs.length ∧ r.2.head = l.head ∧ r.2.intf = l.intf ∧
    s'.cx.cur = s.cx.cur) (wp_run ?_) ?_
  · unfold processImpl
    have h1 := h.switch l.cur l.pending
    refine wp_then (Q1 := fun _ s' => Onward X { s.cx with cur := l.cur, pending := l.pending } s'.cx ∧
      s'.cx.cur < s'.cx.w.ctxs.length) ?_ ?_
    · unfold parseImplUses
      refine (Seal.base u X _ l.tail).eatKw ⟨rfl, h1.start hl.cur, trivial⟩ fun t s1 c h2 e1 => ?_
      have o1 := Sealed.onward h1 h2.cx
      rw [wp_bind]
      show wp (parseOptUses u n) { s1 with cx := s1.cx.stackAt l.cu } _ _ _
      obtain ⟨o2, c2⟩ := o1.fin.stackAt l.cu
      refine wp_mono (wpT_sealed (s := { s1 with cx := s1.cx.stackAt l.cu }) o2.fin
        (by rw [c2]; exact Nat.lt_of_lt_of_le h2.cx.here o2.len)
        (optUses_sound (Seal.base u X _ _) (Heap.uses fun _ _ => trivial) n)) ?_ id id
      rintro es s3 ⟨o3, c3⟩
      exact ⟨(o1.trans o2).trans o3, c3⟩
    · rintro es s2 ⟨o2, c2⟩
      refine wp_then (Q1 := fun _ s' => Onward X { s.cx with cur := l.cur, pending := l.pending } s'.cx ∧
        s'.cx.cur < s'.cx.w.ctxs.length) (wp_inImpl ?_) ?_
      · cases e : s2.cx.openImpl u l.cu l.head.no es with
        | none => trivial
        | some r =>
          obtain ⟨k3, um⟩ := r
          simp only
          obtain ⟨g1, g2, g3, g4, g5, g6, g7⟩ := o2.fin.openImpl u e
          refine wp_mono (wpT_sealed (s := { s2 with cx := k3 }) g1 (by rw [g5]; exact Nat.lt_of_lt_of_le c2 g2)
            (implAndEnd_sound (Seal.base u X _ _) n)) ?_ id id
          rintro b s4 ⟨o4, c4⟩
          obtain ⟨q1, q2, q3, q4, q5, q6⟩ := o4.fin.closeImpl l.head.no um
          refine ⟨⟨q1, ?_, fun t ht => ?_, ?_, fun j => ?_⟩, ?_⟩
          · show _ ≤ (s4.cx.closeImpl l.head.no um).w.ctxs.length
            rw [q3]; exact Nat.le_trans o2.len (Nat.le_trans g2 o4.len)
          · show (s4.cx.closeImpl l.head.no um).w.maps.obj t = _
            rw [q2]; exact (o4.obj t ht).trans ((g3 t ht).trans (o2.obj t ht))
          · show _ ≤ (s4.cx.closeImpl l.head.no um).w.units.length
            rw [q4]
            exact Nat.le_trans o2.units (by rw [← g4]; exact o4.units)
          · show (s4.cx.closeImpl l.head.no um).w.unitDm j = _
            by_cases c : j = l.head.no
            · subst c
              rw [q6, ← o2.dms, g6]
              refine Nat.lt_of_lt_of_le (Nat.lt_of_lt_of_le hl.no o2.units) ?_
              rw [← g4]; exact o4.units
            · rw [q5 j c]
              exact (o4.dms j).trans ((g7 j c).trans (o2.dms j))
          · show s4.cx.cur < (s4.cx.closeImpl l.head.no um).w.ctxs.length
            rw [q3]; exact c4
      · rintro b s5 ⟨o5, c5⟩
        exact ⟨o5.switch s.cx.cur s.cx.cur s.cx.pending s.cx.pending, c5, rfl, rfl, rfl⟩
  · rintro r s' ⟨g1, g2, g3, g4, g5⟩
    refine ⟨g1, ⟨g2, ?_, ?_⟩, g3, g5⟩
    · show r.2.head.no < _
      rw [g3]; exact Nat.lt_of_lt_of_le hl.no g1.units
    · show s'.cx.w.unitDm r.2.head.no = none ∨ HasIntf u X s'.cx r.2.head.no r.2.intf
      rw [g3, g4, g1.dms]
      exact hl.intf.imp_right (·.onward g1)

theorem head_set {ls : List Loader} {i : Nat} {l l' : Loader} (hl : ls[i]? = some l) (h : l'.head = l.head) :
    (ls.set i l').map Loader.head = ls.map Loader.head := by
  have hi : i < ls.length := by
    by_contra c
    rw [List.getElem?_eq_none (by omega)] at hl; cases hl
  rw [List.map_set, h]
  apply List.ext_getElem?
  intro j
  by_cases c : i = j
  · subst c
    rw [List.getElem?_set_self (by simpa using hi), List.getElem?_map, hl]; rfl
  · rw [List.getElem?_set_ne c]

theorem intfAll_held {n : Nat} : ∀ (is : List Nat) (X : Nat → Prop) (ls : List Loader) (s : PS DS), Seal X s.cx →
    (∀ l ∈ ls, Held u X s.cx l) → (ls.map fun l => l.head.no).Nodup →
    wpT (intfAll u n is ls) s (fun ls' s' => ∃ X', Seal X' s'.cx ∧ (∀ l ∈ ls', Held u X' s'.cx l) ∧
      ls'.map Loader.head = ls.map Loader.head ∧ s'.cx.cur = s.cx.cur ∧ s.cx.w.ctxs.length ≤ s'.cx.w.ctxs.length)
  | [], X, ls, s, h, hr, _ => ⟨X, h, hr, rfl, rfl, Nat.le_refl _⟩
  | i :: is, X, ls, s, h, hr, hn => by
    cases e : ls[i]? with
    | none =>
      rw [intfAll, e]
      exact intfAll_held is X ls s h hr hn
    | some l =>
      rw [intfAll_step e]
      refine wp_then (intfStep_held h (hr l (List.mem_of_getElem? e))) ?_
      rintro l' s1 ⟨X', g1, g2, g3, g4, g5, g6, g7, g8, g9⟩
      have hh := head_set e g8
      have hn' : ((ls.set i l').map fun l => l.head.no).Nodup := by
        have : ∀ l : List Loader, (l.map fun l => l.head.no) = (l.map Loader.head).map UnitHead.no := fun l => by
          rw [List.map_map]; rfl
        rw [this, hh, ← this]; exact hn
      refine wp_mono (intfAll_held is X' (ls.set i l') s1 g2 ?_ hn') ?_ id id
      · intro l2 hl2
        obtain ⟨j, hj⟩ := List.mem_iff_getElem?.1 hl2
        rw [List.getElem?_set] at hj
        by_cases c : i = j
        · rw [if_pos c] at hj
          split at hj
          · cases hj; exact g7
          · cases hj
        · rw [if_neg c] at hj
          have h2 := hr l2 (List.mem_of_getElem? hj)
          have hne : l2.head.no ≠ l.head.no := by
            intro he
            have hj' : j < ls.length := by
              by_contra c
              rw [List.getElem?_eq_none (by omega)] at hj; cases hj
            have hi' : i < ls.length := by
              by_contra c
              rw [List.getElem?_eq_none (by omega)] at e; cases e
            refine c (List.Nodup.getElem_inj_iff hn |>.1 (?_ : (ls.map fun l => l.head.no)[i]'(by simpa using hi') = (ls.map fun l => l.head.no)[j]'(by simpa using hj')))
            rw [List.getElem_map, List.getElem_map]
            rw [List.getElem?_eq_getElem hi'] at e
            rw [List.getElem?_eq_getElem hj'] at hj
            cases e; cases hj
            exact he.symm
          refine ⟨Nat.lt_of_lt_of_le h2.cur g3, Nat.lt_of_lt_of_le h2.no g4, ?_⟩
          rw [g6 _ hne]
          refine h2.intf.imp_right ?_
          rintro ⟨m, q1, q2, q3⟩
          exact ⟨m, g1 m q1, by rw [g6 _ hne]; exact q2, by rw [g5 m q1]; exact q3⟩
      · rintro ls' s2 ⟨X2, q1, q2, q3, q4, q5⟩
        exact ⟨X2, q1, q2, q3.trans hh, q4.trans g9, Nat.le_trans g3 q5⟩

theorem implAll_held {n : Nat} : ∀ (is : List Nat) (ls : List Loader) (s : PS DS), Seal X s.cx → (∀ l ∈ ls, Held u X s.cx l) →
    wpT (implAll u n is ls) s (fun ls' s' => Onward X s.cx s'.cx ∧ (∀ l ∈ ls', Held u X s'.cx l) ∧ s'.cx.cur = s.cx.cur)
  | [], ls, s, h, hr => ⟨.refl h, hr, rfl⟩
  | i :: is, ls, s, h, hr => by
    cases e : ls[i]? with
    | none =>
      rw [implAll, e]
      exact implAll_held is ls s h hr
    | some l =>
      rw [implAll_step e]
      refine wp_then (implStep_held h (hr l (List.mem_of_getElem? e))) ?_
      rintro l' s1 ⟨o1, g2, g3, g4⟩
      refine wp_mono (implAll_held is (ls.set i l') s1 o1.fin ?_) ?_ id id
      · intro l2 hl2
        rcases List.mem_or_eq_of_mem_set hl2 with hl2 | rfl
        · exact (hr l2 hl2).onward o1
        · exact g2
      · rintro ls' s2 ⟨o2, q2, q3⟩
        exact ⟨o1.trans o2, q2, q3.trans g4⟩

theorem loadUnits_held {n : Nat} {i : Ident} {es : List UsesEntry} {s : PS DS} (h : Seal X s.cx) :
    wpT (loadUnits u sep files lib it cp i es n) s (fun ls s' => ∃ X', Seal X' s'.cx ∧ s'.cx.cur = s.cx.cur ∧
      s.cx.w.ctxs.length ≤ s'.cx.w.ctxs.length ∧ ∀ l ∈ ls, HasIntf u X' s'.cx l.head.no l.intf) := by
  unfold loadUnits
  refine wp_then (newLoaders_held es h) ?_
  rintro cs s1 ⟨o1, c1, u1⟩
  refine wp_then (loadAll_held cs o1.fin u1) ?_
  rintro ls s2 ⟨o2, c2, g2, -, n2⟩
  cases UnitParsers.sort u lib (it (uparsers ls)) (uparsers ls) with
  | none => trivial
  | some sorted =>
    show wp (intfAll u n _ _ >>= _) _ _ _ _
    refine wp_then (intfAll_held _ X ls s2 o2.fin g2 n2) ?_
    rintro ls1 s3 ⟨X', g3, r3, -, c3, l3⟩
    refine wp_then (implAll_held _ ls1 s3 g3 r3) ?_
    rintro ls2 s4 ⟨o4, r4, c4⟩
    refine wp_then (Q1 := fun _ s' => Onward X' s4.cx s'.cx ∧ s'.cx.cur = s4.cx.cur ∧ ∀ l ∈ ls2, s4.cx.w.unitDm l.head.no ≠ none) ?_ ?_
    · unfold wp enterP
      cases e : s4.cx.usesMap u es (ls2.map Loader.head) [] with
      | none => trivial
      | some km =>
        obtain ⟨k, m⟩ := km
        simp only
        cases e2 : k.enterProgram u cp i (ls2.map Loader.head) m with
        | none => trivial
        | some k2 =>
          obtain ⟨is, rfl⟩ := Seal.usesMap u e
          obtain ⟨q1, q2, q3⟩ := (o4.fin.items is).fin.enterProgram u e2
          exact ⟨(o4.fin.items is).trans q1, q2, fun l hl => q3 _ (List.mem_map_of_mem hl)⟩
    · rintro _ s5 ⟨o5, c5, d5⟩
      refine ⟨X', o5.fin, ?_, ?_, fun l hl => ?_⟩
      · rw [c5, c4, c3, c2, c1]
      · exact Nat.le_trans (o1.trans o2).len (Nat.le_trans l3 (o4.trans o5).len)
      · exact ((r4 l hl).intf.resolve_left (d5 l hl)).onward o5

/-- in the result of `ParseProgram` -/
theorem program_held {n : Nat} {s : PS DS} (h : Seal X s.cx) (hc : s.cx.cur < s.cx.w.ctxs.length) :
    wpT (parseProgram u sep files lib it cp n) s (fun t s' => ∃ X', Seal X' s'.cx ∧
      ∀ x ∈ t.units, HasIntf u X' s'.cx x.head.no x.intf) := by
  unfold parseProgram
  have B := Seal.base u X s.cx s.tail
  have hs : In' (Sealed X s.cx) (fun _ => True) s.tail s := ⟨rfl, h.start hc, trivial⟩
  refine B.current hs fun t ht c => ?_
  obtain ⟨ts, hts⟩ := tok_cons' notEof_kw ht c
  refine B.nextIs hs (fun t h => by rw [typ_iff.1 h]; decide) fun t0 t1 s1 ts1 c1 h1 e1 e1' => ?_
  refine B.nextIs h1 (fun t h => sym_ne_eof (symbol_iff.1 h)) fun t2 t3 s3 ts3 c3 h3 e3 e3' => ?_
  refine B.next h3 e3' fun s4 h4 e4 => ?_
  refine wp_then (Q1 := fun r s' => ∃ X', Seal X' s'.cx ∧ s'.cx.cur < s'.cx.w.ctxs.length ∧
    ∀ x ∈ r.2, HasIntf u X' s'.cx x.head.no x.intf) ?_ ?_
  · unfold parseProgramUses
    refine B.isL h4 notEof_kw (fun _ _ _ _ => ?_) (fun _ _ _ => ⟨X, (Sealed.onward h h4.cx).fin, h4.cx.here, fun _ h => by cases h⟩)
    refine (uses_sound B (Heap.uses fun _ _ => trivial) n).bind h4 (fun _ => trivial) fun es s5 h5 _ ⟨t6, z, e5, hne, g5⟩ => ?_
    refine B.next h5 e5 fun s6 h6 e6 => ?_
    refine wp_then (loadUnits_held (Sealed.onward h h6.cx).fin) ?_
    rintro ls s7 ⟨X', f7, c7, l7, g7⟩
    refine ⟨X', f7, by rw [c7]; exact Nat.lt_of_lt_of_le h6.cx.here l7, ?_⟩
    intro x hx
    obtain ⟨l, hl, rfl⟩ := List.mem_map.1 hx
    exact g7 l hl
  rintro us s5 ⟨X', f5, c5, g5⟩
  refine wp_then (wpT_sealed f5 c5 (allDecls (Seal.base u X' s5.cx s5.tail) n).block) ?_
  rintro b s6 ⟨o6, c6⟩
  rw [wp_bind]
  refine wp_current (fun t7 ht7 c7 => ⟨X', o6.fin, fun x hx => (g5 x hx).onward o6⟩) (fun _ => trivial)

end TP
