import Verif.Lemmas.Ordered

/-!
# References in programs lead to earlier declarations
-/

namespace TP
open Spec Maps Props

variable {u : Uni} {α β : Type}

local notation "DL" => List (Dcl (Decl Node))
local notation "TL" => List (PType (Decl Node))

theorem assignUnits_types {cu : Nat} : ∀ {es : List UsesEntry} {k : DS}, (k.assignUnits u cu es).types = k.types
  | [], _ => rfl
  | e :: es, k => by
    unfold DS.assignUnits
    split
    · rw [assignUnits_types]
    · exact assignUnits_types

theorem importUnits_types {cu : Nat} {es : List UsesEntry} {k k' : DS} (e : k.importUnits u cu es = some k') : k'.types = k.types := by
  unfold DS.importUnits at e
  simp only at e
  split at e
  · cases e; exact assignUnits_types
  · cases e

theorem openImpl_types {cu unit : Nat} {es : List UsesEntry} {k : DS} {r : DS × Nat} (e : k.openImpl u cu unit es = some r) : r.1.types = k.types := by
  unfold DS.openImpl at e
  simp only at e
  split at e
  · cases e; exact assignUnits_types
  · cases e

theorem usesMap_types {es : List UsesEntry} : ∀ {hs : List UnitHead} {k : DS} {m : Tbl Node} {r : DS × Tbl Node}, k.usesMap u es hs m = some r → r.1.types = k.types
  | [], _, _, _, e => by cases e; rfl
  | h :: hs, k, m, r, e => by
    unfold DS.usesMap at e
    split at e
    · cases e
    · have := usesMap_types e
      exact this

theorem enterP_types {cp : Nat} {i : Ident} {es : List UsesEntry} {hs : List UnitHead} {s s' : PS DS} {a : Unit}
    (e : TP.enterP u cp i es hs s = .ok a s') : s'.cx.types = s.cx.types := by
  unfold TP.enterP at e
  cases e1 : s.cx.usesMap u es hs [] with
  | none => rw [e1] at e; cases e
  | some km =>
    rw [e1] at e
    have h1 := usesMap_types e1
    cases e2 : km.1.enterProgram u cp i hs km.2 with
    | none => simp only [e2] at e; cases e
    | some c =>
      simp only [e2] at e
      cases e
      unfold DS.enterProgram at e2
      split at e2
      · cases e2; exact h1
      · cases e2

namespace Fo

theorem run {f : α → DL} {O : α → DL → TL → Prop} {p : P DS α} (h : Fo f O p) (ld : Loader) : Fo (fun x => f x.1) (fun x => O x.1) (ld.run p) := by
  intro L s a s' hs e
  unfold Loader.run at e
  cases hp : p ⟨ld.ts, ld.tail, { s.cx with cur := ld.cur, pending := ld.pending }⟩ <;> rw [hp] at e <;> simp only [TP.R.ok.injEq, reduceCtorEq] at e
  obtain ⟨rfl, rfl⟩ := e
  obtain ⟨h1, h2, h3⟩ := h L ⟨ld.ts, ld.tail, { s.cx with cur := ld.cur, pending := ld.pending }⟩ _ _ (hs.same rfl rfl rfl) hp
  exact ⟨h1.same rfl rfl rfl, h2, h3⟩

theorem processIntf (cu : Nat) (hd : UnitHead) (es : List UsesEntry) (n : Nat) :
    Fo (fun ds => .unit hd.ident.name hd.no :: ds.flatMap dclIntf) (fun ds L T => ordIntf T (.unit hd.ident.name hd.no :: L) ds) (TP.processIntf u cu hd es n) := by
  intro L s a s' hs e
  unfold TP.processIntf at e
  obtain ⟨_, s1, e1, e⟩ := ok_bind e
  obtain ⟨_, s2, e2, e⟩ := ok_bind e
  unfold TP.stepP at e1
  simp only at e1
  cases hf : s.cx.importUnits u cu es with
  | none => rw [hf] at e1; cases e1
  | some c =>
    rw [hf] at e1
    cases e1
    unfold TP.stepR at e2
    simp only at e2
    cases hg : c.setUnit u cu hd with
    | err => rw [hg] at e2; cases e2
    | panic => rw [hg] at e2; cases e2
    | ok c2 =>
      rw [hg] at e2
      cases e2
      have h1 := (hs.importUnits hf).setUnit hg
      obtain ⟨h3, t3, o3⟩ := intfBody _ n _ _ _ _ h1 e
      have ht : c2.types = s.cx.types := by
        have : c2.types = c.types := by rw [setR_ok hg]
        exact this.trans (importUnits_types hf)
      refine ⟨h3.mono (by mems) (fun _ h => h), ?_, o3⟩
      rw [← ht]; exact t3

theorem inImpl {f : α → DL} {O : α → DL → TL → Prop} {p : P DS α} (h : Fo f O p) (cu unit : Nat) (es : List UsesEntry) : Fo f O (TP.inImpl u cu unit es p) := by
  intro L s a s' hs e
  unfold TP.inImpl at e
  cases ho : s.cx.openImpl u cu unit es with
  | none => rw [ho] at e; cases e
  | some km =>
    obtain ⟨k, um⟩ := km
    rw [ho] at e
    simp only at e
    cases hp : p { s with cx := k } <;> rw [hp] at e <;> simp only [TP.R.ok.injEq, reduceCtorEq] at e
    obtain ⟨rfl, rfl⟩ := e
    obtain ⟨h1, h2, h3⟩ := h L _ _ _ (hs.openImpl ho) hp
    have ht : k.types = s.cx.types := openImpl_types ho
    exact ⟨h1.setUnitDm _ _, by rw [← ht]; exact h2, h3⟩

theorem processImpl (cu unit n : Nat) :
    Fo (fun r => dclUses r.1 ++ dclUnitBody r.2) (fun r L T => ordUnitBody T (dclUses r.1 ++ L) r.2) (TP.processImpl u cu unit n) := by
  intro L s a s' hs e
  unfold TP.processImpl at e
  obtain ⟨es, s1, e1, e⟩ := ok_bind e
  obtain ⟨b, s2, e2, e⟩ := ok_bind e
  cases e
  obtain ⟨h1, t1, -⟩ := implUses cu n _ _ _ _ hs e1
  obtain ⟨h2, t2, o2⟩ := inImpl (implAndEnd n) cu unit es _ _ _ _ h1 e2
  exact ⟨h2.mono (by mems) (fun _ h => h), t1.trans t2, o2⟩

open Fw

/-- what a loop does to the parser of one unit -/
def Stp (Ord : Loader → Loader → DL → TL → Prop) (l : Loader) (p : P DS Loader) : Prop :=
  ∀ L s l' s', Inn L [] s.cx → (∀ x ∈ dclLoader l, x ∈ L) → p s = .ok l' s' →
    Inn (dclLoader l' ++ L) [] s'.cx ∧ s.cx.types <+: s'.cx.types ∧ (∀ x ∈ dclLoader l, x ∈ dclLoader l') ∧ Ord l l' L s'.cx.types

theorem mem_others {ls : List Loader} {i j : Nat} {l : Loader} (h : ls[j]? = some l) (hij : j ≠ i) : l ∈ ls.eraseIdx i := by
  exact List.mem_eraseIdx_iff_getElem?.2 ⟨j, hij, h⟩

/-- the loops over the parsers -/
theorem loop {P0 : Loader → Prop} {Ord : Loader → Loader → DL → TL → Prop} {stp : Loader → P DS Loader} {lp : List Nat → List Loader → P DS (List Loader)}
    (h0 : ∀ ls, lp [] ls = Pure.pure ls) (h1 : ∀ i is ls l, ls[i]? = some l → lp (i :: is) ls = (stp l >>= fun l' => lp is (ls.set i l')))
    (h2 : ∀ i is ls, ls[i]? = none → lp (i :: is) ls = lp is ls) (hs : ∀ l, P0 l → Stp Ord l (stp l))
    (hm : ∀ l l' L L' T T', T <+: T' → (∀ x ∈ L, x ∈ L') → Ord l l' L T → Ord l l' L' T') :
    ∀ (is : List Nat) (ls : List Loader), is.Nodup → (∀ i ∈ is, ∀ l, ls[i]? = some l → P0 l) → ∀ L s ls' s', Inn (ls.flatMap dclLoader ++ L) [] s.cx →
      lp is ls s = .ok ls' s' → Inn (ls'.flatMap dclLoader ++ L) [] s'.cx ∧ s.cx.types <+: s'.cx.types ∧ ls'.length = ls.length ∧
      (∀ j, j ∉ is → ls'[j]? = ls[j]?) ∧ (∀ j l, ls[j]? = some l → ∃ l', ls'[j]? = some l' ∧ (∀ x ∈ dclLoader l, x ∈ dclLoader l') ∧
        (j ∈ is → Ord l l' (dclLoader l ++ ((ls'.eraseIdx j).flatMap dclLoader ++ L)) s'.cx.types))
  | [], ls, _, _, L, s, ls', s', hI, e => by
    rw [h0] at e
    cases e
    exact ⟨hI, List.prefix_rfl, rfl, fun _ _ => rfl, fun j l hj => ⟨l, hj, fun _ h => h, fun h => by cases h⟩⟩
  | i :: is, ls, hn, hp, L, s, ls', s', hI, e => by
    rw [List.nodup_cons] at hn
    cases ei : ls[i]? with
    | none =>
      rw [h2 i is ls ei] at e
      obtain ⟨r1, r2, r3, r4, r5⟩ := loop h0 h1 h2 hs hm is ls hn.2 (fun j hj => hp j (by simp [hj])) L s ls' s' hI e
      refine ⟨r1, r2, r3, fun j hj => r4 j fun h => hj (by simp [h]), fun j l hj => ?_⟩
      obtain ⟨l', a, b, c⟩ := r5 j l hj
      refine ⟨l', a, b, fun h => c ?_⟩
      rcases List.mem_cons.1 h with rfl | h
      · rw [ei] at hj; cases hj
      · exact h
    | some l =>
      rw [h1 i is ls l ei] at e
      obtain ⟨l1, s1, e1, e⟩ := ok_bind e
      have hi : i < ls.length := (List.getElem?_eq_some_iff.1 ei).1
      obtain ⟨g1, g2, g3, g4⟩ := hs l (hp i (by simp) l ei) _ s l1 s1 hI
        (fun x hx => List.mem_append_left _ (List.mem_flatMap.2 ⟨l, List.mem_of_getElem? ei, hx⟩)) e1
      have hl1 : (ls.set i l1)[i]? = some l1 := List.getElem?_set_self hi
      have hI' : Inn ((ls.set i l1).flatMap dclLoader ++ L) [] s1.cx := by
        refine g1.mono (fun x hx => ?_) (fun _ h => h)
        rcases List.mem_append.1 hx with hx | hx
        · exact List.mem_append_left _ (List.mem_flatMap.2 ⟨l1, List.mem_of_getElem? hl1, hx⟩)
        rcases List.mem_append.1 hx with hx | hx
        · obtain ⟨y, hy, hx⟩ := List.mem_flatMap.1 hx
          obtain ⟨j, hj⟩ := List.mem_iff_getElem?.1 hy
          refine List.mem_append_left _ ?_
          by_cases c : i = j
          · subst c
            rw [ei] at hj
            cases hj
            exact List.mem_flatMap.2 ⟨l1, List.mem_of_getElem? hl1, g3 x hx⟩
          · exact List.mem_flatMap.2 ⟨y, List.mem_iff_getElem?.2 ⟨j, by rw [List.getElem?_set_ne c]; exact hj⟩, hx⟩
        · exact List.mem_append_right _ hx
      obtain ⟨r1, r2, r3, r4, r5⟩ := loop h0 h1 h2 hs hm is (ls.set i l1) hn.2 (fun j hj l2 hl2 => by
          have c : i ≠ j := fun c => hn.1 (c ▸ hj)
          rw [List.getElem?_set_ne c] at hl2
          exact hp j (by simp [hj]) l2 hl2) L s1 ls' s' hI' e
      refine ⟨r1, g2.trans r2, by rw [r3, List.length_set], fun j hj => ?_, fun j lj hj => ?_⟩
      · rw [List.mem_cons, not_or] at hj
        rw [r4 j hj.2, List.getElem?_set_ne (Ne.symm hj.1)]
      · by_cases c : i = j
        · subst c
          rw [ei] at hj
          cases hj
          obtain ⟨l', a, b, -⟩ := r5 i l1 hl1
          have ha := r4 i hn.1
          rw [a, hl1] at ha
          cases ha
          refine ⟨l1, a, g3, fun _ => hm _ _ _ _ _ _ r2 (fun x hx => ?_) g4⟩
          rcases List.mem_append.1 hx with hx | hx
          · obtain ⟨y, hy, hx⟩ := List.mem_flatMap.1 hx
            obtain ⟨k, hk⟩ := List.mem_iff_getElem?.1 hy
            by_cases c : k = i
            · subst c
              rw [ei] at hk
              cases hk
              exact List.mem_append_left _ hx
            · obtain ⟨y', ay, byy, -⟩ := r5 k y (by rw [List.getElem?_set_ne (Ne.symm c)]; exact hk)
              exact List.mem_append_right _ (List.mem_append_left _ (List.mem_flatMap.2 ⟨y', mem_others ay c, byy x hx⟩))
          · exact List.mem_append_right _ (List.mem_append_right _ hx)
        · obtain ⟨l', a, b, d⟩ := r5 j lj (by rw [List.getElem?_set_ne c]; exact hj)
          refine ⟨l', a, b, fun h => d ?_⟩
          rcases List.mem_cons.1 h with rfl | h
          · exact absurd rfl c
          · exact h

/-- the first loop: the interface is read -/
def OrdI (l l' : Loader) (L : DL) (T : TL) : Prop :=
  l'.head = l.head ∧ l'.uses = l.uses ∧ Fresh1 l' ∧ ordIntf T (.unit l.head.ident.name l.head.no :: L) l'.intf

/-- the second loop: the implementation is read -/
def OrdB (l l' : Loader) (L : DL) (T : TL) : Prop :=
  l'.head = l.head ∧ l'.uses = l.uses ∧ l'.intf = l.intf ∧ ordUnitBody T (dclUses l'.implUses ++ L) l'.body

theorem intfStep_stp (n : Nat) (l : Loader) (h : Fresh0 l) : Stp OrdI l (intfStep u n l) := by
  intro L s l' s' hs hl e
  obtain ⟨f1, f2⟩ := (intfStep_fw n l h).2 s l' s' e
  unfold intfStep at e
  obtain ⟨r, s1, e1, e⟩ := ok_bind e
  cases e
  have ht := run_loader e1
  unfold Loader.tree at ht
  injection ht with h1 h2 h3 h4 h5
  obtain ⟨g1, g2, g3⟩ := run (processIntf (u := u) l.cu l.head l.uses n) l L _ _ _ hs e1
  refine ⟨g1.mono (fun x hx => ?_) (fun _ h => h), g2, f2, h1, h2, f1, g3⟩
  simp only [dclUnit, Loader.tree, List.mem_cons, List.mem_append, List.cons_append, h1] at hx ⊢
  tauto

theorem implStep_stp (n : Nat) (l : Loader) (h : Fresh1 l) : Stp OrdB l (implStep u n l) := by
  intro L s l' s' hs hl e
  obtain ⟨-, f2⟩ := (implStep_fw n l h).2 s l' s' e
  unfold implStep at e
  obtain ⟨r, s1, e1, e⟩ := ok_bind e
  cases e
  have ht := run_loader e1
  unfold Loader.tree at ht
  injection ht with h1 h2 h3 h4 h5
  obtain ⟨g1, g2, g3⟩ := run (processImpl (u := u) l.cu l.head.no n) l L _ _ _ hs e1
  refine ⟨g1.mono (fun x hx => ?_) (fun _ h => h), g2, f2, h1, h2, h3, g3⟩
  simp only [dclUnit, Loader.tree, List.mem_cons, List.mem_append, List.cons_append] at hx ⊢
  tauto

variable {sep : Char} {files : Str → FileR} {lib : TopoLib} {it : List UParser → List Str}

/-- the units are in order -/
def OrdUnits (T : TL) (L : DL) (us : List (UnitTree (Decl Node))) : Prop := ∀ i m, us[i]? = some m →
  ordIntf T (.unit m.head.ident.name m.head.no :: dclUses m.intfUses ++ ((us.eraseIdx i).flatMap dclPublic ++ L)) m.intf ∧
  ordUnitBody T (dclUses m.implUses ++ (dclPublic m ++ ((us.eraseIdx i).flatMap dclUnit ++ L))) m.body

theorem fresh0_dcl {l : Loader} (h : Fresh0 l) : dclLoader l = .unit l.head.ident.name l.head.no :: dclUses l.uses := by
  obtain ⟨h1, h2, h3⟩ := h
  simp [dclLoader, dclUnit, Loader.tree, h1, h2, h3, dclUnitBody, dclSections, dclUses]

theorem fresh1_dcl {l : Loader} (h : Fresh1 l) : dclLoader l = dclPublic l.tree := by
  obtain ⟨h2, h3⟩ := h
  simp [dclLoader, dclPublic, dclUnit, Loader.tree, h2, h3, dclUnitBody, dclSections, dclUses]

theorem loadUnits (hlib : TopoCorrect lib) (hit : IterOK u it) (cp : Nat) (i : Ident) (es : List UsesEntry) (n : Nat) {L : DL} {s s' : PS DS}
    {ls : List Loader} (h : Inn L [] s.cx) (e : TP.loadUnits u sep files lib it cp i es n s = .ok ls s') (hd : DistinctUnits u (ls.map Loader.head)) :
    OrdUnits s'.cx.types L (ls.map Loader.tree) := by
  unfold TP.loadUnits at e
  obtain ⟨cs, s1, e1, e⟩ := ok_bind e
  obtain ⟨ls0, s2, e2, e⟩ := ok_bind e
  cases hsort : UnitParsers.sort u lib (it (uparsers ls0)) (uparsers ls0) with
  | none => rw [hsort] at e; cases e
  | some sorted =>
    rw [hsort] at e
    obtain ⟨ls1, s3, e3, e⟩ := ok_bind e
    obtain ⟨ls2, s4, e4, e⟩ := ok_bind e
    obtain ⟨_, s5, e5, e⟩ := ok_bind e
    cases e
    have k1 : ls1.map Loader.key = ls0.map Loader.key := by
      have := intfAll_wp (u := u) (files := files) (n := n) (P0 := fun _ => True) (P1 := fun _ => True) (fun _ _ _ _ => trivial) (sorted.map UParser.id) ls0 s2
        (.inr fun _ h => h) (fun _ _ _ _ => trivial) (fun _ _ _ _ => trivial)
      change wp _ _ _ _ _ at this
      unfold wp at this
      rw [e3] at this
      exact this.2.1
    have k2 : ls.map Loader.key = ls1.map Loader.key := by
      have := implAll_wp (u := u) (files := files) (n := n) (P0 := fun _ => True) (P1 := fun _ => True) (fun _ _ _ _ => trivial) (sorted.map UParser.id) ls1 s3
        (.inr fun _ h => h) (fun _ _ _ _ => trivial) (fun _ _ _ _ => trivial)
      change wp _ _ _ _ _ at this
      unfold wp at this
      rw [e4] at this
      exact this.2.1
    have hd0 : DistinctUnits u (ls0.map Loader.head) := by
      have : ls.map Loader.head = ls0.map Loader.head := by
        simpa [List.map_map, Function.comp_def, Loader.key] using congrArg (List.map fun k => k.2.1) (k2.trans k1)
      rw [← this]; exact hd
    have hu : ∀ l ∈ ls0, (l.uses.map fun e => u.toLower e.ident.name).Nodup := by
      have := loadAll_wp (u := u) (files := files) (cp := cp) (n := n) cs s1
      change wp _ _ _ _ _ at this
      unfold wp at this
      rw [e2] at this
      exact fun l hl => (this.2.2 l hl).2
    obtain ⟨hn, hall⟩ := sorted_ids hlib hit hd0 hu hsort
    have f0 := loadAll_fresh cp n cs _ _ _ e2
    have h1 := Fw.newLoaders cp es L [] _ _ _ h e1
    have h2 := (Fw.loadAll cp n cs L [] _ _ _ h1 e2).mono (R' := []) (fun _ h => h) (fun _ h => by cases h)
    obtain ⟨h3, -, l3, -, o3⟩ := loop (P0 := Fresh0) (Ord := OrdI) (lp := intfAll u n) (stp := intfStep u n) (fun ls => rfl) (fun i is ls l h => intfAll_step h)
      (fun i is ls h => by rw [intfAll, h]) (intfStep_stp n) (fun _ _ _ _ _ _ hT hL h => ⟨h.1, h.2.1, h.2.2.1, ordIntf_mono hT (sub_append hL [_]) h.2.2.2⟩)
      (sorted.map UParser.id) ls0 hn (fun i _ l hl => f0 l (List.mem_of_getElem? hl)) L _ _ _ h2 e3
    have f1 : ∀ l ∈ ls1, Fresh1 l := fun l hl => by
      obtain ⟨j, hj⟩ := List.mem_iff_getElem?.1 hl
      have hj1 : j < ls0.length := l3 ▸ (List.getElem?_eq_some_iff.1 hj).1
      obtain ⟨l', a, -, b⟩ := o3 j _ (List.getElem?_eq_getElem hj1)
      rw [hj] at a
      cases a
      exact (b (hall j hj1)).2.2.1
    obtain ⟨h4, t4, l4, -, o4⟩ := loop (P0 := Fresh1) (Ord := OrdB) (lp := implAll u n) (stp := implStep u n) (fun ls => rfl) (fun i is ls l h => implAll_step h)
      (fun i is ls h => by rw [implAll, h]) (implStep_stp n) (fun _ _ _ _ _ _ hT hL h => ⟨h.1, h.2.1, h.2.2.1, ordUnitBody_mono hT (sub_append hL _) h.2.2.2⟩)
      (sorted.map UParser.id) ls1 hn (fun i _ l hl => f1 l (List.mem_of_getElem? hl)) L _ _ _ h3 e4
    rw [enterP_types e5]
    intro j m hj
    rw [List.getElem?_map] at hj
    obtain ⟨l, hl, rfl⟩ := Option.map_eq_some_iff.1 hj
    have j0 : j < ls0.length := by rw [← l3, ← l4]; exact (List.getElem?_eq_some_iff.1 hl).1
    obtain ⟨m1, a1, -, b1⟩ := o3 j _ (List.getElem?_eq_getElem j0)
    obtain ⟨p1, p2, p3, p4⟩ := b1 (hall j j0)
    obtain ⟨m2, a2, -, b2⟩ := o4 j m1 a1
    rw [hl] at a2
    cases a2
    obtain ⟨r1, r2, r3, r4⟩ := b2 (hall j j0)
    rw [fresh0_dcl (f0 _ (List.getElem_mem j0))] at p4
    rw [fresh1_dcl p3] at r4
    have hpub : ∀ (j : Nat) (l : Loader), ls1[j]? = some l → ∃ l' : Loader, ls[j]? = some l' ∧ dclPublic l.tree = dclPublic l'.tree := by
      intro j l hj
      have hj1 : j < ls0.length := l3 ▸ (List.getElem?_eq_some_iff.1 hj).1
      obtain ⟨l', a, -, b⟩ := o4 j l hj
      obtain ⟨c1, c2, c3, -⟩ := b (hall j hj1)
      exact ⟨l', a, by simp only [dclPublic, Loader.tree, c1, c2, c3]⟩
    refine ⟨?_, ?_⟩
    · show ordIntf _ _ l.intf
      rw [r3]
      refine ordIntf_mono t4 (fun x hx => ?_) p4
      simp only [Loader.tree, r1, r2, p1, p2]
      simp only [List.mem_cons, List.mem_append, List.cons_append] at hx ⊢
      rcases hx with hx | hx | hx | hx | hx
      · tauto
      · tauto
      · tauto
      · obtain ⟨y, hy, hx⟩ := List.mem_flatMap.1 hx
        obtain ⟨k, hk, hy⟩ := List.mem_eraseIdx_iff_getElem?.1 hy
        rw [fresh1_dcl (f1 y (List.mem_of_getElem? hy))] at hx
        obtain ⟨y', hy', hp⟩ := hpub k y hy
        refine .inr (.inr (.inl (List.mem_flatMap.2 ⟨y'.tree, List.mem_eraseIdx_iff_getElem?.2 ⟨k, hk, ?_⟩, hp ▸ hx⟩)))
        rw [List.getElem?_map, hy']; rfl
      · tauto
    · refine ordUnitBody_mono List.prefix_rfl (fun x hx => ?_) r4
      have hp : dclPublic m1.tree = dclPublic l.tree := by simp only [dclPublic, Loader.tree, r1, r2, r3]
      rw [hp] at hx
      simp only [List.mem_append] at hx ⊢
      rcases hx with hx | hx | hx | hx
      · exact .inl hx
      · exact .inr (.inl hx)
      · obtain ⟨y, hy, hx⟩ := List.mem_flatMap.1 hx
        obtain ⟨k, hk, hy⟩ := List.mem_eraseIdx_iff_getElem?.1 hy
        refine .inr (.inr (.inl (List.mem_flatMap.2 ⟨y.tree, List.mem_eraseIdx_iff_getElem?.2 ⟨k, hk, ?_⟩, hx⟩)))
        rw [List.getElem?_map, hy]; rfl
      · tauto

theorem OrdUnits_types {T T' : TL} (hT : T <+: T') {L : DL} {us : List (UnitTree (Decl Node))} (h : OrdUnits T L us) : OrdUnits T' L us := fun i m hm =>
  ⟨ordIntf_mono hT (fun _ h => h) (h i m hm).1, ordUnitBody_mono hT (fun _ h => h) (h i m hm).2⟩

theorem program (hlib : TopoCorrect lib) (hit : IterOK u it) (cp n : Nat) {s s' : PS DS} {t : ProgramTree (Decl Node)} (h : Inn [] [] s.cx)
    (e : TP.parseProgram u sep files lib it cp n s = .ok t s') (hd : DistinctUnits u (t.units.map UnitTree.head)) : ordProgram s'.cx.types t := by
  unfold TP.parseProgram at e
  obtain ⟨_, s1, e1, e⟩ := ok_bind e
  obtain ⟨tk, s2, e2, e⟩ := ok_bind e
  obtain ⟨_, s3, e3, e⟩ := ok_bind e
  obtain ⟨_, s4, e4, e⟩ := ok_bind e
  obtain ⟨us, s5, e5, e⟩ := ok_bind e
  obtain ⟨b, s6, e6, e⟩ := ok_bind e
  obtain ⟨_, s7, e7, e⟩ := ok_bind e
  cases e
  have q : s4.cx = s.cx := by rw [quiet_next _ _ _ e4, quiet_nextIs _ _ _ _ e3, quiet_nextIs _ _ _ _ e2, quiet_current _ _ _ _ e1]
  rw [← q] at h
  have key : Inn (us.2.flatMap dclUnit ++ (dclUses us.1 ++ [.program (Ident.ofTok tk).name])) [] s5.cx ∧
      OrdUnits s5.cx.types (dclUses us.1 ++ [.program (Ident.ofTok tk).name]) us.2 := by
    unfold TP.parseProgramUses at e5
    obtain ⟨c, s8, e8, e5⟩ := ok_bind e5
    rw [← quiet_is _ _ _ _ e8] at h
    cases c with
    | false =>
      cases e5
      exact ⟨h.mono (fun _ h => by cases h) (fun _ h => by cases h), fun _ _ h => by cases h⟩
    | true =>
      obtain ⟨es, s9, e9, e5⟩ := ok_bind (p := TP.parseUses u n) e5
      obtain ⟨_, s10, e10, e5⟩ := ok_bind e5
      obtain ⟨ls, s11, e11, e5⟩ := ok_bind e5
      cases e5
      have h1 := Fw.parseUses n [.program (Ident.ofTok tk).name] [] _ _ _ (h.mono (fun _ h => by cases h) (fun _ h => by cases h)) e9
      rw [← quiet_next _ _ _ e10] at h1
      have hd' : DistinctUnits u (ls.map Loader.head) := by simpa [List.map_map, Function.comp_def, Loader.tree] using hd
      have h2 := Fw.loadUnits hlib hit cp (Ident.ofTok tk) es n h1 (List.mem_append_right _ (List.mem_singleton.2 rfl))
        (fun e he => List.mem_append_left _ (List.mem_map.2 ⟨e, he, rfl⟩)) e11 hd'
      refine ⟨h2.mono (fun x hx => ?_) (fun x hx => by cases hx), loadUnits hlib hit cp (Ident.ofTok tk) es n h1 e11 hd'⟩
      rw [List.flatMap_map]; exact hx
  obtain ⟨-, t6, o6⟩ := (blocks n).block _ _ _ _ key.1 e6
  rw [quiet_current _ _ _ _ e7]
  exact ⟨OrdUnits_types t6 key.2, o6⟩

end Fo

end TP
