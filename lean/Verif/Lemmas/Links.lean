import Verif.Lemmas.SealProgram
import Verif.Lemmas.ProgramSound

/-!
# The units of the items of uses clauses
-/

namespace TP
open Spec Props

variable {u : Uni} {files : Str → FileR} {cp : Nat} {sep : Char} {lib : TopoLib} {it : List UParser → List Str}

/-- the units of a program context, and the parent of a unit context -/
def unitsView : CtxObj → Option (List Nat) × Option Nat
  | .program _ us _ => (some us, none)
  | .unit p _ _ => (none, some p)
  | .stackable _ _ _ => (none, none)

/-- what context number `i` tells about units -/
abbrev DS.view (k : DS) (i : Nat) : Option (Option (List Nat) × Option Nat) := (k.w.ctxs.obj i).map unitsView

/-- the contexts tell the same about units -/
structure SameViews (k k' : DS) : Prop where
  len : k.w.ctxs.length ≤ k'.w.ctxs.length
  view : ∀ i < k.w.ctxs.length, k'.view i = k.view i

theorem SameViews.refl (k : DS) : SameViews k k := ⟨Nat.le_refl _, fun _ _ => rfl⟩

theorem SameViews.trans {a b c : DS} (h : SameViews a b) (h' : SameViews b c) : SameViews a c :=
  ⟨Nat.le_trans h.len h'.len, fun i hi => (h'.view i (Nat.lt_of_lt_of_le hi h.len)).trans (h.view i hi)⟩

theorem SameViews.eq {k k' : DS} (h : k'.w.ctxs = k.w.ctxs) : SameViews k k' := ⟨Nat.le_of_eq (by rw [h]), fun i _ => by rw [DS.view, h]⟩

theorem SameViews.some {k k' : DS} (h : SameViews k k') {i : Nat} {v} (hi : k.view i = some v) : k'.view i = some v := by
  obtain ⟨o, ho, -⟩ := Option.map_eq_some_iff.1 hi
  rw [h.view i (Ctxs.obj_lt ho)]; exact hi

theorem unitsView_withDm (d : Nat) (o : CtxObj) : unitsView (o.withDm d) = unitsView o := by cases o <;> rfl

theorem SameViews.modify {k k' : DS} {d c : Nat} (h : k'.w.ctxs = k.w.ctxs.modify (CtxObj.withDm d) c) : SameViews k k' := by
  refine ⟨Nat.le_of_eq (by rw [h, Ctxs.length_modify]), fun i _ => ?_⟩
  rw [DS.view, h, Ctxs.obj_modify]
  split
  · rw [Option.map_map]
    show ((k.w.ctxs.obj i).map fun o => unitsView (o.withDm d)) = _
    simp only [unitsView_withDm]
  · rfl

theorem SameViews.cons {k k' : DS} {o : CtxObj} (h : k'.w.ctxs = o :: k.w.ctxs) : SameViews k k' := by
  refine ⟨by rw [h]; simp, fun i hi => ?_⟩
  rw [DS.view, h]
  simp only [Ctxs.obj]
  rw [if_neg (by omega)]

/-- no item and no unit changes -/
structure SameLinks (k k' : DS) : Prop where
  views : SameViews k k'
  units : k'.w.units = k.w.units
  items : k'.items = k.items

theorem SameLinks.refl (k : DS) : SameLinks k k := ⟨.refl k, rfl, rfl⟩

theorem SameLinks.trans {a b c : DS} (h : SameLinks a b) (h' : SameLinks b c) : SameLinks a c :=
  ⟨h.views.trans h'.views, h'.units.trans h.units, h'.items.trans h.items⟩

/-! ## Declarations -/

section
variable {k k' : DS}

theorem setR_links {k0 : DS} {r : World Node × Outcome} (h : SameLinks k0 k) (hc : r.1.ctxs = k.w.ctxs) (hu : r.1.units = k.w.units)
    (e : k.setR r = .ok k') : SameLinks k0 k' := by
  unfold DS.setR at e
  split at e
  · cases e; exact h.trans ⟨.eq hc, hu, rfl⟩
  · cases e
  · cases e

theorem set_keeps_units (w : World Node) (c : Nat) (ds : List (Decl Node)) : (w.set u c ds).1.ctxs = w.ctxs ∧ (w.set u c ds).1.units = w.units := by
  unfold World.set; split <;> exact ⟨rfl, rfl⟩

theorem overwrite_keeps_units (w : World Node) (c : Nat) (n : Str) (d : Decl Node) :
    (w.overwrite u c n d).1.ctxs = w.ctxs ∧ (w.overwrite u c n d).1.units = w.units := by
  unfold World.overwrite; split <;> exact ⟨rfl, rfl⟩

theorem set_links {is : List Ident} {kd : DKind (Decl Node)} (e : k.set u is kd = .ok k') : SameLinks k k' := by
  unfold DS.set at e
  refine setR_links (k := k.addType kd) ?_ ?_ ?_ e
  · cases kd <;> exact ⟨.eq rfl, rfl, rfl⟩
  · have := (set_keeps_units (u := u) k.w k.cur (is.map fun i => ⟨i.name, k.mkNode kd i⟩)).1
    cases kd <;> exact this
  · have := (set_keeps_units (u := u) k.w k.cur (is.map fun i => ⟨i.name, k.mkNode kd i⟩)).2
    cases kd <;> exact this

theorem complete_links {d : Decl Node} {i : Ident} {ty : PType (Decl Node)} (e : k.complete u d i ty = .ok k') : SameLinks k k' := by
  unfold DS.complete at e
  split at e
  · split at e
    · refine setR_links ?_ ?_ ?_ e
      · exact ⟨.eq rfl, rfl, rfl⟩
      · exact (overwrite_keeps_units _ _ _ _).1
      · exact (overwrite_keeps_units _ _ _ _).2
    · cases e
  · cases e

theorem stackAt_links (c : Nat) : SameLinks k (k.stackAt c) := by
  unfold DS.stackAt World.stack
  cases e : k.w.dm c with
  | none => exact .refl k
  | some d => exact ⟨.modify rfl, rfl, rfl⟩

theorem restore_links (k0 : DS) : SameLinks k (DS.restore k0 k) := by
  unfold DS.restore
  split
  · exact ⟨.modify rfl, rfl, rfl⟩
  · exact .refl k

theorem rollback_links : SameLinks k k.rollback := by
  unfold DS.rollback World.clone
  cases e : k.w.ctxs.obj k.cur with
  | none => exact .refl k
  | some o => exact ⟨.cons rfl, rfl, rfl⟩

theorem runRef_links (r : Nat × Str) : SameLinks k (k.runRef u r) := by
  unfold DS.runRef
  split
  · exact ⟨.eq rfl, rfl, rfl⟩
  · exact .refl k

theorem runSection_links : SameLinks k (k.runSection u) := by
  unfold DS.runSection
  generalize k.pending = l
  suffices ∀ (l : List (Nat × Str)) (k0 : DS), SameLinks k k0 → SameLinks k (l.foldl (DS.runRef u) k0) from this l k (.refl k)
  intro l
  induction l with
  | nil => exact fun _ h => h
  | cons a l ih => exact fun k0 h => ih _ (h.trans (runRef_links a))

end

variable (u) in
theorem linksBase (k0 : DS) (tl : Tail) : DBase u (declEnv u) (SameLinks k0) (fun _ => True) tl True True :=
  DStep.base {
    roll _ h := h.trans rollback_links
    nil _ := trivial
    hang _ := trivial
    ns _ _ _ _ _ _ _ _ _ _ _ _ := trivial
    set c h is k _ := by
      cases e : (declEnv u).set c is k with
      | ok c' => exact h.trans (set_links e)
      | _ => trivial
    newRef c _ h := h.trans ⟨.eq rfl, rfl, rfl⟩
    ordinal _ _ _ _ := trivial
    findMember _ _ _ _ _ _ := trivial
    findProp _ _ _ _ _ _ := trivial
    good _ _ _ := trivial
    asm _ _ _ _ _ := trivial }
    (.any (fun c h i ty => by
        cases e : (declEnv u).set c [i] (.type ty) with
        | ok c' => exact h.trans (set_links e)
        | _ => trivial)
      (fun c h d i ty => by
        cases e : (declEnv u).complete c d i ty with
        | ok c' => exact h.trans (complete_links e)
        | _ => trivial))
    (fun c h => h.trans (stackAt_links c.cur)) (fun c c' _ h => h.trans (restore_links c)) (fun _ h => h.trans ⟨.eq rfl, rfl, rfl⟩)
    (fun _ h => h.trans runSection_links) (fun _ _ _ h => h.trans ⟨.eq rfl, rfl, rfl⟩)

theorem wpT_links {α : Type} {p : P DS α} {G : α → Rd} {b n : Nat} {s : PS DS}
    (hp : TSound (SameLinks s.cx) (fun _ => True) s.tail True True p G b n) : wpT p s (fun _ s' => SameLinks s.cx s'.cx) := by
  refine wp_mono (hp s ⟨rfl, .refl _, trivial⟩ (fun _ => trivial)) ?_ id id
  rintro a s' ⟨h', -, -⟩
  exact h'.cx

/-! ## Uses clauses -/

/-- the entries are new items without units -/
structure Fresh' (k k' : DS) (es : List UsesEntry) : Prop where
  views : SameViews k k'
  units : k'.w.units = k.w.units
  items : k'.items = k.items ++ List.replicate es.length none
  nos : es.map UsesEntry.no = List.range' k.items.length es.length

theorem Fresh'.nil {k k' : DS} (h : SameLinks k k') : Fresh' k k' [] := ⟨h.views, h.units, by simp [h.items], rfl⟩

theorem Fresh'.after {k k1 k2 : DS} {es : List UsesEntry} (h : Fresh' k k1 es) (h' : SameLinks k1 k2) : Fresh' k k2 es :=
  ⟨h.views.trans h'.views, h'.units.trans h.units, h'.items.trans h.items, h.nos⟩

theorem Fresh'.before {k k1 k2 : DS} {es : List UsesEntry} (h' : SameLinks k k1) (h : Fresh' k1 k2 es) : Fresh' k k2 es :=
  ⟨h'.views.trans h.views, h.units.trans h'.units, by rw [h.items, h'.items], by rw [h.nos, h'.items]⟩

theorem declareUses_fresh : ∀ (is : List (Ident × Option Str)) (s : PS DS), wpT (declareUses u is) s
    (fun es s' => Fresh' s.cx s'.cx es)
  | [], s => .nil (.refl _)
  | (i, p) :: is, s => by
    unfold declareUses
    refine wp_askP ?_
    refine wpT_stepR' fun k e => ?_
    have h1 : Fresh' s.cx k [⟨i, p, s.cx.items.length⟩] := by
      unfold DS.setUses DS.setR at e
      split at e
      · cases e
        exact ⟨.eq (set_keeps_units s.cx.w s.cx.cur _).1, (set_keeps_units s.cx.w s.cx.cur _).2, rfl, rfl⟩
      · cases e
      · cases e
    refine wp_then (declareUses_fresh is _) ?_
    rintro es s' h2
    refine ⟨h1.views.trans h2.views, h2.units.trans h1.units, ?_, ?_⟩
    · rw [h2.items]
      show k.items ++ _ = _
      rw [h1.items, List.append_assoc, List.length_cons, List.replicate_succ]; rfl
    · rw [List.map_cons, h2.nos, List.length_cons, List.range'_succ]
      show _ :: List.range' k.items.length es.length = _
      rw [h1.items]; simp

theorem uses_fresh (n : Nat) (s : PS DS) : wpT (parseUses u n) s (fun es s' => Fresh' s.cx s'.cx es) := by
  unfold parseUses
  refine (linksBase u s.cx s.tail).eatKw ⟨rfl, .refl _, trivial⟩ fun t s1 c h1 e1 => ?_
  refine (usesItems_sound (linksBase u s.cx s.tail) n).bind h1 (fun _ => trivial) fun is s2 h2 _ _ => ?_
  exact wp_mono (declareUses_fresh is s2) (fun _ _ h => .before h2.cx h) id id

theorem optUses_fresh (n : Nat) (s : PS DS) : wpT (parseOptUses u n) s (fun es s' => Fresh' s.cx s'.cx es) := by
  unfold parseOptUses
  refine (linksBase u s.cx s.tail).isL ⟨rfl, .refl _, trivial⟩ notEof_kw (fun _ _ _ _ => ?_) (fun _ _ _ => .nil (.refl _))
  refine wp_then (uses_fresh n s) fun es s1 h1 => ?_
  show wp _ _ _ _ _
  rw [wp_bind]
  exact wp_next h1 (fun _ => trivial)

/-! ## Loading the units -/

theorem unitIdent_links (s : PS DS) : wpT (parseUnitIdent u) s (fun h s' => h.1.no = s.cx.w.units.length ∧
    s'.cx = s.cx.newUnit h.1.ident) := by
  unfold parseUnitIdent
  show wp _ _ _ _ _
  rw [wp_bind]
  refine wp_current (fun _ _ _ => ?_) (fun _ => trivial)
  rw [wp_bind]
  refine wp_nextIs (fun t _ _ => ?_) (fun _ => trivial)
  refine wp_askP ?_
  rw [wp_bind]
  show wp (P.next >>= _) _ _ _ _
  rw [wp_bind]
  refine wp_next ?_ (fun _ => trivial)
  refine wp_then (Q1 := fun _ s' => s'.cx = s.cx.newUnit (Ident.ofTok t)) ?_ ?_
  · rw [wp_bind]
    refine wp_cur (fun t' _ => wp_ite (fun _ => ?_) (fun _ => rfl)) (fun _ => trivial) (fun _ => trivial)
    rw [wp_bind]
    exact wp_next rfl (fun _ => trivial)
  · intro pd s2 h2
    rw [wp_bind]
    refine wp_is (fun _ _ => wp_ite (fun _ => ?_) (fun _ => ⟨rfl, h2⟩)) (fun _ => trivial) (fun _ => trivial)
    rw [wp_bind]
    exact wp_next ⟨rfl, h2⟩ (fun _ => trivial)

/-- the unit is new, and so are its items -/
structure Loads (k k' : DS) (l : Loader) : Prop where
  views : SameViews k k'
  units : k'.w.units = k.w.units ++ [⟨l.head.ident.name, none⟩]
  no : l.head.no = k.w.units.length
  items : k'.items = k.items ++ List.replicate l.uses.length none
  nos : l.uses.map UsesEntry.no = List.range' k.items.length l.uses.length
  impl : l.implUses = []

theorem loadUnit_links {n : Nat} {path : Str} {ctx : Nat} (s : PS DS) :
    wpT (loadUnit u files n path ctx) s (fun l s' => Loads s.cx s'.cx l ∧ l.cu = ctx) := by
  unfold loadUnit
  cases e : files path with
  | missing => trivial
  | unreadable => trivial
  | tokens ts tl =>
    refine wp_then (Q1 := fun r s' => SameViews s.cx s'.cx ∧ s'.cx.w.units = s.cx.w.units ++ [⟨r.1.1.1.ident.name, none⟩] ∧
      r.1.1.1.no = s.cx.w.units.length ∧ s'.cx.items = s.cx.items ++ List.replicate r.1.2.length none ∧
      r.1.2.map UsesEntry.no = List.range' s.cx.items.length r.1.2.length ∧ r.2.implUses = [] ∧ r.2.cu = ctx) (wp_run (cur?_wpT ?_)) ?_
    · unfold parseIdentAndUses
      refine wp_then (unitIdent_links _) ?_
      rintro hd s1 ⟨g1, g2⟩
      have v1 : SameViews s.cx s1.cx := by rw [g2]; exact ⟨Nat.le_refl _, fun _ _ => rfl⟩
      have u1 : s1.cx.w.units = s.cx.w.units ++ [⟨hd.1.ident.name, none⟩] := by rw [g2]; rfl
      have i1 : s1.cx.items = s.cx.items := by rw [g2]; rfl
      refine wp_then (Q1 := fun es s' => Fresh' s1.cx s'.cx es) ?_ ?_
      · unfold parseIntfUses
        refine (linksBase u s1.cx s1.tail).eatKw ⟨rfl, .refl _, trivial⟩ fun t s2 c h2 e2 => ?_
        exact wp_mono (optUses_fresh n s2) (fun _ _ h => .before h2.cx h) id id
      · rintro es s2 f2
        have v2 := f2.views
        refine ⟨⟨Nat.le_trans v1.len v2.len, fun i hi => (v2.view i (Nat.lt_of_lt_of_le hi v1.len)).trans (v1.view i hi)⟩,
          f2.units.trans u1, g1, ?_, ?_, rfl, rfl⟩
        · show s2.cx.items = _
          rw [f2.items, i1]
        · rw [f2.nos, i1]
    · rintro r s' ⟨g1, g2, g3, g4, g5, g6, g7⟩
      exact ⟨⟨g1, g2, g3, g4, g5, g6⟩, g7⟩

theorem newLoaders_links : ∀ (es : List UsesEntry) (s : PS DS), wpT (newLoaders sep cp es) s (fun cs s' => SameLinks s.cx s'.cx ∧
    ∀ x ∈ cs, s'.cx.view x.2 = some (none, some cp))
  | [], s => ⟨.refl _, fun _ h => by cases h⟩
  | e :: es, s => by
    unfold newLoaders
    refine wp_ite (fun c => newLoaders_links es s) (fun c => ?_)
    refine wp_askP ?_
    rw [wp_bind]
    show wp (newLoaders sep cp es >>= _) _ _ _ _
    have o1 : SameLinks s.cx (s.cx.newUnitContext cp (UsesItem.effectivePath sep e.path)).1 := ⟨.cons rfl, rfl, rfl⟩
    refine wp_then (newLoaders_links es { s with cx := (s.cx.newUnitContext cp (UsesItem.effectivePath sep e.path)).1 }) ?_
    rintro cs s2 ⟨h1, h2⟩
    refine ⟨o1.trans h1, ?_⟩
    intro x hx
    rcases List.mem_cons.1 hx with rfl | hx
    · refine h1.views.some ?_
      simp [DS.view, DS.newUnitContext, World.newMap, Ctxs.obj, unitsView]
    · exact h2 x hx

/-- all items of the uses clauses of interfaces -/
abbrev usesOf (ls : List Loader) : List UsesEntry := ls.flatMap Loader.uses

theorem unitsView_addUnit {o : CtxObj} {us : List Nat} (j : Nat) (h : unitsView o = (some us, none)) :
    unitsView (o.addUnit j) = (some (us ++ [j]), none) := by
  cases o <;> simp [unitsView, CtxObj.addUnit] at h ⊢
  exact h

theorem loadAll_links {n : Nat} : ∀ (cs : List (Str × Nat)) (s : PS DS) (us : List Nat), s.cx.view cp = some (some us, none) →
    (∀ x ∈ cs, s.cx.view x.2 = some (none, some cp)) → wpT (loadAll u files cp n cs) s (fun ls s' =>
      s'.cx.view cp = some (some (us ++ ls.map fun l => l.head.no), none) ∧
      (∀ l ∈ ls, s'.cx.view l.cu = some (none, some cp)) ∧
      (∀ i v, i ≠ cp → s.cx.view i = some v → s'.cx.view i = some v) ∧
      s'.cx.w.units = s.cx.w.units ++ ls.map (fun l => ⟨l.head.ident.name, none⟩) ∧
      (ls.map fun l => l.head.no) = List.range' s.cx.w.units.length ls.length ∧
      s'.cx.items = s.cx.items ++ List.replicate (usesOf ls).length none ∧
      (usesOf ls).map UsesEntry.no = List.range' s.cx.items.length (usesOf ls).length ∧
      ∀ l ∈ ls, l.implUses = [])
  | [], s, us, h, _ => ⟨by simpa using h, fun _ h => (by cases h), fun _ _ _ h => h, by simp, rfl, by simp [usesOf], rfl, fun _ h => (by cases h)⟩
  | (path, ctx) :: cs, s, us, h, hc => by
    unfold loadAll
    refine wp_then (loadUnit_links s) ?_
    rintro l s1 ⟨o1, c1⟩
    rw [wp_bind]
    show wp (loadAll u files cp n cs >>= _) _ _ _ _
    have hv : ∀ i v, i ≠ cp → s.cx.view i = some v → (s1.cx.addUnit cp l.head.no).view i = some v := by
      intro i v hi hv
      have := o1.views.some hv
      simpa [DS.view, DS.addUnit, Ctxs.obj_modify, hi] using this
    have hne : ∀ x ∈ (path, ctx) :: cs, x.2 ≠ cp := by
      rintro x hx rfl
      have := hc x hx
      rw [h] at this; cases this
    have h1 : (s1.cx.addUnit cp l.head.no).view cp = some (some (us ++ [l.head.no]), none) := by
      obtain ⟨o, ho, hov⟩ := Option.map_eq_some_iff.1 (o1.views.some h)
      simp only [DS.view, DS.addUnit, Ctxs.obj_modify, if_true, ho, Option.map_some]
      rw [unitsView_addUnit _ hov]
    refine wp_then (loadAll_links cs { s1 with cx := s1.cx.addUnit cp l.head.no } (us ++ [l.head.no]) h1
      (fun x hx => hv _ _ (hne x (List.mem_cons_of_mem _ hx)) (hc x (List.mem_cons_of_mem _ hx)))) ?_
    rintro ls s2 ⟨g1, g2, g3, g4, g5, g6, g7, g8⟩
    have e1 : (s1.cx.addUnit cp l.head.no).w.units = s1.cx.w.units := rfl
    have e2 : (s1.cx.addUnit cp l.head.no).items = s1.cx.items := rfl
    simp only at g4 g5 g6 g7
    rw [e1, o1.units] at g4 g5
    rw [e2, o1.items] at g6 g7
    refine ⟨by simpa using g1, ?_, fun i v hi hv' => g3 i v hi (hv i v hi hv'), by simpa using g4, ?_, ?_, ?_, ?_⟩
    · intro l' h'
      rcases List.mem_cons.1 h' with rfl | h'
      · rw [c1]
        exact g3 _ _ (hne (path, ctx) List.mem_cons_self) (hv _ _ (hne (path, ctx) List.mem_cons_self) (hc (path, ctx) List.mem_cons_self))
      · exact g2 l' h'
    · rw [List.map_cons, g5, o1.no, List.length_cons, List.range'_succ]
      simp
    · rw [g6, List.append_assoc, ← List.replicate_add]
      simp [usesOf]
    · rw [usesOf, List.flatMap_cons, List.map_append, o1.nos, List.length_append, ← List.range'_append_1]
      congr 1
      rw [usesOf] at g7
      rw [g7]; simp
    · intro l' h'
      rcases List.mem_cons.1 h' with rfl | h'
      · exact o1.impl
      · exact g8 l' h'

/-! ## Assigning units -/

/-- the field `Unit` of an item -/
abbrev DS.item (k : DS) (n : Nat) : Option Nat := (k.items[n]?).join

/-- all items of a unit -/
abbrev Loader.all (l : Loader) : List UsesEntry := l.uses ++ l.implUses

theorem item_set_links {k : DS} {m : Nat} (v : Option Nat) (hm : m < k.items.length) (n : Nat) :
    ({ k with items := k.items.set m v } : DS).item n = if n = m then v else k.item n := by
  show ((k.items.set m v)[n]?).join = _
  by_cases c : n = m
  · subst c; rw [if_pos rfl, List.getElem?_set_self hm]; rfl
  · rw [if_neg c, List.getElem?_set_ne (fun h => c h.symm)]

theorem byName_names {w w' : World Node} (h : w'.units.map UnitObj.name = w.units.map UnitObj.name) (name : Str) :
    ∀ us : List Nat, w'.byName u us name = w.byName u us name
  | [] => rfl
  | i :: us => by
    have hi : (w'.units[i]?).map UnitObj.name = (w.units[i]?).map UnitObj.name := by
      rw [← List.getElem?_map, ← List.getElem?_map, h]
    unfold World.byName
    rw [byName_names h name us]
    cases e : w.units[i]? with
    | none =>
      rw [e] at hi
      rw [Option.map_eq_none_iff.1 hi]
    | some o =>
      rw [e] at hi
      obtain ⟨o', h1, h2⟩ := Option.map_eq_some_iff.1 hi
      rw [h1]
      simp only
      rw [h2]

theorem parentUnits_view {k : DS} {cu : Nat} {us : List Nat} (h : k.view cu = some (none, some cp))
    (hp : k.view cp = some (some us, none)) : k.parentUnits cu = us := by
  obtain ⟨o, ho, h1⟩ := Option.map_eq_some_iff.1 h
  obtain ⟨o', ho', h2⟩ := Option.map_eq_some_iff.1 hp
  unfold DS.parentUnits
  rw [ho]
  cases o <;> simp [unitsView] at h1
  subst h1
  simp only
  rw [ho']
  cases o' <;> simp [unitsView] at h2
  exact h2

theorem assign_items {cu : Nat} {us : List Nat} {T : Str → Option Nat} : ∀ (es : List UsesEntry) (k : DS), k.parentUnits cu = us →
    (∀ name, k.w.byName u us name = T name) → (es.map UsesEntry.no).Nodup →
    (∀ e ∈ es, e.no < k.items.length ∧ (k.item e.no = none ∨ k.item e.no = T e.ident.name)) →
    ∃ is, k.assignUnits u cu es = { k with items := is } ∧ is.length = k.items.length ∧
      (∀ n, n ∉ es.map UsesEntry.no → (is[n]?).join = k.item n) ∧ ∀ e ∈ es, (is[e.no]?).join = T e.ident.name
  | [], k, _, _, _, _ => ⟨k.items, rfl, rfl, fun _ _ => rfl, fun _ h => (by cases h)⟩
  | e :: es, k, hp, hT, hn, ho => by
    rw [List.map_cons, List.nodup_cons] at hn
    obtain ⟨h1, h2⟩ := ho e List.mem_cons_self
    unfold DS.assignUnits
    rw [hp, hT]
    have hne : ∀ x ∈ es, x.no ≠ e.no := fun x hx hxe => hn.1 (List.mem_map.2 ⟨x, hx, hxe⟩)
    cases ht : T e.ident.name with
    | none =>
      simp only
      obtain ⟨is, g1, g2, g3, g4⟩ := assign_items es k hp hT hn.2 (fun x hx => ho x (List.mem_cons_of_mem _ hx))
      refine ⟨is, g1, g2, fun n hn' => g3 n (fun h => hn' (List.mem_cons_of_mem _ h)), fun x hx => ?_⟩
      rcases List.mem_cons.1 hx with rfl | hx
      · rw [g3 _ hn.1, ht]
        rw [ht, or_self] at h2
        exact h2
      · exact g4 x hx
    | some j =>
      simp only
      obtain ⟨is, g1, g2, g3, g4⟩ := assign_items es { k with items := k.items.set e.no (some j) } hp hT hn.2 (fun x hx => by
        obtain ⟨h3, h4⟩ := ho x (List.mem_cons_of_mem _ hx)
        refine ⟨by simpa using h3, ?_⟩
        rw [item_set_links _ h1, if_neg (hne x hx)]
        exact h4)
      refine ⟨is, g1, by rw [g2]; simp, fun n hn' => ?_, fun x hx => ?_⟩
      · rw [g3 n (fun h => hn' (List.mem_cons_of_mem _ h)), item_set_links _ h1, if_neg]
        rintro rfl
        exact hn' List.mem_cons_self
      · rcases List.mem_cons.1 hx with rfl | hx
        · rw [g3 _ hn.1, item_set_links _ h1, if_pos rfl, ht]
        · exact g4 x hx

variable (u) in
/-- the items of the units between two steps: `T` is what the units are called, items below `base` are those of the program -/
structure Linked (cp : Nat) (us : List Nat) (T : Str → Option Nat) (base : Nat) (k : DS) (ls : List Loader) : Prop where
  prog : k.view cp = some (some us, none)
  site : ∀ l ∈ ls, k.view l.cu = some (none, some cp)
  names : ∀ name, k.w.byName u us name = T name
  heads : (ls.map fun l => l.head.no).Nodup
  nodup : ∀ l ∈ ls, (l.all.map UsesEntry.no).Nodup
  apart : ∀ (i j : Nat) l l', ls[i]? = some l → ls[j]? = some l' → i ≠ j → ∀ e ∈ l.all, ∀ e' ∈ l'.all, e.no ≠ e'.no
  old : ∀ l ∈ ls, ∀ e ∈ l.all, base ≤ e.no ∧ e.no < k.items.length
  len : base ≤ k.items.length
  low : ∀ n < base, k.item n = none
  intf : ∀ l ∈ ls, (k.w.unitDm l.head.no = none ∧ ∀ e ∈ l.uses, k.item e.no = none) ∨ ∀ e ∈ l.uses, k.item e.no = T e.ident.name
  impl : ∀ l ∈ ls, ∀ e ∈ l.implUses, k.item e.no = T e.ident.name

/-- a step for the unit of `l` -/
structure Step' (T : Str → Option Nat) (k k' : DS) (l l' : Loader) : Prop where
  views : SameViews k k'
  names : k'.w.units.map UnitObj.name = k.w.units.map UnitObj.name
  dms : ∀ j, j ≠ l.head.no → k'.w.unitDm j = k.w.unitDm j
  head : l'.head = l.head
  cu : l'.cu = l.cu
  uses : l'.uses = l.uses
  len : k.items.length ≤ k'.items.length
  items : ∀ n < k.items.length, n ∉ l.uses.map UsesEntry.no → k'.item n = k.item n
  intf : ∀ e ∈ l.uses, k'.item e.no = T e.ident.name
  impl : l'.implUses = l.implUses ∨ (l'.implUses.map UsesEntry.no).Nodup ∧
    ∀ e ∈ l'.implUses, k.items.length ≤ e.no ∧ e.no < k'.items.length ∧ k'.item e.no = T e.ident.name

theorem mem_set_links {ls : List Loader} {i : Nat} {l' x : Loader} {j : Nat} (h : (ls.set i l')[j]? = some x) :
    (j = i ∧ x = l') ∨ (j ≠ i ∧ ls[j]? = some x) := by
  rw [List.getElem?_set] at h
  by_cases c : i = j
  · rw [if_pos c] at h
    split at h
    · cases h; exact .inl ⟨c.symm, rfl⟩
    · cases h
  · rw [if_neg c] at h
    exact .inr ⟨fun e => c e.symm, h⟩

theorem Linked.step {us : List Nat} {T : Str → Option Nat} {base : Nat} {k k' : DS} {ls : List Loader} {i : Nat} {l l' : Loader}
    (h : Linked u cp us T base k ls) (hi : ls[i]? = some l) (g : Step' T k k' l l') : Linked u cp us T base k' (ls.set i l') := by
  have hl := List.mem_of_getElem? hi
  have hh := head_set hi g.head
  -- the items of other units
  have hother : ∀ j x, j ≠ i → ls[j]? = some x → ∀ e ∈ x.all, k'.item e.no = k.item e.no := by
    intro j x hj hx e he
    refine g.items e.no (h.old x (List.mem_of_getElem? hx) e he).2 fun hm => ?_
    obtain ⟨e', he', hee⟩ := List.mem_map.1 hm
    exact h.apart j i x l hx hi hj e he e' (List.mem_append_left _ he') hee.symm
  -- those of `l'`
  have hl' : ∀ e ∈ l'.all, (e ∈ l.all ∧ e.no < k.items.length) ∨ k.items.length ≤ e.no := by
    intro e he
    rcases List.mem_append.1 he with he | he
    · rw [g.uses] at he
      exact .inl ⟨List.mem_append_left _ he, (h.old l hl e (List.mem_append_left _ he)).2⟩
    · rcases g.impl with g1 | ⟨-, g1⟩
      · rw [g1] at he
        exact .inl ⟨List.mem_append_right _ he, (h.old l hl e (List.mem_append_right _ he)).2⟩
      · exact .inr (g1 e he).1
  refine ⟨g.views.some h.prog, ?_, fun name => by rw [byName_names g.names]; exact h.names name, ?_, ?_, ?_, ?_,
    Nat.le_trans h.len g.len, ?_, ?_, ?_⟩
  · intro x hx
    obtain ⟨j, hj⟩ := List.mem_iff_getElem?.1 hx
    rcases mem_set_links hj with ⟨-, rfl⟩ | ⟨-, hj⟩
    · rw [g.cu]; exact g.views.some (h.site l hl)
    · exact g.views.some (h.site x (List.mem_of_getElem? hj))
  · have : ∀ l : List Loader, (l.map fun l => l.head.no) = (l.map Loader.head).map UnitHead.no := fun l => by
      rw [List.map_map]; rfl
    rw [this, hh, ← this]; exact h.heads
  · intro x hx
    obtain ⟨j, hj⟩ := List.mem_iff_getElem?.1 hx
    rcases mem_set_links hj with ⟨-, rfl⟩ | ⟨-, hj⟩
    · rcases g.impl with g1 | ⟨g1, g2⟩
      · have := h.nodup l hl
        rw [Loader.all, g.uses, g1]; exact this
      · rw [Loader.all, List.map_append, List.nodup_append]
        have h0 := h.nodup l hl
        rw [Loader.all, List.map_append, List.nodup_append] at h0
        refine ⟨by rw [g.uses]; exact h0.1, g1, ?_⟩
        intro a ha b hb e
        obtain ⟨x, hx, rfl⟩ := List.mem_map.1 ha
        obtain ⟨y, hy, rfl⟩ := List.mem_map.1 hb
        rw [g.uses] at hx
        have := (h.old l hl x (List.mem_append_left _ hx)).2
        have := (g2 y hy).1
        omega
    · exact h.nodup x (List.mem_of_getElem? hj)
  · have hcross : ∀ j x, j ≠ i → ls[j]? = some x → ∀ e ∈ l'.all, ∀ e' ∈ x.all, e.no ≠ e'.no := by
      intro j x hj hx e he e' he'
      rcases hl' e he with ⟨h1, -⟩ | h1
      · exact h.apart i j l x hi hx (fun e => hj e.symm) e h1 e' he'
      · have := (h.old x (List.mem_of_getElem? hx) e' he').2
        omega
    intro a b x y hx hy hab e he e' he'
    rcases mem_set_links hx with ⟨h1, rfl⟩ | ⟨h1, hx'⟩
    · rcases mem_set_links hy with ⟨h2, rfl⟩ | ⟨h2, hy⟩
      · exact absurd (h1.trans h2.symm) hab
      · exact hcross b y h2 hy e he e' he'
    · rcases mem_set_links hy with ⟨h2, rfl⟩ | ⟨h2, hy⟩
      · exact (hcross a x h1 hx' e' he' e he).symm
      · exact h.apart a b x y hx' hy hab e he e' he'
  · intro x hx e he
    obtain ⟨j, hj⟩ := List.mem_iff_getElem?.1 hx
    rcases mem_set_links hj with ⟨-, rfl⟩ | ⟨-, hj⟩
    · rcases hl' e he with ⟨h1, h2⟩ | h1
      · exact ⟨(h.old l hl e h1).1, Nat.lt_of_lt_of_le h2 g.len⟩
      · refine ⟨Nat.le_trans h.len h1, ?_⟩
        rcases g.impl with g1 | ⟨-, g1⟩
        · have : e ∈ l.all := by rw [Loader.all, g.uses, g1] at he; exact he
          exact Nat.lt_of_lt_of_le (h.old l hl e this).2 g.len
        · rcases List.mem_append.1 he with he | he
          · rw [g.uses] at he
            exact Nat.lt_of_lt_of_le (h.old l hl e (List.mem_append_left _ he)).2 g.len
          · exact (g1 e he).2.1
    · have := h.old x (List.mem_of_getElem? hj) e he
      exact ⟨this.1, Nat.lt_of_lt_of_le this.2 g.len⟩
  · intro n hn
    rw [g.items n (Nat.lt_of_lt_of_le hn h.len), h.low n hn]
    intro hm
    obtain ⟨e, he, rfl⟩ := List.mem_map.1 hm
    have := (h.old l hl e (List.mem_append_left _ he)).1
    omega
  · intro x hx
    obtain ⟨j, hj⟩ := List.mem_iff_getElem?.1 hx
    rcases mem_set_links hj with ⟨-, rfl⟩ | ⟨hji, hj⟩
    · rw [g.uses]; exact .inr g.intf
    · have hx' := List.mem_of_getElem? hj
      have hne : x.head.no ≠ l.head.no := by
        intro he
        have hj' : j < ls.length := (List.getElem?_eq_some_iff.1 hj).1
        have hi' : i < ls.length := (List.getElem?_eq_some_iff.1 hi).1
        refine hji (List.Nodup.getElem_inj_iff h.heads |>.1 (?_ : (ls.map fun l => l.head.no)[j]'(by simpa using hj') = (ls.map fun l => l.head.no)[i]'(by simpa using hi')))
        rw [List.getElem_map, List.getElem_map, (List.getElem?_eq_some_iff.1 hj).2, (List.getElem?_eq_some_iff.1 hi).2]
        exact he
      rw [g.dms _ hne]
      rcases h.intf x hx' with ⟨h1, h2⟩ | h2
      · exact .inl ⟨h1, fun e he => by rw [hother j x hji hj e (List.mem_append_left _ he)]; exact h2 e he⟩
      · exact .inr fun e he => by rw [hother j x hji hj e (List.mem_append_left _ he)]; exact h2 e he
  · intro x hx e he
    obtain ⟨j, hj⟩ := List.mem_iff_getElem?.1 hx
    rcases mem_set_links hj with ⟨-, rfl⟩ | ⟨hji, hj⟩
    · rcases g.impl with g1 | ⟨-, g1⟩
      · rw [g1] at he
        rw [g.items e.no (h.old l hl e (List.mem_append_right _ he)).2]
        · exact h.impl l hl e he
        · intro hm
          have h0 := h.nodup l hl
          rw [Loader.all, List.map_append, List.nodup_append] at h0
          exact h0.2.2 _ hm _ (List.mem_map_of_mem he) rfl
      · exact (g1 e he).2.2
    · rw [hother j x hji hj e (List.mem_append_right _ he)]
      exact h.impl x (List.mem_of_getElem? hj) e he

/-! ## The steps -/

theorem setUnitDm_names (w : World Node) (i : Nat) (d : Option Nat) :
    (w.setUnitDm i d).units.map UnitObj.name = w.units.map UnitObj.name := by
  unfold World.setUnitDm
  cases e : w.units[i]? with
  | none => rfl
  | some o =>
    simp only
    apply List.ext_getElem?
    intro j
    rw [List.getElem?_map, List.getElem?_map, List.getElem?_set]
    by_cases c : i = j
    · subst c
      rw [if_pos rfl, if_pos (List.getElem?_eq_some_iff.1 e).1, e]; rfl
    · rw [if_neg c]

section
variable {us : List Nat} {T : Str → Option Nat} {base n : Nat} {ls : List Loader} {l : Loader} {s : PS DS}

theorem intfStep_links (h : Linked u cp us T base s.cx ls) (hl : l ∈ ls) :
    wpT (intfStep u n l) s (fun l' s' => Step' T s.cx s'.cx l l') := by
  unfold intfStep
  refine wp_then (Q1 := fun r s' => SameViews s.cx s'.cx ∧ s'.cx.w.units.map UnitObj.name = s.cx.w.units.map UnitObj.name ∧
    (∀ j, j ≠ l.head.no → s'.cx.w.unitDm j = s.cx.w.unitDm j) ∧ s'.cx.items.length = s.cx.items.length ∧
    (∀ m, m ∉ l.uses.map UsesEntry.no → s'.cx.item m = s.cx.item m) ∧ (∀ e ∈ l.uses, s'.cx.item e.no = T e.ident.name) ∧
    r.2.head = l.head ∧ r.2.cu = l.cu ∧ r.2.uses = l.uses ∧ r.2.implUses = l.implUses) (wp_run ?_) ?_
  · unfold processIntf
    refine wpT_stepP' fun k1 e1 => ?_
    have hn := h.nodup l hl
    rw [Loader.all, List.map_append, List.nodup_append] at hn
    obtain ⟨is, a1, a2, a3, a4⟩ := assign_items (u := u) (cu := l.cu) (T := T) l.uses { s.cx with cur := l.cur, pending := l.pending }
      (parentUnits_view (k := { s.cx with cur := l.cur, pending := l.pending }) (h.site l hl) h.prog) h.names hn.1 (fun e he => by
        refine ⟨(h.old l hl e (List.mem_append_left _ he)).2, ?_⟩
        rcases h.intf l hl with ⟨-, h1⟩ | h1
        · exact .inl (h1 e he)
        · exact .inr (h1 e he))
    have f1 : SameViews s.cx k1 ∧ k1.w.units = s.cx.w.units ∧ k1.items = is := by
      unfold DS.importUnits at e1
      simp only [a1] at e1
      split at e1
      · cases e1
        exact ⟨.modify rfl, rfl, rfl⟩
      · cases e1
    obtain ⟨v1, u1, i1⟩ := f1
    refine wpT_stepR' fun k2 e2 => ?_
    have f2 : SameLinks k1 k2 := setR_links (.refl k1) (set_keeps_units _ _ _).1 (set_keeps_units _ _ _).2 e2
    unfold parseIntfBody
    refine wp_then (wpT_links (intfDecls_sound (linksBase u k2 l.tail) n)) ?_
    rintro ds s3 f3
    have f13 := f2.trans f3
    refine wpT_stepR' fun k4 e4 => ?_
    cases e4
    have ec : (s3.cx.finishIntf u l.head.no ds).w.ctxs = s3.cx.w.ctxs := (setUnitDm_eqs _ _ _).2
    have en : (s3.cx.finishIntf u l.head.no ds).w.units.map UnitObj.name = s3.cx.w.units.map UnitObj.name := setUnitDm_names _ _ _
    have ei : (s3.cx.finishIntf u l.head.no ds).items = is := by
      show s3.cx.items = is
      rw [f13.items, i1]
    refine ⟨?_, ?_, fun j hj => ?_, ?_, fun m hm => ?_, fun e he => ?_, rfl, rfl, rfl, rfl⟩
    · exact (v1.trans f13.views).trans (.eq ec)
    · exact en.trans (by rw [f13.units, u1])
    · show ((s3.cx.w.newMap _).1.setUnitDm l.head.no (some s3.cx.w.maps.length)).unitDm j = _
      rw [unitDm_set, if_neg (fun h => hj h.1.symm)]
      show s3.cx.w.unitDm j = _
      unfold World.unitDm
      rw [f13.units, u1]
    · show (s3.cx.finishIntf u l.head.no ds).items.length = _
      rw [ei, a2]
    · show ((s3.cx.finishIntf u l.head.no ds).items[m]?).join = _
      rw [ei]; exact a3 m hm
    · show ((s3.cx.finishIntf u l.head.no ds).items[e.no]?).join = _
      rw [ei]; exact a4 e he
  · rintro r s' ⟨g1, g2, g3, g4, g5, g6, g7, g8, g9, g10⟩
    exact ⟨g1, g2, g3, g7, g8, g9, Nat.le_of_eq g4.symm, fun m _ hm => g5 m hm, g6, .inl g10⟩

theorem implStep_links (h : Linked u cp us T base s.cx ls) (hl : l ∈ ls) :
    wpT (implStep u n l) s (fun l' s' => Step' T s.cx s'.cx l l') := by
  unfold implStep
  refine wp_then (Q1 := fun r s' => SameViews s.cx s'.cx ∧ s'.cx.w.units.map UnitObj.name = s.cx.w.units.map UnitObj.name ∧
    (∀ j, j ≠ l.head.no → s'.cx.w.unitDm j = s.cx.w.unitDm j) ∧ s.cx.items.length ≤ s'.cx.items.length ∧
    (∀ m < s.cx.items.length, s'.cx.item m = s.cx.item m) ∧ (∀ e ∈ l.uses, s.cx.item e.no = T e.ident.name) ∧
    ((r.1.1.map UsesEntry.no).Nodup ∧ ∀ e ∈ r.1.1, s.cx.items.length ≤ e.no ∧ e.no < s'.cx.items.length ∧ s'.cx.item e.no = T e.ident.name) ∧
    r.2.head = l.head ∧ r.2.cu = l.cu ∧ r.2.uses = l.uses) (wp_run ?_) ?_
  · unfold processImpl
    refine wp_then (Q1 := fun es s' => Fresh' s.cx s'.cx es) ?_ ?_
    · unfold parseImplUses
      refine (linksBase u { s.cx with cur := l.cur, pending := l.pending } l.tail).eatKw ⟨rfl, .refl _, trivial⟩ fun t s1 c h1 e1 => ?_
      rw [wp_bind]
      show wp (parseOptUses u n) { s1 with cx := s1.cx.stackAt l.cu } _ _ _
      refine wp_mono (optUses_fresh n { s1 with cx := s1.cx.stackAt l.cu }) (fun es s2 h2 => ?_) id id
      have f1 : SameLinks s.cx s1.cx := ⟨⟨h1.cx.views.len, h1.cx.views.view⟩, h1.cx.units, h1.cx.items⟩
      exact .before (f1.trans (stackAt_links l.cu)) h2
    · rintro es s2 f2
      refine wp_then (Q1 := fun _ s' => SameViews s.cx s'.cx ∧ s'.cx.w.units.map UnitObj.name = s.cx.w.units.map UnitObj.name ∧
        (∀ j, j ≠ l.head.no → s'.cx.w.unitDm j = s.cx.w.unitDm j) ∧ s.cx.items.length ≤ s'.cx.items.length ∧
        (∀ m < s.cx.items.length, s'.cx.item m = s.cx.item m) ∧ (∀ e ∈ l.uses, s.cx.item e.no = T e.ident.name) ∧
        ((es.map UsesEntry.no).Nodup ∧ ∀ e ∈ es, s.cx.items.length ≤ e.no ∧ e.no < s'.cx.items.length ∧ s'.cx.item e.no = T e.ident.name))
        (wp_inImpl ?_) ?_
      · have hnos : ∀ e ∈ es, s.cx.items.length ≤ e.no ∧ e.no < s2.cx.items.length := by
          intro e he
          have : e.no ∈ List.range' s.cx.items.length es.length := by rw [← f2.nos]; exact List.mem_map_of_mem he
          rw [List.mem_range'_1] at this
          rw [f2.items, List.length_append, List.length_replicate]
          exact this
        have hnd : (es.map UsesEntry.no).Nodup := by rw [f2.nos]; exact List.nodup_range'
        obtain ⟨is, a1, a2, a3, a4⟩ := assign_items (u := u) (cu := l.cu) (T := T) es s2.cx
          (parentUnits_view (f2.views.some (h.site l hl)) (f2.views.some h.prog))
          (fun name => (byName_names (w := s.cx.w) (by rw [f2.units]) name us).trans (h.names name)) hnd (fun e he => by
            refine ⟨(hnos e he).2, .inl ?_⟩
            show (s2.cx.items[e.no]?).join = none
            rw [f2.items, List.getElem?_append_right (hnos e he).1, List.getElem?_replicate]
            split <;> rfl)
        cases e : s2.cx.openImpl u l.cu l.head.no es with
        | none => trivial
        | some r =>
          obtain ⟨k3, um⟩ := r
          simp only
          have f3 : SameViews s2.cx k3 ∧ k3.w.units.map UnitObj.name = s2.cx.w.units.map UnitObj.name ∧
              (∀ j, j ≠ l.head.no → k3.w.unitDm j = s2.cx.w.unitDm j) ∧ k3.items = is ∧ s2.cx.w.unitDm l.head.no ≠ none := by
            unfold DS.openImpl at e
            simp only [a1] at e
            split at e
            · rename_i d um' ms hd hum hms
              cases e
              refine ⟨?_, ?_, fun j hj => ?_, rfl, by simp_all⟩
              · refine .modify (d := ?_) (c := l.cu) ?_
                rotate_left
                · simp only [World.setDm, World.newMap]
                  rw [(setUnitDm_eqs _ _ _).2]
              · simp only [World.setDm, World.newMap]
                rw [setUnitDm_names]
              · show ((World.setUnitDm _ _ _).unitDm j) = _
                rw [unitDm_set, if_neg (fun h => hj h.1.symm)]; rfl
            · cases e
          obtain ⟨v3, n3, d3, i3, m3⟩ := f3
          refine wp_mono (wpT_links (s := { s2 with cx := k3 }) (implAndEnd_sound (linksBase u _ _) n)) ?_ id id
          rintro b s4 f4
          have ec : (s4.cx.closeImpl l.head.no um).w.ctxs = s4.cx.w.ctxs := (setUnitDm_eqs _ _ _).2
          have en : (s4.cx.closeImpl l.head.no um).w.units.map UnitObj.name = s4.cx.w.units.map UnitObj.name := setUnitDm_names _ _ _
          have ei : (s4.cx.closeImpl l.head.no um).items = is := by
            show s4.cx.items = is
            rw [f4.items]; exact i3
          have hm : s.cx.items.length ≤ s2.cx.items.length := by rw [f2.items]; simp
          refine ⟨?_, ?_, fun j hj => ?_, ?_, fun m hm' => ?_, ?_, hnd, fun x hx => ⟨(hnos x hx).1, ?_, ?_⟩⟩
          · exact ((f2.views.trans v3).trans f4.views).trans (.eq ec)
          · exact en.trans (by rw [f4.units]; exact n3.trans (by rw [f2.units]))
          · show (World.setUnitDm _ _ _).unitDm j = _
            rw [unitDm_set, if_neg (fun h => hj h.1.symm)]
            have : s4.cx.w.unitDm j = k3.w.unitDm j := by unfold World.unitDm; rw [f4.units]
            rw [this, d3 j hj]
            unfold World.unitDm; rw [f2.units]
          · show _ ≤ (s4.cx.closeImpl l.head.no um).items.length
            rw [ei, a2]; exact hm
          · show ((s4.cx.closeImpl l.head.no um).items[m]?).join = _
            rw [ei, a3]
            · show (s2.cx.items[m]?).join = _
              rw [f2.items, List.getElem?_append_left hm']
            · intro hmem
              obtain ⟨x, hx, rfl⟩ := List.mem_map.1 hmem
              have := (hnos x hx).1
              omega
          · rcases h.intf l hl with ⟨h1, -⟩ | h1
            · refine absurd ?_ m3
              unfold World.unitDm at h1 ⊢
              rw [f2.units]; exact h1
            · exact h1
          · show _ < (s4.cx.closeImpl l.head.no um).items.length
            rw [ei, a2]; exact (hnos x hx).2
          · show ((s4.cx.closeImpl l.head.no um).items[x.no]?).join = _
            rw [ei]; exact a4 x hx
      · rintro b s5 ⟨g1, g2, g3, g4, g5, g6, g7⟩
        exact ⟨⟨g1.len, g1.view⟩, g2, g3, g4, g5, g6, g7, rfl, rfl, rfl⟩
  · rintro r s' ⟨g1, g2, g3, g4, g5, g6, g7, g8, g9, g10⟩
    refine ⟨g1, g2, g3, g8, g9, g10, g4, fun m hm _ => g5 m hm, fun e he => ?_, .inr g7⟩
    rw [g5 e.no (h.old l hl e (List.mem_append_left _ he)).2]
    exact g6 e he

theorem intfAll_links : ∀ (is : List Nat) (ls : List Loader) (s : PS DS), Linked u cp us T base s.cx ls →
    wpT (intfAll u n is ls) s (fun ls' s' => Linked u cp us T base s'.cx ls' ∧ ls'.map Loader.head = ls.map Loader.head)
  | [], ls, s, h => ⟨h, rfl⟩
  | i :: is, ls, s, h => by
    cases e : ls[i]? with
    | none =>
      rw [intfAll, e]
      exact intfAll_links is ls s h
    | some l =>
      rw [intfAll_step e]
      refine wp_then (intfStep_links h (List.mem_of_getElem? e)) ?_
      intro l' s1 g
      exact wp_mono (intfAll_links is (ls.set i l') s1 (h.step e g)) (fun _ _ ⟨q1, q2⟩ => ⟨q1, q2.trans (head_set e g.head)⟩) id id

theorem implAll_links : ∀ (is : List Nat) (ls : List Loader) (s : PS DS), Linked u cp us T base s.cx ls →
    wpT (implAll u n is ls) s (fun ls' s' => Linked u cp us T base s'.cx ls' ∧ ls'.map Loader.head = ls.map Loader.head)
  | [], ls, s, h => ⟨h, rfl⟩
  | i :: is, ls, s, h => by
    cases e : ls[i]? with
    | none =>
      rw [implAll, e]
      exact implAll_links is ls s h
    | some l =>
      rw [implAll_step e]
      refine wp_then (implStep_links h (List.mem_of_getElem? e)) ?_
      intro l' s1 g
      exact wp_mono (implAll_links is (ls.set i l') s1 (h.step e g)) (fun _ _ ⟨q1, q2⟩ => ⟨q1, q2.trans (head_set e g.head)⟩) id id

end

/-! ## The program -/

/-- the unit that an item of the program gets: the last one for which `Find` finds it -/
def lastFor (u : Uni) (es : List UsesEntry) (hs : List UnitHead) (e : UsesEntry) : Option Nat :=
  ((hs.filter fun h => DS.findUses u es h.ident.name = some e).getLast?).map UnitHead.no

theorem usesMap_items {es : List UsesEntry} (hn : (es.map UsesEntry.no).Nodup) : ∀ {hs : List UnitHead} {k k' : DS} {m m' : Tbl Node},
    (∀ e ∈ es, e.no < k.items.length) → k.usesMap u es hs m = some (k', m') → ∃ is, k' = { k with items := is } ∧
      (∀ j, j ∉ es.map UsesEntry.no → (is[j]?).join = k.item j) ∧
      (∀ e ∈ es, (is[e.no]?).join = (lastFor u es hs e).or (k.item e.no)) ∧ ∀ h ∈ hs, DS.findUses u es h.ident.name ≠ none
  | [], k, k', m, m', _, e => by cases e; exact ⟨k.items, rfl, fun _ _ => rfl, fun _ _ => rfl, fun _ h => by cases h⟩
  | h :: hs, k, k', m, m', ho, e => by
    unfold DS.usesMap at e
    cases e1 : DS.findUses u es h.ident.name with
    | none => rw [e1] at e; cases e
    | some x =>
      rw [e1] at e
      have hx : x ∈ es := List.mem_of_find?_eq_some e1
      obtain ⟨is, g1, g2, g3, g4⟩ := usesMap_items hn (k := { k with items := k.items.set x.no (some h.no) }) (fun e he => by
        simpa using ho e he) e
      refine ⟨is, g1, fun j hj => ?_, fun y hy => ?_, fun y hy => ?_⟩
      · rw [g2 j hj, item_set_links _ (ho x hx), if_neg]
        rintro rfl
        exact hj (List.mem_map_of_mem hx)
      · rw [g3 y hy, item_set_links _ (ho x hx)]
        unfold lastFor
        rw [List.filter_cons, e1]
        by_cases c : x = y
        · subst c
          rw [if_pos rfl, if_pos (by simp)]
          rw [List.getLast?_cons]
          cases (hs.filter fun h => decide (DS.findUses u es h.ident.name = some x)).getLast? <;> rfl
        · have hne : y.no ≠ x.no := fun h => c ((List.inj_on_of_nodup_map hn hy hx h).symm)
          rw [if_neg hne, if_neg (by simpa using c)]
      · rcases List.mem_cons.1 hy with rfl | hy
        · rw [e1]; exact nofun
        · exact g4 y hy

/-- all items of the units of a program -/
abbrev UnitTree.all (x : UnitTree (Decl Node)) : List UsesEntry := x.intfUses ++ x.implUses

/-- the unit called `name` -/
def unitNamed (u : Uni) (hs : List UnitHead) (name : Str) : Option Nat :=
  (hs.find? fun h => u.toLower h.ident.name = u.toLower name).map UnitHead.no

theorem byName_heads {w : World Node} (name : Str) : ∀ (hs : List UnitHead) (a : Nat), (hs.map UnitHead.no) = List.range' a hs.length →
    (∀ (i : Nat) (h : UnitHead), hs[i]? = some h → (w.units[a + i]?).map UnitObj.name = some h.ident.name) →
    w.byName u (hs.map UnitHead.no) name = unitNamed u hs name
  | [], a, _, _ => rfl
  | h :: hs, a, e, hw => by
    rw [List.map_cons, List.length_cons, List.range'_succ] at e
    injection e with e1 e2
    have h0 := hw 0 h rfl
    rw [Nat.add_zero] at h0
    obtain ⟨o, h1, h2⟩ := Option.map_eq_some_iff.1 h0
    rw [List.map_cons, World.byName, e1, h1]
    simp only
    rw [h2, byName_heads name hs (a + 1) e2 (fun i x hx => by rw [Nat.add_assoc, Nat.add_comm 1]; exact hw (i + 1) x hx)]
    unfold unitNamed
    rw [List.find?_cons]
    by_cases c : u.toLower h.ident.name = u.toLower name
    · rw [if_pos c]; simp [c, e1]
    · rw [if_neg c]; simp [c]

/-- how the items are linked in the end -/
structure AllLinked (u : Uni) (k : DS) (es : List UsesEntry) (us : List (UnitTree (Decl Node))) : Prop where
  heads : ((us.map UnitTree.head).map UnitHead.no).Nodup
  nos : ((es ++ us.flatMap UnitTree.all).map UsesEntry.no).Nodup
  prog : ∀ e ∈ es, k.item e.no = lastFor u es (us.map UnitTree.head) e
  unit : ∀ x ∈ us, ∀ e ∈ x.all, k.item e.no = unitNamed u (us.map UnitTree.head) e.ident.name
  named : ∀ x ∈ us.map UnitTree.head, DS.findUses u es x.ident.name ≠ none

theorem AllLinked.same {k k' : DS} {es : List UsesEntry} {us : List (UnitTree (Decl Node))} (h : AllLinked u k es us)
    (hi : k'.items = k.items) : AllLinked u k' es us :=
  ⟨h.heads, h.nos, fun e he => by rw [DS.item, hi]; exact h.prog e he, fun x hx e he => by rw [DS.item, hi]; exact h.unit x hx e he, h.named⟩

theorem loadUnits_links {n : Nat} {i : Ident} {es : List UsesEntry} {s : PS DS} (h0 : s.cx.view cp = some (some [], none))
    (hu : s.cx.w.units = []) (hn : (es.map UsesEntry.no).Nodup) (ho : ∀ e ∈ es, e.no < s.cx.items.length)
    (hi : ∀ m < s.cx.items.length, s.cx.item m = none) :
    wpT (loadUnits u sep files lib it cp i es n) s (fun ls s' => AllLinked u s'.cx es (ls.map Loader.tree)) := by
  unfold loadUnits
  refine wp_then (newLoaders_links es s) ?_
  rintro cs s1 ⟨o1, v1⟩
  refine wp_then (loadAll_links cs s1 [] (o1.views.some h0) v1) ?_
  rintro ls s2 ⟨g1, g2, -, g4, g5, g6, g7, g8⟩
  rw [o1.units, hu, List.nil_append] at g4
  rw [o1.units, hu, List.length_nil] at g5
  rw [o1.items] at g6 g7
  rw [List.nil_append] at g1
  have hmap : (ls.map fun l => l.head.no) = (ls.map Loader.head).map UnitHead.no := by rw [List.map_map]; rfl
  have hitem : ∀ m, s2.cx.item m = none := by
    intro m
    show (s2.cx.items[m]?).join = none
    rw [g6]
    by_cases c : m < s.cx.items.length
    · rw [List.getElem?_append_left c]; exact hi m c
    · rw [List.getElem?_append_right (by omega), List.getElem?_replicate]
      split <;> rfl
  have hin : ∀ l ∈ ls, ∀ e ∈ l.all, e ∈ usesOf ls := by
    intro l hl e he
    rw [Loader.all, g8 l hl, List.append_nil] at he
    exact List.mem_flatMap.2 ⟨l, hl, he⟩
  have hnd : ((usesOf ls).map UsesEntry.no).Nodup := by rw [g7]; exact List.nodup_range'
  have L2 : Linked u cp (ls.map fun l => l.head.no) (unitNamed u (ls.map Loader.head)) s.cx.items.length s2.cx ls := by
    refine ⟨g1, g2, fun name => ?_, ?_, ?_, ?_, ?_, ?_, fun m _ => hitem m, fun l hl => .inl ⟨?_, fun e _ => hitem _⟩, fun l hl e he => ?_⟩
    · rw [hmap]
      refine byName_heads name (ls.map Loader.head) 0 (by rw [← hmap, g5]; simp) fun j x hx => ?_
      rw [Nat.zero_add, g4, List.getElem?_map]
      rw [List.getElem?_map] at hx
      obtain ⟨l, hl, rfl⟩ := Option.map_eq_some_iff.1 hx
      rw [hl]; rfl
    · rw [g5]; exact List.nodup_range'
    · intro l hl
      rw [Loader.all, g8 l hl, List.append_nil]
      have hsub : (l.uses).Sublist (usesOf ls) := by
        rw [usesOf, List.flatMap_def]
        exact List.sublist_flatten_of_mem (List.mem_map_of_mem hl)
      exact hnd.sublist (hsub.map _)
    · intro a b l l' ha hb hab e he e' he' hee
      rw [Loader.all, g8 l (List.mem_of_getElem? ha), List.append_nil] at he
      rw [Loader.all, g8 l' (List.mem_of_getElem? hb), List.append_nil] at he'
      rw [usesOf, List.map_flatMap, List.nodup_flatMap] at hnd
      have hp := hnd.2
      rw [List.pairwise_iff_getElem] at hp
      obtain ⟨ha1, ha2⟩ := List.getElem?_eq_some_iff.1 ha
      obtain ⟨hb1, hb2⟩ := List.getElem?_eq_some_iff.1 hb
      rcases Nat.lt_or_gt_of_ne hab with c | c
      · have := hp a b ha1 hb1 c
        rw [ha2, hb2] at this
        exact this (List.mem_map_of_mem he) (by rw [hee]; exact List.mem_map_of_mem he')
      · have := hp b a hb1 ha1 c
        rw [ha2, hb2] at this
        exact this (List.mem_map_of_mem he') (by rw [← hee]; exact List.mem_map_of_mem he)
    · intro l hl e he
      have : e.no ∈ List.range' s.cx.items.length (usesOf ls).length := by rw [← g7]; exact List.mem_map_of_mem (hin l hl e he)
      rw [List.mem_range'_1] at this
      rw [g6, List.length_append, List.length_replicate]
      exact this
    · rw [g6]; simp
    · unfold World.unitDm
      rw [g4, List.getElem?_map]
      cases ls[l.head.no]? <;> rfl
    · rw [g8 l hl] at he; cases he
  cases UnitParsers.sort u lib (it (uparsers ls)) (uparsers ls) with
  | none => trivial
  | some sorted =>
    show wp (intfAll u n _ _ >>= _) _ _ _ _
    refine wp_then (intfAll_links _ ls s2 L2) ?_
    rintro ls1 s3 ⟨L3, q3⟩
    refine wp_then (implAll_links _ ls1 s3 L3) ?_
    rintro ls2 s4 ⟨L4, q4⟩
    have hh : ls2.map Loader.head = ls.map Loader.head := q4.trans q3
    have ht : (ls2.map Loader.tree).map UnitTree.head = ls2.map Loader.head := by rw [List.map_map]; rfl
    refine wp_then (Q1 := fun _ s' => AllLinked u s'.cx es (ls2.map Loader.tree)) ?_ fun _ _ h => h
    unfold wp enterP
    cases e : s4.cx.usesMap u es (ls2.map Loader.head) [] with
    | none => trivial
    | some km =>
      obtain ⟨k, m⟩ := km
      simp only
      cases e2 : k.enterProgram u cp i (ls2.map Loader.head) m with
      | none => trivial
      | some k2 =>
        have hlow : ∀ e ∈ es, e.no < s4.cx.items.length := fun e he => Nat.lt_of_lt_of_le (ho e he) L4.len
        obtain ⟨is, rfl, r1, r2, r3⟩ := usesMap_items hn hlow e
        have hk : k2.items = is ∧ ∀ x ∈ ls2.map Loader.head, s4.cx.w.unitDm x.no ≠ none := by
          unfold DS.enterProgram at e2
          split at e2
          · rename_i d ms hd hms
            cases e2
            refine ⟨rfl, fun x hx => ?_⟩
            unfold World.usedMaps at hms
            obtain ⟨ms', hms', -⟩ := Option.map_eq_some_iff.1 hms
            refine Seal.mapM_ne hms' _ ?_
            rw [List.mem_filterMap]
            exact ⟨some x.no, List.mem_map.2 ⟨x, hx, rfl⟩, rfl⟩
          · cases e2
        obtain ⟨k3, k4⟩ := hk
        have hall : ∀ l ∈ ls2, ∀ e ∈ l.all, s4.cx.item e.no = unitNamed u (ls.map Loader.head) e.ident.name := by
          intro l hl e he
          rcases List.mem_append.1 he with he | he
          · rcases L4.intf l hl with ⟨c1, -⟩ | c1
            · exact absurd c1 (k4 _ (List.mem_map_of_mem hl))
            · exact c1 e he
          · exact L4.impl l hl e he
        have hfl : (ls2.map Loader.tree).flatMap UnitTree.all = ls2.flatMap Loader.all := by
          rw [List.flatMap_map]; rfl
        refine ⟨?_, ?_, ?_, ?_, by rw [ht]; exact r3⟩
        · rw [ht, hh, ← hmap, g5]; exact List.nodup_range'
        · rw [hfl, List.map_append, List.nodup_append]
          refine ⟨hn, ?_, ?_⟩
          · rw [List.map_flatMap, List.nodup_flatMap]
            refine ⟨L4.nodup, List.pairwise_iff_getElem.2 fun a b ha hb hab => ?_⟩
            intro x hx hy
            obtain ⟨e, he, rfl⟩ := List.mem_map.1 hx
            obtain ⟨e', he', hee⟩ := List.mem_map.1 hy
            exact L4.apart a b _ _ (List.getElem?_eq_getElem ha) (List.getElem?_eq_getElem hb) (by omega) e he e' he' hee.symm
          · intro a ha b hb hab
            obtain ⟨e, he, rfl⟩ := List.mem_map.1 ha
            obtain ⟨e', he', rfl⟩ := List.mem_map.1 hb
            obtain ⟨l, hl, hl'⟩ := List.mem_flatMap.1 he'
            have h1 := (L4.old l hl e' hl').1
            have h2 := ho e he
            omega
        · intro e he
          rw [ht]
          show (k2.items[e.no]?).join = _
          rw [k3, r2 e he, L4.low e.no (ho e he), Option.or_none]
        · intro x hx e he
          rw [ht, hh]
          obtain ⟨l, hl, rfl⟩ := List.mem_map.1 hx
          show (k2.items[e.no]?).join = _
          rw [k3, r1, hall l hl e he]
          intro hm
          obtain ⟨y, hy, hye⟩ := List.mem_map.1 hm
          have h1 := (L4.old l hl e he).1
          have h2 := ho y hy
          omega

/-- in the result of `ParseProgram` -/
theorem program_links {n : Nat} {s : PS DS} (h0 : s.cx.view cp = some (some [], none)) (hu : s.cx.w.units = []) (hi : s.cx.items = []) :
    wpT (parseProgram u sep files lib it cp n) s (fun t s' => AllLinked u s'.cx t.uses t.units) := by
  unfold parseProgram
  have B := linksBase u s.cx s.tail
  have hs : In' (SameLinks s.cx) (fun _ => True) s.tail s := ⟨rfl, .refl _, trivial⟩
  refine B.current hs fun t ht c => ?_
  obtain ⟨ts, hts⟩ := tok_cons' notEof_kw ht c
  refine B.nextIs hs (fun t h => by rw [typ_iff.1 h]; decide) fun t0 t1 s1 ts1 c1 h1 e1 e1' => ?_
  refine B.nextIs h1 (fun t h => sym_ne_eof (symbol_iff.1 h)) fun t2 t3 s3 ts3 c3 h3 e3 e3' => ?_
  refine B.next h3 e3' fun s4 h4 e4 => ?_
  refine wp_then (Q1 := fun r s' => AllLinked u s'.cx r.1 r.2) ?_ ?_
  · unfold parseProgramUses
    refine B.isL h4 notEof_kw (fun _ _ _ _ => ?_) (fun _ _ _ => ⟨List.nodup_nil, List.nodup_nil, fun _ h => (by cases h), fun _ h => (by cases h), fun _ h => (by cases h)⟩)
    refine wp_then (uses_fresh n s4) fun es s5 f5 => ?_
    show wp _ _ _ _ _
    rw [wp_bind]
    refine wp_next ?_ (fun _ => trivial)
    have hit : s4.cx.items = [] := h4.cx.items.trans hi
    have hit5 : s5.cx.items = List.replicate es.length none := by rw [f5.items, hit]; rfl
    have hno : es.map UsesEntry.no = List.range' 0 es.length := by rw [f5.nos, hit]; rfl
    refine wp_then (loadUnits_links (f5.views.some (h4.cx.views.some h0)) (f5.units.trans (h4.cx.units.trans hu))
      (by rw [hno]; exact List.nodup_range') (fun e he => ?_) (fun m hm => ?_)) fun ls s6 h6 => h6
    · have : e.no ∈ List.range' 0 es.length := by rw [← hno]; exact List.mem_map_of_mem he
      rw [List.mem_range'_1] at this
      show e.no < s5.cx.items.length
      rw [hit5, List.length_replicate]
      omega
    · show (s5.cx.items[m]?).join = none
      rw [hit5, List.getElem?_replicate]
      split <;> rfl
  rintro us s5 h5
  refine wp_then (wpT_links (allDecls (linksBase u s5.cx s5.tail) n).block) ?_
  rintro b s6 h6
  rw [wp_bind]
  exact wp_current (fun t7 ht7 c7 => h5.same h6.items) (fun _ => trivial)

end TP
