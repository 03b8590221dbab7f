import Verif.Lemmas.Fine
import Verif.Spec.Panic

/-!
# When parsing a program panics
-/

namespace TP
open Spec Props

variable {u : Uni} {Pp Pw : Prop} {α : Type} {c : Option (Str × Nat)} {k : DS}

theorem wp_both {p : P DS α} {s : PS DS} {Q Q' : α → PS DS → Prop} (h : wp p s Q Pp Pw) (h' : wpT p s Q') :
    wp p s (fun a s' => Q a s' ∧ Q' a s') Pp Pw := by
  change wp _ _ _ _ _ at h'
  unfold wp at h h' ⊢
  cases e : p s <;> rw [e] at h h' <;> simp_all

theorem Fine.nil (h : Fine c k) {key : Str} {n : Node} (hk : Known k c key n) (hn : NilMap k n) : ∃ j, c = some (key, j) := by
  cases n with
  | uses i => obtain ⟨j, h1, h2⟩ := hn; exact absurd h2 (h.items i j h1)
  | unit j =>
    rcases hk with hk | hk
    · exact absurd hn hk
    · exact ⟨j, hk⟩
  | program => exact absurd hn hk
  | _ => exact hn.elim

/-- the name, and after it a period -/
def Dotted (u : Uni) (ts : List Token) (key : Str) : Prop :=
  ∃ a t1 t2 b, ts = a ++ t1 :: t2 :: b ∧ t1.typ = .ident ∧ u.toLower t1.raw = key ∧ IsSym r!"." t2

theorem Fine.base (h : Fine c k) (ts0 : List Token) {tl : Tail} (hnil : tl = .nil → Pp)
    (hself : ∀ key j, c = some (key, j) → Dotted u ts0 key → Pp) :
    DBase u (declEnv u) (Heap (Known k c) (fun _ => True) (fun _ => True) k) (· <:+ ts0) tl Pp True := by
  refine heapBase k ?_ (fun t ts h => (List.suffix_cons t ts).trans h) hnil ?_
  · intro key n h1 h2 h3
    cases n with
    | unit j => exact absurd rfl (h2 j)
    | program => exact absurd rfl h3
    | _ => trivial
  · rintro t1 t2 t3 ts n ⟨a, ha⟩ c1 c2 hk hn
    obtain ⟨j, hj⟩ := h.nil hk hn
    exact hself _ j hj ⟨a, t1, t2, t3 :: ts, ha.symm, c1, rfl, c2⟩

theorem Heap.uses {P : Str → Node → Prop} {S M : Nat → Prop} {k0 : DS} (hP : ∀ key i, P key (.uses i)) (c : DS)
    (h : Heap P S M k0 c) (i : Ident) : match c.setUses u i with
      | .ok c' => Heap P S M k0 c'
      | .err => True
      | .panic => Pp := by
  have := h.setUses u hP i
  cases e : c.setUses u i with
  | ok c' => rw [e] at this; exact this
  | err => trivial
  | panic => rw [e] at this; exact this.elim

theorem wp_stepP_some {f : DS → Option DS} {s : PS DS} {g : Unit → P DS α} {Q : α → PS DS → Prop} {k : DS} (e : f s.cx = some k)
    (h : wp (g ()) { s with cx := k } Q Pp Pw) : wp (stepP f >>= g) s Q Pp Pw := by
  rw [wp_bind]
  unfold stepP
  unfold wp
  simp only [e]
  exact h

theorem wp_stepR_after {f : DS → SetR DS} {s : PS DS} {g : Unit → P DS α} {Q : α → PS DS → Prop} {A : DS → Prop}
    (e : SetAfter A (f s.cx)) (h : ∀ k, A k → wp (g ()) { s with cx := k } Q Pp Pw) : wp (stepR f >>= g) s Q Pp Pw := by
  rw [wp_bind]
  unfold stepR
  unfold wp
  simp only
  cases e' : f s.cx with
  | ok k => rw [e'] at e; exact h k e
  | err => trivial
  | panic => rw [e'] at e; exact e.elim

/-! ## The parsers of units -/

theorem unitIdent_unit (s : PS DS) : wpT (parseUnitIdent u) s (fun h s' => ∃ o : UnitObj, s'.cx.w.units[h.1.no]? = some o ∧
    o.name = h.1.ident.name) := by
  unfold parseUnitIdent
  have key : ∀ (t : Token), ∃ o : UnitObj, (s.cx.newUnit (Ident.ofTok t)).w.units[s.cx.w.units.length]? = some o ∧
      o.name = (Ident.ofTok t).name := fun t => ⟨⟨(Ident.ofTok t).name, none⟩, by simp [DS.newUnit], rfl⟩
  show wp _ _ _ _ _
  rw [wp_bind]
  refine wp_current (fun _ _ _ => ?_) (fun _ => trivial)
  rw [wp_bind]
  refine wp_nextIs (fun t _ _ => ?_) (fun _ => trivial)
  refine wp_askP ?_
  rw [wp_bind]
  show wp (P.next >>= _) _ _ _ _
  rw [wp_bind]
  refine wp_next ?_ (fun _ => trivial)
  refine wp_then (Q1 := fun _ s' => s'.cx = s.cx.newUnit (Ident.ofTok t)) ?_ ?_
  · rw [wp_bind]
    refine wp_cur (fun t' _ => wp_ite (fun _ => ?_) (fun _ => rfl)) (fun _ => trivial) (fun _ => trivial)
    rw [wp_bind]
    exact wp_next rfl (fun _ => trivial)
  · intro pd s2 h2
    rw [wp_bind]
    refine wp_is (fun _ _ => wp_ite (fun _ => ?_) (fun _ => ?_)) (fun _ => trivial) (fun _ => trivial)
    · rw [wp_bind]
      refine wp_next ?_ (fun _ => trivial)
      show ∃ o : UnitObj, s2.cx.w.units[_]? = some o ∧ _
      rw [h2]; exact key t
    · show ∃ o : UnitObj, s2.cx.w.units[_]? = some o ∧ _
      rw [h2]; exact key t

variable (u) (files : Str → FileR) (cp : Nat) (Pp)

/-- a parser of a unit between its parts -/
structure Ready (k : DS) (l : Loader) : Prop where
  cur : l.cur < k.w.ctxs.length
  cu : IsUnit k l.cu cp
  file : ∃ ts tl rest, files l.path = .tokens ts tl ∧ l.ts <:+ ts ∧ l.tail = tl ∧ gUnitName u l.head ts rest
  unit : ∃ o : UnitObj, k.w.units[l.head.no]? = some o ∧ o.name = l.head.ident.name

variable {u files cp Pp}

theorem Ready.later {k k' : DS} {l : Loader} (h : Ready u files cp k l) (g : Later k k') : Ready u files cp k' l where
  cur := Nat.lt_of_lt_of_le h.cur g.len
  cu := h.cu.later g
  file := h.file
  unit := by
    obtain ⟨o, h1, h2⟩ := h.unit
    obtain ⟨o', h3, h4⟩ := g.names _ o h1
    exact ⟨o', h3, h4.trans h2⟩

/-- the main parser is where it was -/
structure Kept' (s s' : PS DS) : Prop where
  still : Still s s'
  later : Later s.cx s'.cx
  cur : s'.cx.cur = s.cx.cur

theorem Kept'.trans {s s' s'' : PS DS} (h : Kept' s s') (h' : Kept' s' s'') : Kept' s s'' :=
  ⟨h.still.trans h'.still, h.later.trans h'.later, h'.cur.trans h.cur⟩
theorem Kept'.refl (s : PS DS) : Kept' s s := ⟨.refl s, .refl _, rfl⟩

theorem loadUnit_fine {n : Nat} {path : Str} {ctx : Nat} {s : PS DS} (h : Fine none s.cx) (hc : IsUnit s.cx ctx cp)
    (hnil : Unrecognised files path → Pp) : wp (loadUnit u files n path ctx) s
      (fun l s' => Fine none s'.cx ∧ Kept' s s' ∧ Ready u files cp s'.cx l ∧ l.path = path) Pp True := by
  unfold loadUnit
  cases e : files path with
  | missing => trivial
  | unreadable => trivial
  | tokens ts tl =>
    have hlt : ctx < s.cx.w.ctxs.length := by obtain ⟨p, d, e⟩ := hc; exact Ctxs.obj_lt e
    have f1 := h.switch ctx []
    have B := f1.base (u := u) (Pp := Pp) ts (tl := tl) (fun h => hnil ⟨ts, by rw [e, h]⟩) (fun _ _ h => by cases h)
    refine wp_then (Q1 := fun r s' => Fine none s'.cx ∧ Kept' s s' ∧ r.2.path = path ∧ r.2.cu = ctx ∧
      r.2.cur < s'.cx.w.ctxs.length ∧ r.2.ts <:+ ts ∧ r.2.tail = tl ∧ (∃ z, gUnitName u r.1.1.1 ts z) ∧
      ∃ o : UnitObj, s'.cx.w.units[r.1.1.1.no]? = some o ∧ o.name = r.1.1.1.ident.name) (wp_run ?_) ?_
    · have start : In' (Heap (Known { s.cx with cur := ctx, pending := [] } none) (fun _ => True) (fun _ => True)
          { s.cx with cur := ctx, pending := [] }) (· <:+ ts) tl ⟨ts, tl, { s.cx with cur := ctx, pending := [] }⟩ :=
        ⟨rfl, f1.heap hlt, List.suffix_rfl⟩
      have body : wp (parseIdentAndUses u n) ⟨ts, tl, { s.cx with cur := ctx, pending := [] }⟩ (fun r s' =>
          Fine none s'.cx ∧ Later s.cx s'.cx ∧ s'.cx.cur < s'.cx.w.ctxs.length ∧ s'.ts <:+ ts ∧ s'.tail = tl ∧
          (∃ z, gUnitName u r.1.1 ts z) ∧ ∃ o : UnitObj, s'.cx.w.units[r.1.1.no]? = some o ∧ o.name = r.1.1.ident.name) Pp True := by
        unfold parseIdentAndUses
        refine wp_then (wp_both (unitIdent_sound B (fun c h i => h.newUnit i) n _ start (fun _ => trivial)) (unitIdent_unit _)) ?_
        rintro h1 s1 ⟨⟨g1, -, z, gz, -⟩, g2⟩
        have f2 := Heap.fine f1 g1.cx
        have B2 := f2.base (u := u) (Pp := Pp) ts (tl := tl) (fun h => hnil ⟨ts, by rw [e, h]⟩) (fun _ _ h => by cases h)
        refine (intfUses_sound B2 (Heap.uses fun _ _ => trivial) n).bind ⟨g1.tail, f2.heap g1.cx.here, g1.good⟩ (fun _ => trivial)
          fun es s2 h2 _ _ => ?_
        refine ⟨Heap.fine f2 h2.cx, ?_, h2.cx.here, h2.good, h2.tail, ⟨z, gz⟩, ?_⟩
        · exact (g1.cx.later.trans h2.cx.later).switch s.cx.cur s2.cx.cur s.cx.pending s2.cx.pending
        · obtain ⟨o, ho, hn⟩ := g2
          obtain ⟨o', ho', hn'⟩ := h2.cx.later.names _ o ho
          exact ⟨o', ho', hn'.trans hn⟩
      refine B.cur? start ?_ fun t _ => ?_
      all_goals
        refine wp_mono body ?_ id id
        rintro r s' ⟨g1, g2, g3, g4, g5, g6, g7⟩
        exact ⟨g1.switch _ _, ⟨⟨rfl, rfl⟩, g2.switch _ _ _ _, rfl⟩, rfl, rfl, g3, g4, g5, g6, g7⟩
    · rintro r s' ⟨g1, g2, g3, g4, g5, g6, g7, ⟨z, g8⟩, g9⟩
      refine ⟨g1, g2, ⟨g5, ?_, ⟨ts, tl, z, ?_, g6, g7, g8⟩, g9⟩, g3⟩
      · show IsUnit s'.cx r.2.cu cp
        rw [g4]; exact hc.later g2.later
      · rw [← e]; exact congrArg files g3

theorem newLoaders_fine {sep : Char} : ∀ (es : List UsesEntry) {s : PS DS}, Fine none s.cx →
    wp (newLoaders sep cp es) s (fun cs s' => Fine none s'.cx ∧ Kept' s s' ∧ cs.map Prod.fst = usedFiles sep es ∧
      ∀ x ∈ cs, IsUnit s'.cx x.2 cp) Pp True
  | [], s, h => ⟨h, .refl s, rfl, fun _ h => by cases h⟩
  | e :: es, s, h => by
    unfold newLoaders usedFiles
    refine wp_ite (fun c => ?_) (fun c => ?_)
    · refine wp_mono (newLoaders_fine es h) ?_ id id
      rintro cs s' ⟨h1, h2, h3, h4⟩
      exact ⟨h1, h2, by rw [h3, List.map_cons, List.filter_cons_of_neg (by simpa using c)]; rfl, h4⟩
    · refine wp_askP ?_
      rw [wp_bind]
      show wp (newLoaders sep cp es >>= _) _ _ _ _
      refine wp_then (newLoaders_fine es (s := { s with cx := (s.cx.newUnitContext cp (UsesItem.effectivePath sep e.path)).1 })
        (h.newUnitContext cp _)) ?_
      rintro cs s2 ⟨h1, h2, h3, h4⟩
      refine ⟨h1, ⟨⟨h2.still.1, h2.still.2⟩, (Fine.newUnitContext_later _ _ _).trans h2.later, h2.cur⟩, ?_, ?_⟩
      · rw [List.map_cons, h3, List.map_cons, List.filter_cons_of_pos (by simpa using c)]; rfl
      · intro x hx
        rcases List.mem_cons.1 hx with rfl | hx
        · exact (Fine.newUnitContext_unit _ _ _).later h2.later
        · exact h4 x hx

/-- as `Later`, but units may be added to programs -/
structure Later' (k k' : DS) : Prop where
  len : k.w.ctxs.length ≤ k'.w.ctxs.length
  unit : ∀ cu cp, IsUnit k cu cp → IsUnit k' cu cp
  names : ∀ (j : Nat) (o : UnitObj), k.w.units[j]? = some o → ∃ o' : UnitObj, k'.w.units[j]? = some o' ∧ o'.name = o.name

theorem Later'.of {k k' : DS} (h : Later k k') : Later' k k' := ⟨h.len, fun _ _ g => g.later h, h.names⟩
theorem Later'.trans {k k' k'' : DS} (h : Later' k k') (h' : Later' k' k'') : Later' k k'' where
  len := Nat.le_trans h.len h'.len
  unit a b g := h'.unit a b (h.unit a b g)
  names j o e := by
    obtain ⟨o1, e1, n1⟩ := h.names j o e
    obtain ⟨o2, e2, n2⟩ := h'.names j o1 e1
    exact ⟨o2, e2, n2.trans n1⟩

theorem Later'.addUnit (k : DS) (cp j : Nat) : Later' k (k.addUnit cp j) where
  len := by simp [DS.addUnit, Ctxs.length_modify]
  unit _ _ g := Fine.addUnit_unit g cp j
  names _ o e := ⟨o, e, rfl⟩

theorem Ready.later' {k k' : DS} {l : Loader} (h : Ready u files cp k l) (g : Later' k k') : Ready u files cp k' l where
  cur := Nat.lt_of_lt_of_le h.cur g.len
  cu := g.unit _ _ h.cu
  file := h.file
  unit := by
    obtain ⟨o, h1, h2⟩ := h.unit
    obtain ⟨o', h3, h4⟩ := g.names _ o h1
    exact ⟨o', h3, h4.trans h2⟩

theorem loadAll_fine {n : Nat} : ∀ (cs : List (Str × Nat)) {s : PS DS} {us : List Nat}, Fine none s.cx → IsProg s.cx cp us →
    (∀ x ∈ cs, IsUnit s.cx x.2 cp) → (∀ x ∈ cs, Unrecognised files x.1 → Pp) → wp (loadAll u files cp n cs) s
      (fun ls s' => Fine none s'.cx ∧ Still s s' ∧ Later' s.cx s'.cx ∧ s'.cx.cur = s.cx.cur ∧ ls.map Loader.path = cs.map Prod.fst ∧
        (∀ l ∈ ls, Ready u files cp s'.cx l) ∧ IsProg s'.cx cp (us ++ ls.map fun l => l.head.no)) Pp True
  | [], s, us, h, hp, _, _ => ⟨h, .refl s, .of (.refl _), rfl, rfl, fun _ h => (by cases h), by simpa using hp⟩
  | (path, ctx) :: cs, s, us, h, hp, hu, hnil => by
    unfold loadAll
    refine wp_then (loadUnit_fine h (hu (path, ctx) List.mem_cons_self) (hnil (path, ctx) List.mem_cons_self)) ?_
    rintro l s1 ⟨h1, h2, h3, h4⟩
    rw [wp_bind]
    show wp (loadAll u files cp n cs >>= _) _ _ _ _
    have l1 : Later' s.cx (s1.cx.addUnit cp l.head.no) := (Later'.of h2.later).trans (.addUnit _ _ _)
    refine wp_then (loadAll_fine cs (s := { s1 with cx := s1.cx.addUnit cp l.head.no }) (h1.addUnit cp l.head.no)
      (Fine.addUnit_prog (hp.later h2.later) l.head.no) (fun x hx => l1.unit _ _ (hu x (List.mem_cons_of_mem _ hx)))
      (fun x hx => hnil x (List.mem_cons_of_mem _ hx))) ?_
    rintro ls s3 ⟨g1, g2, g3, g4, g5, g6, g7⟩
    refine ⟨g1, ?_, l1.trans g3, ?_, ?_, ?_, ?_⟩
    · exact ⟨g2.1.trans h2.still.1, g2.2.trans h2.still.2⟩
    · exact g4.trans h2.cur
    · rw [List.map_cons, g5, h4, List.map_cons]
    · intro l' h'
      rcases List.mem_cons.1 h' with rfl | h'
      · exact (h3.later' (.addUnit _ _ _)).later' g3
      · exact g6 l' h'
    · simpa using g7

/-- what is needed of the files: the tokenizer recognises everything, and the unit does not name itself -/
def FileOK (u : Uni) (files : Str → FileR) (Pp : Prop) (p : Str) : Prop :=
  (Unrecognised files p → Pp) ∧ (NamesItself u files p → Pp)

theorem intfStep_fine {n : Nat} {l : Loader} {s : PS DS} {us : List Nat} (h : Fine none s.cx) (hl : Ready u files cp s.cx l)
    (hp : IsProg s.cx cp us) (hf : FileOK u files Pp l.path)
    (hm : ∀ e ∈ l.uses, ∀ j, s.cx.w.byName u us e.ident.name = some j → s.cx.w.unitDm j ≠ none) :
    wp (intfStep u n l) s (fun l' s' => Fine none s'.cx ∧ Kept' s s' ∧ Ready u files cp s'.cx l' ∧ l'.key = l.key ∧
      s'.cx.w.unitDm l.head.no ≠ none) Pp True := by
  obtain ⟨ts, tl, rest, hts, hsf, htl, hname⟩ := hl.file
  have hnil : l.tail = .nil → Pp := fun h => hf.1 ⟨ts, by rw [hts, ← htl, h]⟩
  have hself : Dotted u ts (u.toLower l.head.ident.name) → Pp := by
    rintro ⟨a, t1, t2, b, e1, e2, e3, e4⟩
    exact hf.2 ⟨ts, tl, l.head, rest, a, t1, t2, b, hts, hname, e1, e2, e3, e4⟩
  have hcu : l.cu < s.cx.w.ctxs.length := by obtain ⟨p, d, e⟩ := hl.cu; exact Ctxs.obj_lt e
  unfold intfStep
  refine wp_then (Q1 := fun r s' => Fine none s'.cx ∧ Kept' s s' ∧ r.2.key = l.key ∧ r.2.cu = l.cu ∧ r.2.cur < s'.cx.w.ctxs.length ∧
    r.2.ts <:+ ts ∧ r.2.tail = tl ∧ s'.cx.w.unitDm l.head.no ≠ none) (wp_run ?_) ?_
  · have f1 := h.switch l.cur l.pending
    obtain ⟨k2, e2, f2, l2, c2⟩ := f1.importUnits u (cu := l.cu) hcu (es := l.uses) (by
      intro e he j hj
      rw [parentUnits_eq (k := { s.cx with cur := l.cur, pending := l.pending }) (cp := cp) (us := us) hl.cu hp] at hj
      exact hm e he j hj)
    unfold processIntf
    refine wp_stepP_some e2 (wp_stepR_after (f2.setUnit u (cu := l.cu) (Nat.lt_of_lt_of_le hcu l2.len) l.head) ?_)
    rintro k3 ⟨f3, l3, c3⟩
    have hcur : k3.cur < k3.w.ctxs.length := by
      rw [c3, c2]; exact Nat.lt_of_lt_of_le hl.cur (Nat.le_trans l2.len l3.len)
    have l03 : Later s.cx k3 := (l2.trans l3).switch s.cx.cur k3.cur s.cx.pending k3.pending
    have B := f3.base (u := u) (Pp := Pp) ts (tl := l.tail) hnil (fun key j e hd => by cases e; exact hself hd)
    have hunit : ∀ k', Later k3 k' → ∃ o, k'.w.units[l.head.no]? = some o := by
      intro k' hk
      obtain ⟨o, ho, -⟩ := (hl.later (l03.trans hk)).unit
      exact ⟨o, ho⟩
    refine wp_mono (intfBody_sound (I' := fun k' => Fine none k' ∧ Later k3 k' ∧ k'.cur < k'.w.ctxs.length ∧
      k'.w.unitDm l.head.no ≠ none) B ?_ (n := n) ⟨rfl, f3.heap hcur, hsf⟩ (fun _ => trivial)) ?_ id id
    · intro k' h' ds
      obtain ⟨g1, g2, g3⟩ := (Heap.fine f3 h').finishIntf u (hunit _ h'.later) ds
      exact ⟨g1, h'.later.trans g2, Nat.lt_of_lt_of_le h'.here g2.len, g3⟩
    · rintro ds s4 ⟨⟨g1, ⟨g2, g3, g4, g5⟩, g6⟩, -, -⟩
      exact ⟨g2.switch _ _, ⟨⟨rfl, rfl⟩, (l03.trans g3).switch _ _ _ _, rfl⟩, rfl, rfl, g4, g6, g1.trans htl, g5⟩
  · rintro r s' ⟨g1, g2, g3, g4, g5, g6, g7, g8⟩
    refine ⟨g1, g2, ⟨g5, ?_, ⟨ts, tl, rest, ?_, g6, g7, ?_⟩, ?_⟩, g3, g8⟩
    · show IsUnit s'.cx r.2.cu cp
      rw [g4]; exact hl.cu.later g2.later
    · rw [← hts]; exact congrArg files (congrArg Prod.fst g3)
    · rw [show ({ r.2 with intf := r.1 } : Loader).head = l.head from congrArg (fun k => k.2.1) g3]; exact hname
    · rw [show ({ r.2 with intf := r.1 } : Loader).head = l.head from congrArg (fun k => k.2.1) g3]
      exact (hl.later g2.later).unit

theorem implStep_fine {n : Nat} {l : Loader} {s : PS DS} {us : List Nat} (h : Fine none s.cx) (hl : Ready u files cp s.cx l)
    (hp : IsProg s.cx cp us) (hf : FileOK u files Pp l.path) (hd : s.cx.w.unitDm l.head.no ≠ none)
    (hm : ∀ j ∈ us, s.cx.w.unitDm j ≠ none) :
    wp (implStep u n l) s (fun l' s' => Fine none s'.cx ∧ Kept' s s' ∧ Ready u files cp s'.cx l' ∧ l'.key = l.key) Pp True := by
  obtain ⟨ts, tl, rest, hts, hsf, htl, hname⟩ := hl.file
  have hnil : l.tail = .nil → Pp := fun h => hf.1 ⟨ts, by rw [hts, ← htl, h]⟩
  have hcu : l.cu < s.cx.w.ctxs.length := by obtain ⟨p, d, e⟩ := hl.cu; exact Ctxs.obj_lt e
  unfold implStep
  refine wp_then (Q1 := fun r s' => Fine none s'.cx ∧ Kept' s s' ∧ r.2.key = l.key ∧ r.2.cu = l.cu ∧ r.2.cur < s'.cx.w.ctxs.length ∧
    r.2.ts <:+ ts ∧ r.2.tail = tl) (wp_run ?_) ?_
  · have f1 := h.switch l.cur l.pending
    have B := f1.base (u := u) (Pp := Pp) ts (tl := l.tail) hnil (fun _ _ h => by cases h)
    unfold processImpl
    refine wp_then (Q1 := fun _ s' => s'.tail = l.tail ∧ s'.ts <:+ ts ∧ Fine none s'.cx ∧ Later s.cx s'.cx ∧
      s'.cx.cur < s'.cx.w.ctxs.length) ?_ ?_
    · unfold parseImplUses
      refine B.eatKw ⟨rfl, f1.heap hl.cur, hsf⟩ fun t s1 c h1 e1 => ?_
      have f2 := Heap.fine f1 h1.cx
      obtain ⟨f3, l3, c3⟩ := f2.stackAt (cu := l.cu) (Nat.lt_of_lt_of_le hcu h1.cx.len)
      have hcur : (s1.cx.stackAt l.cu).cur < (s1.cx.stackAt l.cu).w.ctxs.length := by
        rw [c3]; exact Nat.lt_of_lt_of_le h1.cx.here l3.len
      have B3 := f3.base (u := u) (Pp := Pp) ts (tl := l.tail) hnil (fun _ _ h => by cases h)
      rw [wp_bind]
      show wp (parseOptUses u n) { s1 with cx := s1.cx.stackAt l.cu } _ _ _
      refine wp_mono (optUses_sound B3 (Heap.uses fun _ _ => trivial) n _ ⟨h1.tail, f3.heap hcur, h1.good⟩ (fun _ => trivial)) ?_ id id
      rintro es s2 ⟨h2, -, -⟩
      exact ⟨h2.tail, h2.good, Heap.fine f3 h2.cx,
        ((h1.cx.later.trans l3).trans h2.cx.later).switch s.cx.cur s2.cx.cur s.cx.pending s2.cx.pending, h2.cx.here⟩
    · rintro es s2 ⟨t2, g2, f2, l2, c2⟩
      refine wp_then (Q1 := fun _ s' => s'.tail = l.tail ∧ s'.ts <:+ ts ∧ Fine none s'.cx ∧ Later s.cx s'.cx ∧
        s'.cx.cur < s'.cx.w.ctxs.length) (wp_inImpl ?_) ?_
      · obtain ⟨k3, um, e3, f3, l3, c3⟩ := f2.openImpl u (cu := l.cu) (unit := l.head.no) (Nat.lt_of_lt_of_le hcu l2.len)
          (l2.dms _ hd) (es := es) (by
            unfold Fine.Maps'
            rw [parentUnits_eq (cp := cp) (us := us) (hl.cu.later l2) (hp.later l2)]
            intro e _ j hj
            exact l2.dms _ (hm j (Fine.byName_mem u _ hj).1))
        rw [e3]
        simp only
        have B3 := f3.base (u := u) (Pp := Pp) ts (tl := l.tail) hnil (fun _ _ h => by cases h)
        refine wp_mono (implAndEnd_sound B3 n _ ⟨t2, f3.heap (by rw [c3]; exact Nat.lt_of_lt_of_le c2 l3.len), g2⟩ (fun _ => trivial)) ?_ id id
        rintro b s4 ⟨h4, -, -⟩
        have l4 := Fine.setUnitDm_later s4.cx l.head.no um
        exact ⟨h4.tail, h4.good, (Heap.fine f3 h4.cx).setUnitDm _ _, ((l2.trans l3).trans h4.cx.later).trans l4,
          Nat.lt_of_lt_of_le h4.cx.here l4.len⟩
      · rintro b s5 ⟨g1, g2, g3, g4, g5⟩
        exact ⟨g3.switch _ _, ⟨⟨rfl, rfl⟩, g4.switch _ _ _ _, rfl⟩, rfl, rfl, g5, g2, g1.trans htl⟩
  · rintro r s' ⟨g1, g2, g3, g4, g5, g6, g7⟩
    refine ⟨g1, g2, ⟨g5, ?_, ⟨ts, tl, rest, ?_, g6, g7, ?_⟩, ?_⟩, g3⟩
    · show IsUnit s'.cx r.2.cu cp
      rw [g4]; exact hl.cu.later g2.later
    · rw [← hts]; exact congrArg files (congrArg Prod.fst g3)
    · rw [show ({ r.2 with implUses := r.1.1, body := r.1.2 } : Loader).head = l.head from congrArg (fun k => k.2.1) g3]; exact hname
    · rw [show ({ r.2 with implUses := r.1.1, body := r.1.2 } : Loader).head = l.head from congrArg (fun k => k.2.1) g3]
      exact (hl.later g2.later).unit

end TP
