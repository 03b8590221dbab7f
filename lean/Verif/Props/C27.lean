import Verif.Props.C26

/-!
# C27: every interface is parsed after the interfaces it uses, every implementation after all interfaces

The theorems speak about the sequence of steps `LoadUnits` performs, for arbitrary effects of the steps (each may
fail, which ends the work).
-/

namespace TP.Props
open TP TP.Spec LoadOps

section
variable {σ : Type} (ops : LoadOps σ)

/-- the steps of the first loop concern only loading and headers -/
def Early : LoadEvent → Prop
  | .load _ => True
  | .ident _ => True
  | .addUnit _ => True
  | _ => False

theorem identLoop_early (is : List Nat) (s : σ) : ∀ e ∈ (ops.identLoop is s).1, Early e := by
  induction is generalizing s with
  | nil => simp [identLoop]
  | cons i is ih =>
    unfold identLoop
    cases ops.load i s with
    | mk s1 b =>
      cases b with
      | false => simp [Early]
      | true =>
        cases h : ops.ident i s1 with
        | mk s2 b2 =>
          cases b2 with
          | false => simp [Early, h]
          | true =>
            simp only [h]
            intro e he
            simp only [List.mem_cons] at he
            rcases he with rfl | rfl | rfl | he
            · trivial
            · trivial
            · trivial
            · exact ih _ e he

theorem identLoop_done (is : List Nat) (s s1 : σ) (e : List LoadEvent) (h : ops.identLoop is s = (e, s1, true)) :
    e = is.flatMap (fun i => [.load i, .ident i, .addUnit i]) := by
  induction is generalizing s e with
  | nil => simp [identLoop] at h; simp [h.1]
  | cons i is ih =>
    unfold identLoop at h
    cases hl : ops.load i s with
    | mk s2 b =>
      cases b with
      | false => rw [hl] at h; simp at h
      | true =>
        rw [hl] at h
        simp only at h
        cases hi : ops.ident i s2 with
        | mk s3 b2 =>
          cases b2 with
          | false => rw [hi] at h; simp at h
          | true =>
            rw [hi] at h
            simp only [Prod.mk.injEq] at h
            obtain ⟨h1, h2⟩ := h
            have := ih (ops.addUnit i s3) (ops.identLoop is (ops.addUnit i s3)).1 (by rw [← h2])
            rw [← h1, this]; rfl

theorem identLoop_prefix (is : List Nat) (s : σ) :
    (ops.identLoop is s).1 <+: is.flatMap (fun i => [.load i, .ident i, .addUnit i]) := by
  induction is generalizing s with
  | nil => simp [identLoop]
  | cons i is ih =>
    unfold identLoop
    cases hl : ops.load i s with
    | mk s2 b =>
      cases b with
      | false => simp
      | true =>
        simp only
        cases hi : ops.ident i s2 with
        | mk s3 b2 =>
          cases b2 with
          | false => simp
          | true =>
            simp only [List.flatMap_cons, List.cons_append, List.nil_append, List.prefix_cons_inj]
            exact ih _

theorem intfLoop_prefix (is : List Nat) (s : σ) : (ops.intfLoop is s).1 <+: is.map LoadEvent.intf := by
  induction is generalizing s with
  | nil => simp [intfLoop]
  | cons i is ih =>
    unfold intfLoop
    cases h : ops.intf i s with
    | mk s1 b =>
      cases b with
      | false => simp
      | true => simp only [List.map_cons, List.prefix_cons_inj]; exact ih s1

theorem intfLoop_done (is : List Nat) (s s1 : σ) (e : List LoadEvent) (h : ops.intfLoop is s = (e, s1, true)) :
    e = is.map LoadEvent.intf := by
  induction is generalizing s e with
  | nil => simp [intfLoop] at h; simp [h.1]
  | cons i is ih =>
    unfold intfLoop at h
    cases hl : ops.intf i s with
    | mk s2 b =>
      cases b with
      | false => rw [hl] at h; simp at h
      | true =>
        rw [hl] at h
        simp only [Prod.mk.injEq] at h
        have := ih s2 (ops.intfLoop is s2).1 (by rw [← h.2])
        rw [← h.1, this]; rfl

theorem implLoop_prefix (is : List Nat) (s : σ) : (ops.implLoop is s).1 <+: is.map LoadEvent.impl := by
  induction is generalizing s with
  | nil => simp [implLoop]
  | cons i is ih =>
    unfold implLoop
    cases h : ops.impl i s with
    | mk s1 b =>
      cases b with
      | false => simp
      | true => simp only [List.map_cons, List.prefix_cons_inj]; exact ih s1

theorem implLoop_done (is : List Nat) (s s1 : σ) (e : List LoadEvent) (h : ops.implLoop is s = (e, s1, true)) :
    e = is.map LoadEvent.impl := by
  induction is generalizing s e with
  | nil => simp [implLoop] at h; simp [h.1]
  | cons i is ih =>
    unfold implLoop at h
    cases hl : ops.impl i s with
    | mk s2 b =>
      cases b with
      | false => rw [hl] at h; simp at h
      | true =>
        rw [hl] at h
        simp only [Prod.mk.injEq] at h
        have := ih s2 (ops.implLoop is s2).1 (by rw [← h.2])
        rw [← h.1, this]; rfl

variable (u : Uni)

/-- `it` gives an iteration order of the set of names -/
def IterOK (it : List UParser → List Str) : Prop := ∀ m, (it m).Perm (UnitParsers.unitNames u m).keys

/-- The steps of every run, successful or not: the steps of the three phases, in this order, where the second and
third phase go through the units in an order in which used units come first. -/
theorem loadUnits_shape (lib : TopoLib) (hlib : TopoCorrect lib) (it : List UParser → List Str) (hit : IterOK u it)
    (n : Nat) (s : σ) (evs : List LoadEvent) (s' : σ) (ok : Bool)
    (h : ops.loadUnits u lib it n s = (evs, s', ok)) :
    -- stopped while reading the headers, or cyclic
    (evs <+: (List.range n).flatMap (fun i => [.load i, .ident i, .addUnit i]) ∧ ok = false) ∨
    ∃ s1, (ops.identLoop (List.range n) s).2 = (s1, true) ∧ (DistinctNames u (ops.parsers n s1) →
      ∃ r : List UParser, r.Perm (ops.parsers n s1) ∧ (∀ p q, Uses u (ops.parsers n s1) p q → InFront r q p) ∧
        evs <+: (List.range n).flatMap (fun i => [.load i, .ident i, .addUnit i]) ++
          (r.map UParser.id).map .intf ++ (r.map UParser.id).map .impl ∧
        (ok = true → evs = (List.range n).flatMap (fun i => [.load i, .ident i, .addUnit i]) ++
          (r.map UParser.id).map .intf ++ (r.map UParser.id).map .impl)) := by
  unfold loadUnits at h
  have hp := identLoop_prefix ops (List.range n) s
  cases h1 : ops.identLoop (List.range n) s with
  | mk e1 r1 =>
    obtain ⟨s1, b1⟩ := r1
    rw [h1] at h hp
    cases b1 with
    | false =>
      simp only [Prod.mk.injEq] at h
      left; exact ⟨h.1 ▸ hp, h.2.2.symm⟩
    | true =>
      have he1 := identLoop_done ops _ _ _ _ h1
      simp only at h
      cases hs : UnitParsers.sort u lib (it (ops.parsers n s1)) (ops.parsers n s1) with
      | none =>
        rw [hs] at h
        simp only [Prod.mk.injEq] at h
        left; exact ⟨h.1 ▸ hp, h.2.2.symm⟩
      | some r =>
        right
        refine ⟨s1, by simp, fun hd => ⟨r, ?_⟩⟩
        obtain ⟨hr1, hr2⟩ := (C26_sort_partial u lib hlib _ hd _ (hit _)).1 r hs
        refine ⟨hr1, hr2, ?_⟩
        rw [hs] at h
        simp only at h
        have p2 := intfLoop_prefix ops (r.map UParser.id) s1
        cases h2 : ops.intfLoop (r.map UParser.id) s1 with
        | mk e2 r2 =>
          obtain ⟨s2, b2⟩ := r2
          rw [h2] at h p2
          cases b2 with
          | false =>
            simp only [Prod.mk.injEq] at h
            obtain ⟨h3, _, h5⟩ := h
            refine ⟨?_, by rw [← h5]; simp⟩
            rw [← h3, he1, List.append_assoc]
            exact (List.prefix_append_right_inj _).2 (p2.trans (List.prefix_append _ _))
          | true =>
            have he2 := intfLoop_done ops _ _ _ _ h2
            simp only [Prod.mk.injEq] at h
            obtain ⟨h3, h4⟩ := h
            rw [← h3, he1, he2]
            refine ⟨(List.prefix_append_right_inj _).2 (implLoop_prefix ops _ _), ?_⟩
            intro hok
            rw [implLoop_done ops (r.map UParser.id) s2 s' (ops.implLoop (r.map UParser.id) s2).1]
            rw [← hok, ← h4]

/-- position facts about a prefix of a list -/
theorem before_in_prefix {α : Type} {l full pre post : List α} {a : α} (h : l <+: full) (he : l = pre ++ a :: post) :
    ∃ post', full = pre ++ a :: post' := by
  obtain ⟨t, rfl⟩ := h
  exact ⟨post ++ t, by rw [he]; simp⟩

theorem split_unique {α : Type} [DecidableEq α] {pre post pre' post' : List α} {a : α}
    (h : pre ++ a :: post = pre' ++ a :: post') (hn : (pre ++ a :: post).Nodup) : pre = pre' := by
  induction pre generalizing pre' with
  | nil =>
    cases pre' with
    | nil => rfl
    | cons x pre' =>
      simp only [List.nil_append, List.cons_append, List.cons.injEq] at h
      rw [List.nil_append, List.nodup_cons] at hn
      exact absurd (by rw [h.2]; simp) hn.1
  | cons y pre ih =>
    cases pre' with
    | nil =>
      simp only [List.cons_append, List.nil_append, List.cons.injEq] at h
      rw [List.cons_append, List.nodup_cons] at hn
      exact absurd (by rw [h.1]; simp) hn.1
    | cons x pre' =>
      simp only [List.cons_append, List.cons.injEq] at h
      rw [List.cons_append, List.nodup_cons] at hn
      rw [h.1, ih h.2 hn.2]

theorem nodup_range_flat (is : List Nat) (h : is.Nodup) :
    (is.flatMap (fun i => [LoadEvent.load i, .ident i, .addUnit i])).Nodup := by
  induction is with
  | nil => simp
  | cons i is ih =>
    rw [List.nodup_cons] at h
    rw [List.flatMap_cons, List.nodup_append]
    refine ⟨by simp, ih h.2, ?_⟩
    intro a ha b hb hab
    subst hab
    simp only [List.mem_flatMap, List.mem_cons, List.not_mem_nil, or_false] at ha hb
    obtain ⟨j, hj, hb⟩ := hb
    have : i = j := by
      rcases ha with rfl | rfl | rfl <;> rcases hb with hb | hb | hb <;> cases hb <;> rfl
    exact h.1 (this ▸ hj)

theorem full_nodup (n : Nat) (ids : List Nat) (h : ids.Nodup) :
    ((List.range n).flatMap (fun i => [LoadEvent.load i, .ident i, .addUnit i]) ++ ids.map LoadEvent.intf ++
      ids.map LoadEvent.impl).Nodup := by
  rw [List.nodup_append, List.nodup_append]
  refine ⟨⟨nodup_range_flat _ List.nodup_range, ?_, ?_⟩, ?_, ?_⟩
  · exact List.Pairwise.map _ (fun a b hab h => hab (by cases h; rfl)) h
  · intro a ha b hb hab
    subst hab
    simp only [List.mem_flatMap, List.mem_cons, List.not_mem_nil, or_false, List.mem_map] at ha hb
    obtain ⟨j, _, rfl⟩ := hb
    obtain ⟨i, _, ha⟩ := ha
    rcases ha with ha | ha | ha <;> cases ha
  · exact List.Pairwise.map _ (fun a b hab h => hab (by cases h; rfl)) h
  · intro a ha b hb hab
    subst hab
    simp only [List.mem_append, List.mem_flatMap, List.mem_cons, List.not_mem_nil, or_false, List.mem_map] at ha hb
    obtain ⟨j, _, rfl⟩ := hb
    rcases ha with ⟨i, _, ha⟩ | ⟨i, _, ha⟩
    · rcases ha with ha | ha | ha <;> cases ha
    · cases ha

theorem ids_perm (n : Nat) (s : σ) (r : List UParser) (h : r.Perm (ops.parsers n s)) :
    (r.map UParser.id).Perm (List.range n) := by
  have := h.map UParser.id
  have e : (ops.parsers n s).map UParser.id = List.range n := by simp [parsers, Function.comp_def]
  rwa [e] at this

/-- For every program: whatever the steps do, for every prefix of the run
* when the interface body of unit `i` is processed, those of all loaded units it uses have been processed;
* when an implementation is processed, all interface bodies have been processed;
* no step is done twice;
* a successful run has processed the interface body and the implementation of every unit.
Missing for the full claim: units with the same name, see `C27_refuted`. -/
theorem C27_phases_partial (lib : TopoLib) (hlib : TopoCorrect lib) (it : List UParser → List Str) (hit : IterOK u it)
    (n : Nat) (s : σ) (evs : List LoadEvent) (s' : σ) (ok : Bool) (h : ops.loadUnits u lib it n s = (evs, s', ok))
    (hd : ∀ s1, (ops.identLoop (List.range n) s).2 = (s1, true) → DistinctNames u (ops.parsers n s1)) :
    evs.Nodup ∧
    (∀ pre post i, evs = pre ++ .intf i :: post →
      ∃ s1, (ops.identLoop (List.range n) s).2 = (s1, true) ∧
        ∀ j < n, (∃ x ∈ (ops.info s1 i).2, u.toLower x = u.toLower (ops.info s1 j).1) → .intf j ∈ pre) ∧
    (∀ pre post i, evs = pre ++ .impl i :: post → ∀ j < n, .intf j ∈ pre) ∧
    (ok = true → ∀ j < n, .intf j ∈ evs ∧ .impl j ∈ evs) := by
  rcases loadUnits_shape ops u lib hlib it hit n s evs s' ok h with ⟨hp, hok⟩ | ⟨s1, hs1, hr⟩
  · have hno : ∀ i, LoadEvent.intf i ∉ evs ∧ LoadEvent.impl i ∉ evs := by
      intro i
      constructor <;> intro hi <;> have := hp.subset hi <;> simp at this
    refine ⟨hp.sublist.nodup (nodup_range_flat _ List.nodup_range), ?_, ?_, by rw [hok]; simp⟩
    · intro pre post i he
      exact absurd (by rw [he]; simp) (hno i).1
    · intro pre post i he
      exact absurd (by rw [he]; simp) (hno i).2
  · obtain ⟨r, hperm, hdep, hpre, hfull⟩ := hr (hd s1 hs1)
    have hids := ids_perm ops n s1 r hperm
    have hnd := full_nodup n (r.map UParser.id) (hids.nodup_iff.2 List.nodup_range)
    refine ⟨hpre.sublist.nodup hnd, ?_, ?_, ?_⟩
    · intro pre post i he
      refine ⟨s1, hs1, ?_⟩
      intro j hj ⟨x, hx, hxj⟩
      obtain ⟨post', hf⟩ := before_in_prefix hpre he
      -- `i` is one of the units
      have hi : i < n := by
        have : LoadEvent.intf i ∈ (List.range n).flatMap (fun i => [LoadEvent.load i, .ident i, .addUnit i]) ++
          (r.map UParser.id).map .intf ++ (r.map UParser.id).map .impl := by rw [hf]; simp
        simp only [List.mem_append, List.mem_flatMap, List.mem_cons, List.not_mem_nil, or_false, List.mem_map] at this
        rcases this with (⟨k, _, h⟩ | ⟨k, ⟨p, hp, rfl⟩, h⟩) | ⟨k, _, h⟩
        · rcases h with h | h | h <;> cases h
        · cases h
          have : p.id ∈ List.range n := hids.mem_iff.1 (List.mem_map.2 ⟨p, hp, rfl⟩)
          simpa using this
        · cases h
      have hmem : ∀ k < n, (⟨k, (ops.info s1 k).1, (ops.info s1 k).2⟩ : UParser) ∈ ops.parsers n s1 := by
        intro k hk
        exact List.mem_map.2 ⟨k, List.mem_range.2 hk, rfl⟩
      obtain ⟨l₁, l₂, l₃, hl⟩ := hdep ⟨i, (ops.info s1 i).1, (ops.info s1 i).2⟩
        ⟨j, (ops.info s1 j).1, (ops.info s1 j).2⟩ ⟨hmem i hi, hmem j hj, x, hx, hxj⟩
      have : pre = (List.range n).flatMap (fun i => [LoadEvent.load i, .ident i, .addUnit i]) ++
          (l₁ ++ ⟨j, (ops.info s1 j).1, (ops.info s1 j).2⟩ :: l₂).map (fun p => .intf p.id) := by
        refine split_unique (post := post') (post' := l₃.map (fun p => .intf p.id) ++ (r.map UParser.id).map .impl)
          (a := .intf i) ?_ (by rw [← hf]; exact hnd)
        rw [← hf, hl]
        simp [Function.comp_def]
      rw [this]
      simp
    · intro pre post i he j hj
      obtain ⟨post', hf⟩ := before_in_prefix hpre he
      have hi : LoadEvent.impl i ∈ (r.map UParser.id).map LoadEvent.impl := by
        have : LoadEvent.impl i ∈ (List.range n).flatMap (fun i => [LoadEvent.load i, .ident i, .addUnit i]) ++
          (r.map UParser.id).map .intf ++ (r.map UParser.id).map .impl := by rw [hf]; simp
        rcases List.mem_append.1 this with h | h
        · simp only [List.mem_append, List.mem_flatMap, List.mem_cons, List.not_mem_nil, or_false, List.mem_map] at h
          rcases h with ⟨k, _, h⟩ | ⟨k, _, h⟩
          · rcases h with h | h | h <;> cases h
          · cases h
        · exact h
      obtain ⟨a, b, hab⟩ := List.append_of_mem hi
      have : pre = (List.range n).flatMap (fun i => [LoadEvent.load i, .ident i, .addUnit i]) ++
          (r.map UParser.id).map .intf ++ a := by
        refine split_unique (post := post') (post' := b) (a := .impl i) ?_ (by rw [← hf]; exact hnd)
        rw [← hf, hab]; simp
      rw [this]
      have hjr : j ∈ r.map UParser.id := hids.mem_iff.2 (List.mem_range.2 hj)
      exact List.mem_append_left _ (List.mem_append_right _ (List.mem_map.2 ⟨j, hjr, rfl⟩))
    · intro hok j hj
      have hjr : j ∈ r.map UParser.id := hids.mem_iff.2 (List.mem_range.2 hj)
      rw [hfull hok]
      constructor
      · exact List.mem_append_left _ (List.mem_append_right _ (List.mem_map.2 ⟨j, hjr, rfl⟩))
      · exact List.mem_append_right _ (List.mem_map.2 ⟨j, hjr, rfl⟩)

end

/-- two files that both declare `unit A` (`program P; uses A in 'a.pas', B in 'b.pas';`) -/
def dupOps : LoadOps Unit where
  load _ s := (s, true)
  ident _ s := (s, true)
  addUnit _ s := s
  intf _ s := (s, true)
  impl _ s := (s, true)
  info _ _ := (r!"A", [])

/-- If two files declare the same unit, all steps succeed but the first file is never processed. -/
theorem C27_refuted : ∃ (lib : TopoLib) (it : List UParser → List Str), TopoCorrect lib ∧ IterOK asciiUni it ∧
    (dupOps.loadUnits asciiUni lib it 2 ()).2.2 = true ∧
    LoadEvent.intf 0 ∉ (dupOps.loadUnits asciiUni lib it 2 ()).1 ∧
    LoadEvent.impl 0 ∉ (dupOps.loadUnits asciiUni lib it 2 ()).1 :=
  ⟨kahnLib, fun m => (UnitParsers.unitNames asciiUni m).keys, kahnLib_correct, fun _ => List.Perm.refl _,
    by decide, by decide, by decide⟩

/-- steps without effect, units as in `exUnits` -/
def exOps : LoadOps Unit where
  load _ s := (s, true)
  ident _ s := (s, true)
  addUnit _ s := s
  intf _ s := (s, true)
  impl _ s := (s, true)
  info _ i := (exUnits[i]?.map (fun p => (p.name, p.uses))).getD ([], [])

example : IterOK asciiUni (fun m => (UnitParsers.unitNames asciiUni m).keys) := fun _ => List.Perm.refl _

example : (exOps.loadUnits asciiUni kahnLib (fun m => (UnitParsers.unitNames asciiUni m).keys) 3 ()).1 =
    [.load 0, .ident 0, .addUnit 0, .load 1, .ident 1, .addUnit 1, .load 2, .ident 2, .addUnit 2,
      .intf 1, .intf 0, .intf 2, .impl 1, .impl 0, .impl 2] := by decide

end TP.Props
