import Verif.Spec.Topo
import Verif.Props.C15

/-!
# C26: units are ordered by dependency
-/

namespace TP.Props
open TP TP.Spec TP.UnitParsers

section
variable (u : Uni)

/-! ### the loops of the model in closed form -/

theorem foldl_append_map {α β : Type} (f : α → β) (l : List α) (r : List β) :
    l.foldl (fun r a => r ++ [f a]) r = r ++ l.map f := by
  induction l generalizing r with
  | nil => simp
  | cons a l ih => simp [ih]

theorem edges_eq_aux (m : List UParser) (r : List (Str × Str)) :
    m.foldl (fun r p => p.uses.foldl (fun r n => r ++ [(u.toLower n, u.toLower p.name)]) r) r =
      r ++ m.flatMap (fun p => p.uses.map (fun n => (u.toLower n, u.toLower p.name))) := by
  induction m generalizing r with
  | nil => simp
  | cons p m ih =>
    rw [List.foldl_cons, foldl_append_map (fun n => (u.toLower n, u.toLower p.name)), ih]; simp

theorem edges_eq (m : List UParser) :
    edges u m = m.flatMap (fun p => p.uses.map (fun n => (u.toLower n, u.toLower p.name))) := by
  unfold edges; rw [edges_eq_aux]; simp

theorem names_eq_aux (m : List UParser) (r : List Str) :
    m.foldl (fun r p => p.uses.foldl (fun r n => r ++ [u.toLower n]) (r ++ [u.toLower p.name])) r =
      r ++ m.flatMap (fun p => u.toLower p.name :: p.uses.map u.toLower) := by
  induction m generalizing r with
  | nil => simp
  | cons p m ih => rw [List.foldl_cons, foldl_append_map, ih]; simp

theorem mem_unitNames (m : List UParser) (s : Str) :
    s ∈ (unitNames u m).keys ↔ ∃ p ∈ m, s = u.toLower p.name ∨ ∃ n ∈ p.uses, s = u.toLower n := by
  unfold unitNames Strings.set
  rw [names_eq_aux]
  have h := (C15_new (m.flatMap (fun p => u.toLower p.name :: p.uses.map u.toLower)) s)
  rw [List.nil_append]
  simp only [StringSet.includes, List.contains_iff_mem] at h
  rw [h]
  simp only [List.mem_flatMap, List.mem_cons, List.mem_map]
  constructor
  · rintro ⟨p, hp, h | ⟨n, hn, h⟩⟩
    · exact ⟨p, hp, Or.inl h⟩
    · exact ⟨p, hp, Or.inr ⟨n, hn, h.symm⟩⟩
  · rintro ⟨p, hp, h | ⟨n, hn, h⟩⟩
    · exact ⟨p, hp, Or.inl h⟩
    · exact ⟨p, hp, Or.inr ⟨n, hn, h.symm⟩⟩

theorem unitNames_nodup (m : List UParser) : (unitNames u m).keys.Nodup := by
  unfold unitNames Strings.set StringSet.new
  have key : ∀ (l : List Str) (s : StringSet), s.keys.Nodup → (l.foldl StringSet.add s).keys.Nodup := by
    intro l
    induction l with
    | nil => intro s h; exact h
    | cons a l ih => intro s h; exact ih _ (nodup_add h a)
  exact key _ _ List.nodup_nil

theorem map_lookup_aux (m : List UParser) (r : List (Str × UParser)) (s : Str) :
    (m.foldl (fun r p => (u.toLower p.name, p) :: r.filter (fun e => e.1 ≠ u.toLower p.name)) r).lookup s =
      ((m.reverse.find? (fun p => u.toLower p.name = s))).or (r.lookup s) := by
  induction m generalizing r with
  | nil => simp
  | cons p m ih =>
    rw [List.foldl_cons, ih, List.reverse_cons, List.find?_append]
    cases hf : m.reverse.find? (fun p => u.toLower p.name = s) with
    | some q => simp
    | none =>
      simp only [Option.none_or]
      by_cases h : u.toLower p.name = s
      · subst h; simp [List.lookup]
      · have h2 : (s == u.toLower p.name) = false := by simpa using fun e => h e.symm
        rw [List.lookup_cons, h2]
        simp only [List.find?_cons, h, decide_false, List.find?_nil, Option.none_or]
        clear ih hf
        induction r with
        | nil => rfl
        | cons e r ihr =>
          by_cases he : e.1 = u.toLower p.name
          · have h3 : (s == e.1) = false := by rw [he]; exact h2
            rw [List.filter_cons]
            simp only [he, ne_eq, not_true_eq_false, decide_false, Bool.false_eq_true, if_false]
            rw [ihr]
            obtain ⟨k, v⟩ := e
            rw [List.lookup_cons]
            simp only at h3
            rw [h3]
          · rw [List.filter_cons]
            simp only [ne_eq, he, not_false_eq_true, decide_true, if_true]
            obtain ⟨k, v⟩ := e
            rw [List.lookup_cons, List.lookup_cons, ihr]

theorem map_lookup (m : List UParser) (hd : (m.map (fun p => u.toLower p.name)).Nodup) (s : Str) (p : UParser) :
    (map u m).lookup s = some p ↔ p ∈ m ∧ u.toLower p.name = s := by
  unfold UnitParsers.map
  rw [map_lookup_aux]
  simp only [List.lookup_nil, Option.or_none]
  constructor
  · intro h
    exact ⟨List.mem_reverse.1 (List.mem_of_find?_eq_some h), by simpa using List.find?_some h⟩
  · rintro ⟨hp, hs⟩
    cases hf : m.reverse.find? (fun p => u.toLower p.name = s) with
    | none =>
      have := List.find?_eq_none.1 hf p (List.mem_reverse.2 hp)
      simp [hs] at this
    | some q =>
      have hq := List.mem_reverse.1 (List.mem_of_find?_eq_some hf)
      have hqs : u.toLower q.name = s := by simpa using List.find?_some hf
      have : ∀ (l : List UParser), (l.map (fun p => u.toLower p.name)).Nodup → p ∈ l → q ∈ l →
          u.toLower p.name = u.toLower q.name → q = p := by
        intro l
        induction l with
        | nil => intro _ h; cases h
        | cons x l ih =>
          intro hn h1 h2 he
          rw [List.map_cons, List.nodup_cons] at hn
          rcases List.mem_cons.1 h1 with k1 | k1 <;> rcases List.mem_cons.1 h2 with k2 | k2
          · rw [k1, k2]
          · exact absurd (List.mem_map.2 ⟨q, k2, by rw [← he, k1]⟩) hn.1
          · exact absurd (List.mem_map.2 ⟨p, k1, by rw [he, k2]⟩) hn.1
          · exact ih hn.2 k1 k2 he
      rw [this m hd hp hq (hs.trans hqs.symm)]

theorem collect_eq (tbl : List (Str × UParser)) (order : List Str) :
    collect tbl order = order.filterMap (fun n => tbl.lookup n) := by
  induction order with
  | nil => rfl
  | cons n order ih =>
    unfold collect
    cases h : tbl.lookup n with
    | none => simp [h, ih]
    | some p => simp [h, ih]

/-! ### the graph has no repeated edges and all end points are nodes -/

theorem edges_nodup (m : List UParser) (hd : DistinctNames u m) : (edges u m).Nodup := by
  rw [edges_eq]
  obtain ⟨h1, h2⟩ := hd
  induction m with
  | nil => simp
  | cons p m ih =>
    rw [List.map_cons, List.nodup_cons] at h1
    rw [List.flatMap_cons, List.nodup_append]
    refine ⟨?_, ih h1.2 (fun q hq => h2 q (List.mem_cons_of_mem _ hq)), ?_⟩
    · have := h2 p List.mem_cons_self
      have hm : p.uses.map (fun n => (u.toLower n, u.toLower p.name)) =
          (p.uses.map u.toLower).map (fun n => (n, u.toLower p.name)) := by simp
      rw [hm]
      exact List.Pairwise.map _ (fun a b hab h => hab (by cases h; rfl)) this
    · intro a ha b hb hab
      subst hab
      simp only [List.mem_map, List.mem_flatMap] at ha hb
      obtain ⟨n, _, rfl⟩ := ha
      obtain ⟨q, hq, k, _, he⟩ := hb
      simp only [Prod.mk.injEq] at he
      exact h1.1 (List.mem_map.2 ⟨q, hq, he.2⟩)

theorem edges_nodes (m : List UParser) (it : List Str) (hi : it.Perm (unitNames u m).keys) :
    ∀ e ∈ edges u m, e.1 ∈ it ∧ e.2 ∈ it := by
  intro e he
  rw [edges_eq] at he
  simp only [List.mem_flatMap, List.mem_map] at he
  obtain ⟨p, hp, n, hn, rfl⟩ := he
  rw [hi.mem_iff, hi.mem_iff, mem_unitNames, mem_unitNames]
  exact ⟨⟨p, hp, Or.inr ⟨n, hn, rfl⟩⟩, ⟨p, hp, Or.inl rfl⟩⟩

/-! ### the result -/

/-- an order without repetitions that respects a relation excludes circles -/
theorem front_acyclic {α : Type} [DecidableEq α] {l : List α} (hl : l.Nodup) {r : α → α → Prop}
    (h : ∀ a b, r a b → InFront l b a) : ¬ Cyclic r := by
  rintro ⟨a, ha⟩
  have base : ∀ {a b}, r a b → l.idxOf b < l.idxOf a := by
    intro a b hab
    obtain ⟨l₁, l₂, l₃, rfl⟩ := h a b hab
    rw [List.append_assoc, List.cons_append, List.nodup_append] at hl
    obtain ⟨_, h2, h3⟩ := hl
    rw [List.nodup_cons] at h2
    have hb1 : b ∉ l₁ := fun h => h3 b h b (by simp) rfl
    have ha1 : a ∉ l₁ := fun h => h3 a h a (by simp) rfl
    have hba : b ≠ a := fun h => h2.1 (by rw [h]; simp)
    rw [List.append_assoc, List.idxOf_append (l₁ := l₁), List.idxOf_append (l₁ := l₁) (a := a), if_neg ha1, if_neg hb1]
    simp only [List.cons_append, List.idxOf_cons_self]
    rw [List.idxOf_cons, show (b == a) = false by simpa using hba]
    simp only [cond_false]
    omega
  have : ∀ {b}, Relation.TransGen r a b → l.idxOf b < l.idxOf a := by
    intro b h
    induction h with
    | single h => exact base h
    | tail _ h ih => exact Nat.lt_trans (base h) ih
  exact Nat.lt_irrefl _ (this ha)

/-- if units are sorted, no chain of uses clauses leads from a name back to it, also if units have the same name -/
theorem sort_acyclic (lib : TopoLib) (hlib : TopoCorrect lib) (m : List UParser) (it : List Str)
    (hi : it.Perm (unitNames u m).keys) {r : List UParser} (h : sort u lib it m = some r) :
    ¬ Cyclic (fun a b => ∃ p ∈ m, ∃ n ∈ p.uses, u.toLower p.name = a ∧ u.toLower n = b) := by
  have hnd : it.Nodup := hi.nodup_iff.2 (unitNames_nodup u m)
  have hslice : StringSet.slice it = it := by
    unfold StringSet.slice
    rw [foldl_append_map (fun x => x)]; simp
  have hc := hlib it (edges u m) hnd (edges_nodes u m it hi)
  unfold UnitParsers.sort at h
  rw [hslice] at h
  cases hs : lib.sort it (edges u m) with
  | none => rw [hs] at h; cases h
  | some order =>
    rw [hs] at hc
    refine front_acyclic (hc.1.nodup_iff.2 hnd) ?_
    rintro a b ⟨p, hp, n, hn, rfl, rfl⟩
    refine hc.2 (u.toLower n, u.toLower p.name) ?_
    rw [edges_eq]
    simp only [List.mem_flatMap, List.mem_map, Prod.mk.injEq]
    exact ⟨p, hp, n, hn, rfl, rfl⟩

theorem nodup_filterMap {α β : Type} (f : α → Option β) (hf : ∀ a b x, f a = some x → f b = some x → a = b)
    (l : List α) (h : l.Nodup) : (l.filterMap f).Nodup := by
  induction l with
  | nil => simp
  | cons a l ih =>
    rw [List.nodup_cons] at h
    cases ha : f a with
    | none => rw [List.filterMap_cons_none ha]; exact ih h.2
    | some x =>
      rw [List.filterMap_cons_some ha, List.nodup_cons]
      refine ⟨?_, ih h.2⟩
      rw [List.mem_filterMap]
      rintro ⟨b, hb, hbx⟩
      exact h.1 (hf a b x ha hbx ▸ hb)

theorem inFront_filterMap {α β : Type} (f : α → Option β) (l : List α) (a b : α) (x y : β) (ha : f a = some x)
    (hb : f b = some y) (h : InFront l a b) : InFront (l.filterMap f) x y := by
  obtain ⟨l₁, l₂, l₃, rfl⟩ := h
  refine ⟨l₁.filterMap f, l₂.filterMap f, l₃.filterMap f, ?_⟩
  simp [List.filterMap_append, ha, hb]

/-- Main theorem: for every list of units with distinct names, every iteration order of the set of names and every
correct graph library, `Sort` returns the units in some order (each exactly once), every unit after all loaded units
it uses, or fails; and it fails exactly if the dependencies are cyclic.  Missing for the full claim: units with the
same name, see `C26_refuted`. -/
theorem C26_sort_partial (lib : TopoLib) (hlib : TopoCorrect lib) (m : List UParser) (hd : DistinctNames u m)
    (it : List Str) (hi : it.Perm (unitNames u m).keys) :
    (∀ r, sort u lib it m = some r → r.Perm m ∧ ∀ p q, Uses u m p q → InFront r q p) ∧
    (sort u lib it m = none ↔ Cyclic (Uses u m)) := by
  have hnd : it.Nodup := hi.nodup_iff.2 (unitNames_nodup u m)
  have hslice : StringSet.slice it = it := by
    unfold StringSet.slice
    rw [foldl_append_map (fun x => x)]; simp
  have hc := hlib it (edges u m) hnd (edges_nodes u m it hi)
  have hmem : ∀ a b, (a, b) ∈ edges u m ↔ ∃ p ∈ m, ∃ n ∈ p.uses, a = u.toLower n ∧ b = u.toLower p.name := by
    intro a b
    rw [edges_eq]
    simp only [List.mem_flatMap, List.mem_map, Prod.mk.injEq]
    constructor
    · rintro ⟨p, hp, n, hn, h1, h2⟩; exact ⟨p, hp, n, hn, h1.symm, h2.symm⟩
    · rintro ⟨p, hp, n, hn, h1, h2⟩; exact ⟨p, hp, n, hn, h1.symm, h2.symm⟩
  -- a cycle of the graph is a cycle of the units
  have hcyc : Cyclic (fun a b => (a, b) ∈ edges u m) → Cyclic (Uses u m) := by
    rintro ⟨a, ha⟩
    -- every node with an incoming edge is a unit
    have step : ∀ {a b}, (a, b) ∈ edges u m → ∃ p ∈ m, b = u.toLower p.name := by
      intro a b h
      obtain ⟨p, hp, _, _, _, h2⟩ := (hmem a b).1 h
      exact ⟨p, hp, h2⟩
    have key : ∀ {a b : Str}, Relation.TransGen (fun a b => (a, b) ∈ edges u m) a b →
        ∀ q ∈ m, a = u.toLower q.name → ∃ p ∈ m, b = u.toLower p.name ∧ Relation.TransGen (Uses u m) p q := by
      intro a b h
      induction h with
      | single h =>
        intro q hq hqa
        obtain ⟨p, hp, n, hn, h1, h2⟩ := (hmem _ _).1 h
        exact ⟨p, hp, h2, .single ⟨hp, hq, n, hn, h1.symm.trans hqa⟩⟩
      | tail _ h ih =>
        intro q hq hqa
        obtain ⟨p, hp, hb, hpq⟩ := ih q hq hqa
        obtain ⟨p', hp', n, hn, h1, h2⟩ := (hmem _ _).1 h
        have huse : Uses u m p' p := ⟨hp', hp, n, hn, h1.symm.trans hb⟩
        refine ⟨p', hp', h2, ?_⟩
        exact Relation.TransGen.trans (.single huse) hpq
    have hend : ∃ q ∈ m, a = u.toLower q.name := by
      cases ha with
      | single h => exact step h
      | tail _ h => exact step h
    obtain ⟨q, hq, hqa⟩ := hend
    obtain ⟨p, hp, hpa, ht⟩ := key ha q hq hqa
    have : p = q := by
      have h1 := (map_lookup u m hd.1 a p).2 ⟨hp, hpa.symm⟩
      have h2 := (map_lookup u m hd.1 a q).2 ⟨hq, hqa.symm⟩
      rw [h1] at h2; injection h2
    subst this
    exact ⟨p, ht⟩
  -- a respected order excludes cycles
  have hacyc : ∀ l : List Str, l.Nodup → (∀ e ∈ edges u m, InFront l e.1 e.2) → ¬ Cyclic (Uses u m) := by
    intro l hl he ⟨p, hp⟩
    have hlt : ∀ {p q}, Relation.TransGen (Uses u m) p q →
        l.idxOf (u.toLower q.name) < l.idxOf (u.toLower p.name) := by
      have base : ∀ {p q}, Uses u m p q → l.idxOf (u.toLower q.name) < l.idxOf (u.toLower p.name) := by
        rintro p q ⟨hp, hq, n, hn, hnq⟩
        have hin := he (u.toLower q.name, u.toLower p.name) ((hmem _ _).2 ⟨p, hp, n, hn, hnq.symm, rfl⟩)
        obtain ⟨l₁, l₂, l₃, rfl⟩ := hin
        simp only at hl ⊢
        generalize u.toLower q.name = a at hl ⊢
        generalize u.toLower p.name = b at hl ⊢
        rw [List.append_assoc, List.cons_append, List.nodup_append] at hl
        obtain ⟨_, h2, h3⟩ := hl
        rw [List.nodup_cons] at h2
        have ha1 : a ∉ l₁ := fun h => h3 a h a (by simp) rfl
        have hb1 : b ∉ l₁ := fun h => h3 b h b (by simp) rfl
        have hab : a ≠ b := fun h => h2.1 (by rw [h]; simp)
        rw [List.append_assoc, List.idxOf_append (l₁ := l₁), List.idxOf_append (l₁ := l₁) (a := b), if_neg ha1, if_neg hb1]
        simp only [List.cons_append, List.idxOf_cons_self]
        rw [List.idxOf_cons, show (a == b) = false by simpa using hab]
        simp only [cond_false]
        omega
      intro p q h
      induction h with
      | single h => exact base h
      | tail _ h ih => exact Nat.lt_trans (base h) ih
    exact Nat.lt_irrefl _ (hlt hp)
  unfold UnitParsers.sort
  rw [hslice]
  cases hs : lib.sort it (edges u m) with
  | none =>
    rw [hs] at hc
    refine ⟨by simp, by simpa using hcyc (hc (edges_nodup u m hd))⟩
  | some order =>
    rw [hs] at hc
    obtain ⟨hperm, hfront⟩ := hc
    have hord : order.Nodup := hperm.nodup_iff.2 hnd
    simp only [Option.some.injEq, reduceCtorEq, false_iff]
    refine ⟨?_, hacyc order hord hfront⟩
    rintro r rfl
    rw [collect_eq]
    constructor
    · -- every unit exactly once
      rw [List.perm_ext_iff_of_nodup]
      · intro p
        rw [List.mem_filterMap]
        constructor
        · rintro ⟨n, _, h⟩; exact ((map_lookup u m hd.1 n p).1 h).1
        · intro hp
          refine ⟨u.toLower p.name, ?_, (map_lookup u m hd.1 _ p).2 ⟨hp, rfl⟩⟩
          rw [hperm.mem_iff, hi.mem_iff, mem_unitNames]
          exact ⟨p, hp, Or.inl rfl⟩
      · refine nodup_filterMap _ ?_ _ hord
        intro a b p ha hb
        rw [← ((map_lookup u m hd.1 _ p).1 ha).2, ← ((map_lookup u m hd.1 _ p).1 hb).2]
      · exact List.Pairwise.of_map _ (fun a b h e => h (by rw [e])) hd.1
    · rintro p q ⟨hp, hq, n, hn, hnq⟩
      refine inFront_filterMap _ order (u.toLower q.name) (u.toLower p.name) q p ?_ ?_ ?_
      · exact (map_lookup u m hd.1 _ q).2 ⟨hq, rfl⟩
      · exact (map_lookup u m hd.1 _ p).2 ⟨hp, rfl⟩
      · exact hfront _ ((hmem _ _).2 ⟨p, hp, n, hn, hnq.symm, rfl⟩)

/-! ### the contract of the library can be met -/

/-- in a finite set in which every element has a predecessor there is a cycle -/
theorem cycle_of_preds {α : Type} [DecidableEq α] (n : Nat) : ∀ (S : List α) (r : α → α → Prop), S.length = n →
    S ≠ [] → (∀ y ∈ S, ∃ x ∈ S, r x y) → Cyclic r := by
  induction n with
  | zero => intro S r hl hne; exact absurd (List.length_eq_zero_iff.1 hl) hne
  | succ n ih =>
    intro S r hl hne hp
    cases S with
    | nil => exact absurd rfl hne
    | cons a S =>
      by_cases haa : r a a
      · exact ⟨a, .single haa⟩
      · cases S with
        | nil =>
          obtain ⟨x, hx, h⟩ := hp a (by simp)
          simp only [List.mem_singleton] at hx
          subst hx; exact absurd h haa
        | cons b S =>
          have := ih (b :: S) (fun x y => r x y ∨ (r x a ∧ r a y)) (by simpa using hl) (by simp) ?_
          · obtain ⟨c, hc⟩ := this
            refine ⟨c, ?_⟩
            have mono : ∀ {x y}, Relation.TransGen (fun x y => r x y ∨ (r x a ∧ r a y)) x y →
                Relation.TransGen r x y := by
              intro x y h
              have one : ∀ {x y}, (r x y ∨ (r x a ∧ r a y)) → Relation.TransGen r x y := by
                rintro x y (h | ⟨h1, h2⟩)
                · exact .single h
                · exact .tail (.single h1) h2
              induction h with
              | single h => exact one h
              | tail _ h ih => exact Relation.TransGen.trans ih (one h)
            exact mono hc
          · intro y hy
            obtain ⟨x, hx, h⟩ := hp y (List.mem_cons_of_mem _ hy)
            rcases List.mem_cons.1 hx with rfl | hx
            · obtain ⟨z, hz, hza⟩ := hp x List.mem_cons_self
              rcases List.mem_cons.1 hz with rfl | hz
              · exact absurd hza haa
              · exact ⟨z, hz, Or.inr ⟨hza, h⟩⟩
            · exact ⟨x, hx, Or.inl h⟩

theorem kahn_spec (edges : List (Str × Str)) (n : Nat) (nodes : List Str) (hn : nodes.length ≤ n)
    (hd : nodes.Nodup) :
    match kahn edges n nodes with
    | some l => l.Perm nodes ∧ ∀ e ∈ edges, e.1 ∈ nodes → e.2 ∈ nodes → InFront l e.1 e.2
    | none => Cyclic (fun a b => (a, b) ∈ edges) := by
  induction n generalizing nodes with
  | zero =>
    cases nodes with
    | nil => simp [kahn]
    | cons a l => simp at hn
  | succ n ih =>
    cases nodes with
    | nil => simp [kahn]
    | cons a0 l0 =>
      unfold kahn
      generalize hN : a0 :: l0 = nodes at *
      have hne : nodes ≠ [] := by rw [← hN]; simp
      cases hf : nodes.find? (fun b => edges.all (fun e => !(e.2 == b && nodes.contains e.1))) with
      | none =>
        simp only
        refine cycle_of_preds nodes.length nodes _ rfl hne ?_
        intro y hy
        have := List.find?_eq_none.1 hf y hy
        rw [List.all_eq_true] at this
        obtain ⟨e, he, h⟩ : ∃ e ∈ edges, (e.2 == y && nodes.contains e.1) = true := by
          apply Classical.byContradiction
          intro hno
          apply this
          intro e he
          cases hb : (e.2 == y && nodes.contains e.1) with
          | true => exact absurd ⟨e, he, hb⟩ hno
          | false => rfl
        simp only [Bool.and_eq_true, beq_iff_eq, List.contains_iff_mem] at h
        obtain ⟨h1, h2⟩ := h
        refine ⟨e.1, h2, ?_⟩
        rw [← h1]; exact he
      | some a =>
        have ha := List.mem_of_find?_eq_some hf
        have hsrc := List.find?_some hf
        simp only [List.all_eq_true, Bool.not_eq_true', Bool.and_eq_false_iff, beq_eq_false_iff_ne] at hsrc
        have hlen : (nodes.erase a).length ≤ n := by
          rw [List.length_erase_of_mem ha]; omega
        have := ih (nodes.erase a) hlen (hd.erase a)
        cases hk : kahn edges n (nodes.erase a) with
        | none =>
          rw [hk] at this
          simpa [hk] using this
        | some l =>
          rw [hk] at this
          simp only [hk, Option.map_some]
          refine ⟨(List.Perm.cons a this.1).trans (List.perm_cons_erase ha).symm, ?_⟩
          intro e he h1 h2
          by_cases h2a : e.2 = a
          · rcases hsrc e he with h | h
            · exact absurd h2a h
            · simp [h1] at h
          · have m2 : e.2 ∈ nodes.erase a := (List.mem_erase_of_ne h2a).2 h2
            by_cases h1a : e.1 = a
            · obtain ⟨s, t, hst⟩ := List.append_of_mem (this.1.mem_iff.2 m2)
              exact ⟨[], s, t, by rw [hst, h1a]; simp⟩
            · obtain ⟨l₁, l₂, l₃, h⟩ := this.2 e he ((List.mem_erase_of_ne h1a).2 h1) m2
              exact ⟨a :: l₁, l₂, l₃, by rw [h]; simp⟩

/-- The contract is satisfiable. -/
theorem kahnLib_correct : TopoCorrect kahnLib := by
  intro nodes edges hn hin
  have := kahn_spec edges nodes.length nodes (Nat.le_refl _) hn
  unfold kahnLib
  simp only
  cases h : kahn edges nodes.length nodes with
  | none => rw [h] at this; exact fun _ => this
  | some l => rw [h] at this; exact ⟨this.1, fun e he => this.2 e he (hin e he).1 (hin e he).2⟩

end

/-- If two loaded files declare a unit of the same name, only one is returned. -/
theorem C26_refuted : ∃ (lib : TopoLib) (it : List Str) (m : List UParser), TopoCorrect lib ∧
    it.Perm (unitNames asciiUni m).keys ∧ ∃ r p, sort asciiUni lib it m = some r ∧ p ∈ m ∧ p ∉ r :=
  ⟨kahnLib, [r!"a"], [⟨0, r!"A", []⟩, ⟨1, r!"a", []⟩], kahnLib_correct, by decide, [⟨1, r!"a", []⟩], ⟨0, r!"A", []⟩,
    by decide, by decide, by decide⟩

/-- `unit A; interface uses b, X`, `unit B`, `unit C; interface uses A, B` (`X` is not loaded) -/
def exUnits : List UParser := [⟨0, r!"A", [r!"b", r!"X"]⟩, ⟨1, r!"B", []⟩, ⟨2, r!"C", [r!"A", r!"B"]⟩]

example : DistinctNames asciiUni exUnits := by
  constructor
  · decide
  · decide

example : (sort asciiUni kahnLib [r!"c", r!"x", r!"a", r!"b"] exUnits).map (·.map UParser.id) = some [1, 0, 2] := by
  decide

/-- `unit A; interface uses B`, `unit B; interface uses a` -/
example : sort asciiUni kahnLib [r!"a", r!"b"] [⟨0, r!"A", [r!"B"]⟩, ⟨1, r!"B", [r!"a"]⟩] = none := by decide

end TP.Props
