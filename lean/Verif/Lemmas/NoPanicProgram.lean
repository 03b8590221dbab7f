import Verif.Lemmas.NoPanic

/-!
# When parsing a program panics: the loops over the units
-/

namespace TP
open Spec Props

variable {u : Uni} {Pp : Prop} {files : Str → FileR} {cp : Nat} {sep : Char} {lib : TopoLib} {it : List UParser → List Str}

theorem uparsers_at {ls : List Loader} {i : Nat} {l : Loader} (h : ls[i]? = some l) :
    (⟨i, l.head.ident.name, l.uses.map fun e => e.ident.name⟩ : UParser) ∈ uparsers ls := by
  refine List.mem_map.2 ⟨(l, i), ?_, rfl⟩
  rw [List.mem_zipIdx_iff_getElem?]
  exact h

/-- a unit comes after the units it uses -/
theorem sorted_order (hlib : TopoCorrect lib) (hit : IterOK u it) {ls : List Loader} (hd : DistinctUnits u (ls.map Loader.head))
    (hu : ∀ l ∈ ls, (l.uses.map fun e => u.toLower e.ident.name).Nodup) {sorted : List UParser}
    (h : UnitParsers.sort u lib (it (uparsers ls)) (uparsers ls) = some sorted) {pre post : List Nat} {i j : Nat}
    (hs : sorted.map UParser.id = pre ++ i :: post) {l l' : Loader} {e : UsesEntry} (hl : ls[i]? = some l) (he : e ∈ l.uses)
    (hl' : ls[j]? = some l') (hn : u.toLower l'.head.ident.name = u.toLower e.ident.name) : j ∈ pre := by
  have hp := ((C26_sort_partial u lib hlib _ (distinct_uparsers hd hu) _ (hit _)).1 sorted h).2 _ _
    ⟨uparsers_at hl, uparsers_at hl', e.ident.name, List.mem_map.2 ⟨e, he, rfl⟩, hn.symm⟩
  obtain ⟨l1, l2, l3, e1⟩ := hp
  have nd := (sorted_ids hlib hit hd hu h).1
  rw [e1, List.map_append, List.map_cons] at hs
  rw [e1, List.map_append, List.map_cons] at nd
  have nd' := List.nodup_append.1 nd
  have h1 : i ∉ (l1 ++ (⟨j, l'.head.ident.name, l'.uses.map fun e => e.ident.name⟩ : UParser) :: l2).map UParser.id :=
    fun hm => nd'.2.2 i hm i (List.mem_cons_self) rfl
  have h2 : i ∉ l3.map UParser.id := (List.nodup_cons.1 nd'.2.1).1
  have := (List.append_cons_inj_of_notMem h1 h2).1 hs
  rw [← this.1]
  simp

theorem wp_given {α : Type} {p : P DS α} {s : PS DS} (h : Pp) : wp p s (fun _ _ => Pp) Pp True := by
  unfold wp
  cases p s <;> first | exact h | trivial

/-- the units in the order of the files -/
abbrev numbers (ls : List Loader) : List Nat := ls.map fun l => l.head.no

theorem key_at {ls ls0 : List Loader} (h : ls.map Loader.key = ls0.map Loader.key) {i : Nat} {l : Loader} (hl : ls[i]? = some l) :
    ∃ l0, ls0[i]? = some l0 ∧ l0.key = l.key := by
  have : (ls.map Loader.key)[i]? = some l.key := by rw [List.getElem?_map, hl]; rfl
  rw [h, List.getElem?_map] at this
  exact Option.map_eq_some_iff.1 this

theorem key_set {ls : List Loader} {i : Nat} {l l' : Loader} (hl : ls[i]? = some l) (h : l'.key = l.key) :
    (ls.set i l').map Loader.key = ls.map Loader.key := by
  have hi : i < ls.length := by
    by_contra c
    rw [List.getElem?_eq_none (by omega)] at hl; cases hl
  rw [List.map_set, h]
  apply List.ext_getElem?
  intro j
  by_cases c : i = j
  · subst c
    rw [List.getElem?_set_self (by simpa using hi), List.getElem?_map, hl]; rfl
  · rw [List.getElem?_set_ne c]

theorem ready_set {ls : List Loader} {i : Nat} {l' : Loader} {k k' : DS} (h : ∀ l ∈ ls, Ready u files cp k l) (g : Later k k')
    (h' : Ready u files cp k' l') : ∀ l ∈ ls.set i l', Ready u files cp k' l := by
  intro l hl
  rcases List.mem_or_eq_of_mem_set hl with hl | rfl
  · exact (h l hl).later g
  · exact h'

theorem intfAll_fine {n : Nat} {ls0 : List Loader} {all : List Nat}
    (order : ∀ pre i post j, all = pre ++ i :: post → ∀ l l' e, ls0[i]? = some l → e ∈ l.uses → ls0[j]? = some l' →
      u.toLower l'.head.ident.name = u.toLower e.ident.name → j ∈ pre) (hf : ∀ l ∈ ls0, FileOK u files Pp l.path) :
    ∀ (is pre : List Nat) (ls : List Loader) (s : PS DS), all = pre ++ is → ls.map Loader.key = ls0.map Loader.key → Fine none s.cx →
      (∀ l ∈ ls, Ready u files cp s.cx l) → IsProg s.cx cp (numbers ls0) →
      (∀ j ∈ pre, ∀ l, ls0[j]? = some l → s.cx.w.unitDm l.head.no ≠ none) →
      wp (intfAll u n is ls) s (fun ls' s' => ls'.map Loader.key = ls0.map Loader.key ∧ Fine none s'.cx ∧ Kept' s s' ∧
        (∀ l ∈ ls', Ready u files cp s'.cx l) ∧ ∀ j ∈ all, ∀ l, ls0[j]? = some l → s'.cx.w.unitDm l.head.no ≠ none) Pp True
  | [], pre, ls, s, ha, hk, h, hr, hp, hd => ⟨hk, h, .refl s, hr, by rw [ha, List.append_nil]; exact hd⟩
  | i :: is, pre, ls, s, ha, hk, h, hr, hp, hd => by
    cases e : ls[i]? with
    | none =>
      rw [intfAll, e]
      refine intfAll_fine order hf is (pre ++ [i]) ls s (by simpa using ha) hk h hr hp ?_
      intro j hj l hl
      rcases List.mem_append.1 hj with hj | hj
      · exact hd j hj l hl
      · rw [List.mem_singleton.1 hj] at hl
        obtain ⟨l0, h0, -⟩ := key_at hk.symm hl
        rw [e] at h0; cases h0
    | some l =>
      rw [intfAll_step e]
      obtain ⟨l0, h0, k0⟩ := key_at hk e
      have hl := List.mem_of_getElem? e
      have hu0 : l0.uses = l.uses := congrArg (fun k => k.2.2) k0
      have hh0 : l0.head = l.head := congrArg (fun k => k.2.1) k0
      have hp0 : l0.path = l.path := congrArg Prod.fst k0
      refine wp_then (intfStep_fine h (hr l hl) hp (by rw [← hp0]; exact hf l0 (List.mem_of_getElem? h0)) ?_) ?_
      · intro x hx j hj
        obtain ⟨hm, o, ho, hon⟩ := Fine.byName_mem u _ hj
        obtain ⟨l2, hl2, rfl⟩ := List.mem_map.1 hm
        obtain ⟨i2, hi2⟩ := List.mem_iff_getElem?.1 hl2
        obtain ⟨l3, h3, k3⟩ := key_at hk.symm hi2
        have hh3 : l3.head = l2.head := congrArg (fun k => k.2.1) k3
        obtain ⟨o', ho', hn'⟩ := (hr l3 (List.mem_of_getElem? h3)).unit
        rw [hh3] at ho' hn'
        rw [ho] at ho'; cases ho'
        exact hd i2 (order pre i is i2 ha l0 l2 x h0 (by rw [hu0]; exact hx) hi2 (by rw [← hn']; exact hon)) l2 hi2
      · rintro l' s1 ⟨g1, g2, g3, g4, g5⟩
        refine wp_mono (intfAll_fine order hf is (pre ++ [i]) (ls.set i l') s1 (by simpa using ha) ((key_set e g4).trans hk) g1
          (ready_set hr g2.later g3) (hp.later g2.later) ?_) ?_ id id
        · intro j hj l1 hl1
          rcases List.mem_append.1 hj with hj | hj
          · exact g2.later.dms _ (hd j hj l1 hl1)
          · rw [List.mem_singleton.1 hj, h0] at hl1
            cases hl1
            rw [hh0]; exact g5
        · rintro ls' s2 ⟨q1, q2, q3, q4, q5⟩
          exact ⟨q1, q2, g2.trans q3, q4, q5⟩

theorem implAll_fine {n : Nat} {ls0 : List Loader} (hf : ∀ l ∈ ls0, FileOK u files Pp l.path) :
    ∀ (is : List Nat) (ls : List Loader) (s : PS DS), ls.map Loader.key = ls0.map Loader.key → Fine none s.cx →
      (∀ l ∈ ls, Ready u files cp s.cx l) → IsProg s.cx cp (numbers ls0) → (∀ l ∈ ls0, s.cx.w.unitDm l.head.no ≠ none) →
      wp (implAll u n is ls) s (fun ls' s' => ls'.map Loader.key = ls0.map Loader.key ∧ Fine none s'.cx ∧ Kept' s s') Pp True
  | [], ls, s, hk, h, hr, hp, hd => ⟨hk, h, .refl s⟩
  | i :: is, ls, s, hk, h, hr, hp, hd => by
    cases e : ls[i]? with
    | none =>
      rw [implAll, e]
      exact implAll_fine hf is ls s hk h hr hp hd
    | some l =>
      rw [implAll_step e]
      obtain ⟨l0, h0, k0⟩ := key_at hk e
      have hl := List.mem_of_getElem? e
      have hh0 : l0.head = l.head := congrArg (fun k => k.2.1) k0
      have hp0 : l0.path = l.path := congrArg Prod.fst k0
      have hl0 := List.mem_of_getElem? h0
      refine wp_then (implStep_fine h (hr l hl) hp (by rw [← hp0]; exact hf l0 hl0) (by rw [← hh0]; exact hd l0 hl0) ?_) ?_
      · intro j hj
        obtain ⟨l2, hl2, rfl⟩ := List.mem_map.1 hj
        exact hd l2 hl2
      · rintro l' s1 ⟨g1, g2, g3, g4⟩
        refine wp_mono (implAll_fine hf is (ls.set i l') s1 ((key_set e g4).trans hk) g1
          (ready_set hr g2.later g3) (hp.later g2.later) (fun l hl => g2.later.dms _ (hd l hl))) ?_ id id
        rintro ls' s2 ⟨q1, q2, q3⟩
        exact ⟨q1, q2, g2.trans q3⟩

theorem enterP_fine {i : Ident} {es : List UsesEntry} {hs : List UnitHead} {s : PS DS} (h : Fine none s.cx)
    (hc : cp < s.cx.w.ctxs.length) (hh : ∀ x ∈ hs, s.cx.w.unitDm x.no ≠ none) :
    wp (enterP u cp i es hs) s (fun _ s' => Fine none s'.cx ∧ Kept' s s') Pp True := by
  unfold wp enterP
  cases e : s.cx.usesMap u es hs [] with
  | none => trivial
  | some km =>
    obtain ⟨k, m⟩ := km
    obtain ⟨f1, ⟨is, e1⟩, h1⟩ := h.usesMap u hh (by intro p hp; cases hp) e
    have l1 := Fine.setItem_later s.cx is
    rw [← e1] at l1
    obtain ⟨k2, e2, f2, l2, c2⟩ := f1.enterProgram u (cp := cp) (i := i) (Nat.lt_of_lt_of_le hc l1.len)
      (fun x hx => l1.dms _ (hh x hx)) h1
    simp only [e2]
    exact ⟨f2, ⟨rfl, rfl⟩, l1.trans l2, by rw [c2, e1]⟩

theorem loadUnits_fine (hlib : TopoCorrect lib) (hit : IterOK u it) {n : Nat} {i : Ident} {es : List UsesEntry} {s : PS DS}
    (h : Fine none s.cx) (hp : IsProg s.cx cp []) (hbad : BadUses u sep files es → Pp) :
    wp (loadUnits u sep files lib it cp i es n) s (fun _ s' => Pp ∨ Fine none s'.cx ∧ Still s s' ∧ s'.cx.cur = s.cx.cur ∧
      s.cx.w.ctxs.length ≤ s'.cx.w.ctxs.length) Pp True := by
  unfold loadUnits
  refine wp_then (newLoaders_fine es h) ?_
  rintro cs s1 ⟨f1, k1, e1, u1⟩
  have hmem : ∀ x ∈ cs, x.1 ∈ usedFiles sep es := fun x hx => by rw [← e1]; exact List.mem_map_of_mem hx
  refine wp_then (wp_both (loadAll_fine cs f1 (hp.later k1.later) u1 fun x hx hr => hbad (.inl ⟨x.1, hmem x hx, hr⟩))
    (loadAll_wp (u := u) (files := files) (cp := cp) (n := n) cs s1)) ?_
  rintro ls s2 ⟨⟨f2, t2, l2, c2, p2, r2, q2⟩, -, -, g2⟩
  rw [List.nil_append] at q2
  cases hsort : UnitParsers.sort u lib (it (uparsers ls)) (uparsers ls) with
  | none => trivial
  | some sorted =>
    show wp (intfAll u n _ _ >>= _) _ _ _ _
    have hpath : ls.map Loader.path = usedFiles sep es := p2.trans e1
    have hf : ∀ l ∈ ls, FileOK u files Pp l.path := by
      intro l hl
      have hm : l.path ∈ usedFiles sep es := by rw [← hpath]; exact List.mem_map_of_mem hl
      exact ⟨fun h => hbad (.inl ⟨_, hm, h⟩), fun h => hbad (.inr (.inl ⟨_, hm, h⟩))⟩
    by_cases hd : DistinctUnits u (ls.map Loader.head)
    · have hu := fun l hl => (g2 l hl).2
      obtain ⟨hn, hall⟩ := sorted_ids hlib hit hd hu hsort
      refine wp_then (intfAll_fine (ls0 := ls) (all := sorted.map UParser.id)
        (fun pre i post j ha l l' e hl he hl' hnm => sorted_order hlib hit hd hu hsort ha hl he hl' hnm) hf
        (sorted.map UParser.id) [] ls s2 rfl rfl f2 r2 q2 (by intro j hj; cases hj)) ?_
      rintro ls1 s3 ⟨e3, f3, k3, r3, d3⟩
      have d3' : ∀ l ∈ ls, s3.cx.w.unitDm l.head.no ≠ none := by
        intro l hl
        obtain ⟨j, hj⟩ := List.mem_iff_getElem?.1 hl
        refine d3 j (hall j ?_) l hj
        by_contra c
        rw [List.getElem?_eq_none (by omega)] at hj; cases hj
      refine wp_then (implAll_fine (ls0 := ls) hf (sorted.map UParser.id) ls1 s3 e3 f3 r3 (q2.later k3.later) d3') ?_
      rintro ls2 s4 ⟨e4, f4, k4⟩
      obtain ⟨p, d, hcp⟩ := hp
      have hcp := Ctxs.obj_lt hcp
      have l4 : s.cx.w.ctxs.length ≤ s4.cx.w.ctxs.length :=
        Nat.le_trans (Nat.le_trans k1.later.len l2.len) (Nat.le_trans k3.later.len k4.later.len)
      refine wp_then (enterP_fine f4 (Nat.lt_of_lt_of_le hcp l4) ?_) ?_
      · intro x hx
        obtain ⟨l, hl, rfl⟩ := List.mem_map.1 hx
        obtain ⟨j, hj⟩ := List.mem_iff_getElem?.1 hl
        obtain ⟨l0, h0, k0⟩ := key_at e4 hj
        have hh0 : l0.head = l.head := congrArg (fun k => k.2.1) k0
        rw [← hh0]
        exact k4.later.dms _ (d3' l0 (List.mem_of_getElem? h0))
      · rintro _ s5 ⟨f5, k5⟩
        refine .inr ⟨f5, ?_, ?_, Nat.le_trans l4 k5.later.len⟩
        · exact (((k1.still.trans t2).trans k3.still).trans k4.still).trans k5.still
        · rw [k5.cur, k4.cur, k3.cur, c2, k1.cur]
    · have : Pp := by
        unfold DistinctUnits at hd
        rw [List.nodup_iff_getElem?_ne_getElem?] at hd
        push Not at hd
        obtain ⟨a, b, hab, hb, he⟩ := hd
        have hb : b < ls.length := by simpa using hb
        have ha : a < ls.length := by omega
        simp only [List.getElem?_map, List.getElem?_eq_getElem hb, List.getElem?_eq_getElem ha, Option.map_some, Option.some.injEq] at he
        obtain ⟨ts, tl, rest, x1, -, -, x2⟩ := (r2 _ (List.getElem_mem ha)).file
        obtain ⟨ts', tl', rest', y1, -, -, y2⟩ := (r2 _ (List.getElem_mem hb)).file
        refine hbad (.inr (.inr ⟨a, b, hab, ls[a].path, ls[b].path, ?_, ?_, ts, tl, _, rest, ts', tl', _, rest', x1, x2, y1, y2, he⟩))
        · rw [← hpath, List.getElem?_map, List.getElem?_eq_getElem ha]; rfl
        · rw [← hpath, List.getElem?_map, List.getElem?_eq_getElem hb]; rfl
      exact wp_mono (wp_given this) (fun _ _ h => .inl h) id id

/-- `ParseProgram` of a parser at the beginning of a file -/
theorem program_fine (hlib : TopoCorrect lib) (hit : IterOK u it) {n : Nat} {s : PS DS} (h : Fine none s.cx) (hp : IsProg s.cx cp [])
    (hc : s.cx.cur < s.cx.w.ctxs.length) (hnil : s.tail = .nil → Pp)
    (hbad : ∀ es x y, x <:+ s.ts → (kwR u r!"USES" ▹ gUsesEntries u es) x y → BadUses u sep files es → Pp) :
    wp (parseProgram u sep files lib it cp n) s (fun _ _ => True) Pp True := by
  unfold parseProgram
  have B := h.base (u := u) (Pp := Pp) s.ts (tl := s.tail) hnil (fun _ _ h => by cases h)
  have hs : In' (Heap (Known s.cx none) (fun _ => True) (fun _ => True) s.cx) (· <:+ s.ts) s.tail s :=
    ⟨rfl, h.heap hc, List.suffix_rfl⟩
  refine B.current hs fun t ht c => ?_
  obtain ⟨ts, hts⟩ := tok_cons' notEof_kw ht c
  refine B.nextIs hs (fun t h => by rw [typ_iff.1 h]; decide) fun t0 t1 s1 ts1 c1 h1 e1 e1' => ?_
  refine B.nextIs h1 (fun t h => sym_ne_eof (symbol_iff.1 h)) fun t2 t3 s3 ts3 c3 h3 e3 e3' => ?_
  refine B.next h3 e3' fun s4 h4 e4 => ?_
  refine wp_then (Q1 := fun _ s' => Pp ∨ Fine none s'.cx ∧ s'.tail = s.tail ∧ s'.cx.cur < s'.cx.w.ctxs.length) ?_ ?_
  · unfold parseProgramUses
    refine B.isL h4 notEof_kw (fun _ _ _ _ => ?_) (fun _ _ _ => .inr ⟨Heap.fine h h4.cx, h4.tail, h4.cx.here⟩)
    refine (uses_sound B (Heap.uses fun _ _ => trivial) n).bind h4 (fun _ => trivial) fun es s5 h5 _ ⟨t6, z, e5, hne, g5⟩ => ?_
    refine B.next h5 e5 fun s6 h6 e6 => ?_
    refine wp_then (loadUnits_fine hlib hit (Heap.fine h h6.cx) (hp.later h6.cx.later) (hbad es _ _ h4.good g5)) ?_
    rintro ls s7 (g7 | ⟨f7, t7, c7, l7⟩)
    · exact .inl g7
    · exact .inr ⟨f7, t7.2.trans h6.tail, by rw [c7]; exact Nat.lt_of_lt_of_le h6.cx.here l7⟩
  rintro us s5 (g5 | ⟨f5, t5, c5⟩)
  · exact wp_mono (wp_given g5) (fun _ _ _ => trivial) id id
  · have B5 := f5.base (u := u) (Pp := Pp) s5.ts (tl := s5.tail) (by rw [t5]; exact hnil) (fun _ _ h => by cases h)
    refine (allDecls B5 n).block.bind ⟨rfl, f5.heap c5, List.suffix_rfl⟩ (fun _ => trivial) fun b s6 h6 _ g8 => ?_
    exact B5.current h6 fun t7 ht7 c7 => trivial

end TP
