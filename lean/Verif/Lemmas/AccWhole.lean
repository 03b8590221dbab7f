import Verif.Lemmas.AccLoops

/-!
# Programs with units are accepted
-/

namespace TP
open Maps Spec

variable {u : Uni} {tl : Tail} {Γ Γ' Γp : NameEnv} {k k' : DS} {cp N : Nat} {files : Str → FileR} {us : List UnitParts} {sep : Char}

theorem items_seen {x : List Token} {is : List (Str × Option Str)} (h : OkItems u Γ x is Γ') :
    (∀ p ∈ Γ.seen, p ∈ Γ'.seen) ∧ ∀ i ∈ is, (u.toLower i.1, What.space) ∈ Γ'.seen := by
  induction h with
  | one h1 h2 =>
    refine ⟨fun p hp => List.mem_cons_of_mem _ hp, fun i hi => ?_⟩
    rw [List.mem_singleton.1 hi]; exact List.mem_cons_self
  | cons h1 h2 h3 h4 ih =>
    refine ⟨fun p hp => ih.1 p (List.mem_cons_of_mem _ hp), fun i hi => ?_⟩
    rcases List.mem_cons.1 hi with rfl | hi
    · exact ih.1 _ List.mem_cons_self
    · exact ih.2 i hi

/-- The items of the units are found. -/
theorem usesMap_rets {es : List UsesEntry} {ex : List (Str × What)} (he : ∀ e ∈ es, (u.toLower e.ident.name, What.space) ∈ ex) :
    ∀ (hs : List UnitHead) (k : DS) (m : Tbl Node), (∀ h ∈ hs, ∃ e ∈ es, u.toLower e.ident.name = u.toLower h.ident.name) → ShowsTbl ex m →
      ∃ is m', k.usesMap u es hs m = some ({ k with items := is }, m') ∧ ShowsTbl ex m'
  | [], k, m, _, hm => ⟨k.items, m, rfl, hm⟩
  | h :: hs, k, m, hf, hm => by
    obtain ⟨e, h1, h2⟩ := hf h List.mem_cons_self
    cases hfind : DS.findUses u es h.ident.name with
    | none =>
      unfold DS.findUses at hfind
      have := List.find?_eq_none.1 hfind e h1
      simp [h2] at this
    | some x =>
      have hx : x ∈ es := List.mem_of_find?_eq_some hfind
      obtain ⟨is, m', h3, h4⟩ := usesMap_rets he hs { k with items := k.items.set x.no (some h.no) } (m.set u [⟨x.ident.name, .uses x.no⟩]).1
        (fun h' hh => hf h' (List.mem_cons_of_mem _ hh)) (by
          intro p hp
          rcases tblSet_mem u _ _ p hp with hp | ⟨hp, hk⟩
          · exact hm p hp
          · have hp := List.mem_singleton.1 hp
            refine ⟨.space, ?_, .inl ⟨x.no, by rw [hp]⟩⟩
            rw [hk, hp]
            exact he x hx)
      refine ⟨is, m', ?_, h4⟩
      unfold DS.usesMap
      simp only [hfind]
      exact h3

/-- The program enters the scope of its block. -/
theorem enterProgram_rets {i : Ident} {hs : List UnitHead} {m : Tbl Node} {ex : List (Str × What)} (hc : k.cur = cp) (A : Agrees u Γ k)
    (hm : ShowsTbl ex m) (hi : (u.toLower i.name, What.space) ∈ ex) (hd : ∀ h ∈ hs, k.w.unitDm h.no ≠ none)
    (hu : ∀ h ∈ hs, ∀ d, k.w.unitDm h.no = some d → ∃ tb, k.w.maps.obj d = some (.impl tb) ∧ ShowsTbl ex tb) :
    ∃ k', k.enterProgram u cp i hs m = some k' ∧ Agrees u ⟨[u.toLower i.name], ex ++ Γ.seen, []⟩ k' := by
  subst hc
  obtain ⟨o, r, g1, g2, g3⟩ := id A.rooted
  have hdm : k.w.dm k.cur = some o.dm := World.dm_eq.2 ⟨o, g1, rfl⟩
  obtain ⟨ms, hms⟩ : ∃ ms, k.w.usedMaps (hs.map fun h => some h.no) = some ms := by
    cases e : k.w.usedMaps (hs.map fun h => some h.no) with
    | some ms => exact ⟨ms, rfl⟩
    | none =>
      exfalso
      unfold World.usedMaps at e
      rw [Option.map_eq_none_iff] at e
      have : ∀ hs : List UnitHead, (∀ h ∈ hs, k.w.unitDm h.no ≠ none) →
          ∃ xs, ((hs.map fun h => some h.no).filterMap id).mapM k.w.unitDm = some xs := by
        intro hs
        induction hs with
        | nil => exact fun _ => ⟨[], rfl⟩
        | cons h hs ih =>
          intro hh
          obtain ⟨xs, hxs⟩ := ih fun x hx => hh x (List.mem_cons_of_mem _ hx)
          obtain ⟨d, hd⟩ := Option.ne_none_iff_exists'.1 (hh h List.mem_cons_self)
          refine ⟨d :: xs, ?_⟩
          rw [List.map_cons, show List.filterMap id (some h.no :: hs.map fun h => some h.no) = h.no :: (hs.map fun h => some h.no).filterMap id from rfl,
            List.mapM_cons, hd, hxs]
          rfl
      obtain ⟨xs, hxs⟩ := this hs hd
      rw [hxs] at e; cases e
  obtain ⟨m1, hm1⟩ : ∃ m1, (Tbl.set u [] [⟨i.name, (.program : Node)⟩]).1 = m1 := ⟨_, rfl⟩
  have hp1 : ∀ p ∈ m1, p.1 = u.toLower i.name ∧ p.2.node = .program := by
    intro p hp
    rw [← hm1] at hp
    rcases tblSet_mem u _ _ p hp with hp | ⟨hp, hk⟩
    · cases hp
    · have hp := List.mem_singleton.1 hp
      exact ⟨by rw [hk, hp], by rw [hp]⟩
  let n := (k.w.maps : List (MapObj Node)).length
  let h2 : Maps Node := .impl m1 :: .impl m :: k.w.maps
  let k2 : DS := { k with w := { k.w with maps := .composite ((n + 1) :: (n :: ms) ++ o.dm :: []) :: h2, ctxs := k.w.ctxs.modify (CtxObj.withDm (n + 2)) k.cur }, program := some (n + 1) }
  have L : Layered k k2 o (CtxObj.withDm (n + 2) o) h2 (n + 1) m1 (n :: ms) [] := {
    frame := .trans (.cons _ _ _) (.cons _ _ _)
    old := g1
    own := by simp only [h2, Maps.obj, n, List.length_cons, if_true]
    new := Nat.le_succ _
    maps := rfl
    obj := by show Ctxs.obj (k.w.ctxs.modify _ k.cur) k.cur = _; rw [Ctxs.obj_modify, if_pos rfl, g1]; rfl
    dm := Heap.withDm_dm _ _
    plain := withDm_plain _ g2
    types := List.prefix_rfl }
  refine ⟨k2, ?_, ?_⟩
  · unfold DS.enterProgram
    rw [hdm, hms, hm1]
    rfl
  · refine L.agrees A (fun p hp => ⟨.space, ?_, .inr (.inr (hp1 p hp).2)⟩) (fun p hp => ?_) (fun j hj => ?_) (.inl rfl)
    · rw [(hp1 p hp).1]; exact hi
    · rw [(hp1 p hp).1]; exact List.mem_cons_self
    · rw [List.append_nil] at hj
      rcases List.mem_cons.1 hj with rfl | hj
      · refine ⟨m, ?_, hm⟩
        show Maps.obj (.impl m1 :: .impl m :: k.w.maps) (k.w.maps : List (MapObj Node)).length = _
        unfold Maps.obj
        rw [if_neg (by simp)]
        unfold Maps.obj
        rw [if_pos rfl]
      · obtain ⟨x, h1, h2'⟩ := usedMaps_mem hms hj
        obtain ⟨h, hh, hx⟩ := List.mem_map.1 h1
        cases hx
        obtain ⟨tb, h3, h4⟩ := hu h hh j h2'
        refine ⟨tb, ?_, h4⟩
        have hlt : j < n := target_lt' (target_impl h3)
        show Maps.obj (.impl m1 :: .impl m :: k.w.maps) j = _
        unfold Maps.obj
        rw [if_neg (by simp only [List.length_cons]; omega)]
        unfold Maps.obj
        rw [if_neg (by omega)]
        exact h3

/-- Units that do not use each other in a circle can be sorted. -/
theorem sort_some {lib : TopoLib} {it : List UParser → List Str} (hlib : TopoCorrect lib) (hit : Props.IterOK u it) {ls : List Loader}
    (hd : DistinctUnits u (ls.map Loader.head)) (hu : ∀ l ∈ ls, (l.uses.map fun e => u.toLower e.ident.name).Nodup) (rank : Str → Nat)
    (hr : ∀ l ∈ ls, ∀ l' ∈ ls, ∀ e ∈ l.uses, u.toLower e.ident.name = u.toLower l'.head.ident.name → rank l'.head.ident.name < rank l.head.ident.name) :
    ∃ sorted, UnitParsers.sort u lib (it (uparsers ls)) (uparsers ls) = some sorted := by
  cases e : UnitParsers.sort u lib (it (uparsers ls)) (uparsers ls) with
  | some r => exact ⟨r, rfl⟩
  | none =>
    exfalso
    obtain ⟨a, ha⟩ := ((Props.C26_sort_partial u lib hlib _ (distinct_uparsers hd hu) _ (hit _)).2).1 e
    have mem : ∀ p ∈ uparsers ls, ∃ l ∈ ls, p.name = l.head.ident.name ∧ p.uses = l.uses.map fun e => e.ident.name := by
      intro p hp
      unfold uparsers at hp
      obtain ⟨⟨l, i⟩, hl, rfl⟩ := List.mem_map.1 hp
      exact ⟨l, (List.mem_zipIdx hl).2.2 ▸ List.getElem_mem _, rfl, rfl⟩
    have step : ∀ p q, Uses u (uparsers ls) p q → rank q.name < rank p.name := by
      rintro p q ⟨hp, hq, n, hn, hnq⟩
      obtain ⟨l, h1, h2, h3⟩ := mem p hp
      obtain ⟨l', h4, h5, h6⟩ := mem q hq
      rw [h3] at hn
      obtain ⟨x, hx, rfl⟩ := List.mem_map.1 hn
      rw [h2, h5]
      exact hr l h1 l' h4 x hx (by rw [hnq, h5])
    have : ∀ b, Relation.TransGen (Uses u (uparsers ls)) a b → rank b.name < rank a.name := by
      intro b hb
      induction hb with
      | single h => exact step _ _ h
      | tail _ h ih => exact Nat.lt_trans (step _ _ h) ih
    exact Nat.lt_irrefl _ (this a ha)

theorem UnitFiles.length {fs : List Str} (h : UnitFiles u files fs us) : us.length = fs.length := by
  induction h with
  | nil => rfl
  | cons _ _ _ ih => simp [ih]

theorem at_of_length {α β : Type} {as : List α} {bs : List β} (h : as.length = bs.length) {i : Nat} {a : α} (ha : as[i]? = some a) : ∃ b, bs[i]? = some b := by
  have := getElem?_lt ha
  exact ⟨_, List.getElem?_eq_getElem (by omega)⟩

/-- The units of a program are read. -/
theorem loadUnits_rets {lib : TopoLib} {it : List UParser → List Str} (hlib : TopoCorrect lib) (hit : Props.IterOK u it) {i : Ident}
    {es : List UsesEntry} {s : PS DS} (F : Fine none s.cx) (hp : IsProg s.cx cp []) (hc : s.cx.cur = cp) (A : Agrees u Γ s.cx)
    (h0 : s.cx.w.maps.obj 0 = some .embedded) (hd : ∀ j, s.cx.w.unitDm j = none) (hj : ∀ n : Nat, (s.cx.items[n]?).join = none)
    (hes : ∀ e ∈ es, (u.toLower e.ident.name, What.space) ∈ Γ.seen) (hf : UnitFiles u files (usedFiles sep es) us)
    (hnd : (us.map fun m => u.toLower m.name).Nodup) (hin : ∀ m ∈ us, ∃ e ∈ es, u.toLower e.ident.name = u.toLower m.name) (rank : Str → Nat)
    (hrank : ∀ m ∈ us, ∀ m' ∈ us, (∃ n ∈ usedNames m.uses, u.toLower n = u.toLower m'.name) → rank m'.name < rank m.name)
    (hok : ∀ m ∈ us, OkParts u us m) :
    ∃ ls k', Rets (loadUnits u sep files lib it cp i es) s ls ⟨s.ts, s.tail, k'⟩ ∧ ls.map (fun l => l.head.ident.name) = us.map UnitParts.name ∧
      Agrees u ⟨[u.toLower i.name], (u.toLower i.name, .space) :: ((us.flatMap fun m => exported u us (u.toLower m.name)) ++ Γ.seen), []⟩ k' := by
  have A' : Agrees u Γ (s.cx.on cp) := A.same' rfl rfl hc.symm rfl
  have hcp : cp < s.cx.w.ctxs.length := by obtain ⟨p, d, h⟩ := hp; exact Ctxs.obj_lt h
  have Fr : Fresh u cp Γ s.cx [] := by
    refine ⟨⟨Nat.le_refl _, fun _ h => (nomatch h), ⟨hcp, fun _ h => (nomatch h)⟩, fun _ _ _ _ h => by simp at h, fun _ h => (nomatch h), A'.rooted,
      fun _ _ _ _ h => by simp at h, fun _ h => (nomatch h), fun j m h => by rw [hd] at h; cases h⟩, h0, fun _ h => (nomatch h), hd, A', fun _ h => (nomatch h)⟩
  obtain ⟨cs, s1, e1, Fr1, i1⟩ := newLoaders_rets (sep := sep) es s [] Fr
  have R1 : Rets (fun _ => newLoaders sep cp es) s cs s1 := ⟨0, fun _ _ => e1⟩
  obtain ⟨f1, k1, p1, u1⟩ := R1.wp fun _ => newLoaders_fine (cp := cp) (sep := sep) (Pp := True) es F
  rw [List.nil_append] at Fr1
  obtain ⟨ls, s2, R2, S2, A2, D2, N2, J2, len2, H2, -⟩ := loadAll_rets (files := files) (N := s1.cx.w.ctxs.length) hok cs us s1 [] (by rw [p1]; exact hf)
    (fun _ h => h) Fr1.seats Fr1.prog (fun x hx => Fr1.names (x.2, x.2) (List.mem_map.2 ⟨x, hx, rfl⟩)) Fr1.dms
  obtain ⟨⟨f2, t2, l2, c2, p2, r2, q2⟩, -, -, g2⟩ := R2.wp fun n => wp_both
    (loadAll_fine (u := u) (files := files) (Pp := True) (n := n) cs f1 (hp.later k1.later) u1 fun _ _ _ => trivial)
    (loadAll_wp (u := u) (files := files) (cp := cp) (n := n) cs s1)
  rw [List.nil_append] at q2 S2
  have hparts : ∀ (i : Nat) l, ls[i]? = some l → ∃ m, us[i]? = some m ∧ Reads l m := by
    intro i l hl
    obtain ⟨m, hm⟩ := at_of_length len2 hl
    exact ⟨m, hm, (H2 i l m hl hm).2⟩
  have hmem : ∀ l ∈ ls, ∃ m ∈ us, Reads l m := by
    intro l hl
    obtain ⟨i, hi⟩ := List.mem_iff_getElem?.1 hl
    obtain ⟨m, h1, h2⟩ := hparts i l hi
    exact ⟨m, List.mem_of_getElem? h1, h2⟩
  have hnames : ls.map (fun l => l.head.ident.name) = us.map UnitParts.name := by
    apply List.ext_getElem?
    intro i
    rw [List.getElem?_map, List.getElem?_map]
    cases e : ls[i]? with
    | none =>
      have : us[i]? = none := by rw [List.getElem?_eq_none_iff] at e ⊢; omega
      rw [this]; rfl
    | some l =>
      obtain ⟨m, h1, h2⟩ := hparts i l e
      rw [h1]; exact congrArg some h2.name
  have hdist : DistinctUnits u (ls.map Loader.head) := by
    unfold DistinctUnits
    have : (ls.map Loader.head).map (fun h => u.toLower h.ident.name) = (ls.map fun l => l.head.ident.name).map u.toLower := by simp [Function.comp_def]
    rw [this, hnames, List.map_map]
    exact hnd
  have hu := fun l hl => (g2 l hl).2
  obtain ⟨sorted, hsort⟩ := sort_some hlib hit hdist hu rank (by
    intro l hl l' hl' e he hn
    obtain ⟨m, h1, h2⟩ := hmem l hl
    obtain ⟨m', h3, h4⟩ := hmem l' hl'
    rw [h2.name, h4.name]
    refine hrank m h1 m' h3 ⟨e.ident.name, ?_, by rw [hn, h4.name]⟩
    rw [← h2.uses]; exact List.mem_map.2 ⟨e, he, rfl⟩)
  obtain ⟨hn, hall⟩ := sorted_ids hlib hit hdist hu hsort
  have order : ∀ pre i post j, sorted.map UParser.id = pre ++ i :: post → ∀ l l' e, ls[i]? = some l → e ∈ l.uses → ls[j]? = some l' →
      u.toLower l'.head.ident.name = u.toLower e.ident.name → j ∈ pre :=
    fun pre i post j ha l l' e hl he hl' hnm => sorted_order hlib hit hdist hu hsort ha hl he hl' hnm
  have L2 : Loading u files us cp s1.cx.w.ctxs.length Γ ls s2.cx ls :=
    ⟨rfl, f2, r2, q2, S2, fun j m h => (by rw [D2] at h; cases h), A2⟩
  have j2 : ∀ n : Nat, (s2.cx.items[n]?).join = none := fun n => by rw [J2, i1]; exact hj n
  obtain ⟨ls1, s3, R3, L3, D3, M3⟩ := intfAll_rets hn order N2.one hparts (sorted.map UParser.id) [] ls s2 rfl L2
    (fun l _ e _ j h => by rw [j2] at h; cases h) (fun _ h => (nomatch h)) (fun i l m hl hm => ⟨fun h => (nomatch h), fun _ => (H2 i l m hl hm).1⟩)
  obtain ⟨-, -, k3, -, -⟩ := R3.wp fun n => intfAll_fine (u := u) (files := files) (cp := cp) (Pp := True) (n := n) order
    (fun l _ => ⟨fun _ => trivial, fun _ => trivial⟩) (sorted.map UParser.id) [] ls s2 rfl rfl f2 r2 q2 (fun _ h => (nomatch h))
  have D3' : ∀ l ∈ ls, s3.cx.w.unitDm l.head.no ≠ none := by
    intro l hl
    obtain ⟨j, hj⟩ := List.mem_iff_getElem?.1 hl
    exact D3 j (hall j (getElem?_lt hj)) l hj
  obtain ⟨ls2, s4, R4, L4, D4⟩ := implAll_rets hok hparts (sorted.map UParser.id) ls1 s3 hn L3 D3' M3
  obtain ⟨-, -, k4⟩ := R4.wp fun n => implAll_fine (u := u) (files := files) (cp := cp) (Pp := True) (n := n) (ls0 := ls)
    (fun l _ => ⟨fun _ => trivial, fun _ => trivial⟩) (sorted.map UParser.id) ls1 s3 L3.keys L3.fine L3.ready L3.prog D3'
  have hheads : ls2.map Loader.head = ls.map Loader.head := by
    have := congrArg (List.map fun k : Str × UnitHead × List UsesEntry => k.2.1) L4.keys
    rw [List.map_map, List.map_map] at this
    exact this
  have hc4 : s4.cx.cur = cp := by rw [k4.cur, k3.cur, c2, k1.cur, hc]
  let ex : List (Str × What) := (u.toLower i.name, .space) :: ((us.flatMap fun m => exported u us (u.toLower m.name)) ++ Γ.seen)
  have hex : ∀ p ∈ Γ.seen, p ∈ ex := fun p hp => List.mem_cons_of_mem _ (List.mem_append_right _ hp)
  have hhead : ∀ h ∈ ls2.map Loader.head, ∃ l ∈ ls, l.head = h := by
    intro h hh
    rw [hheads] at hh
    exact List.mem_map.1 hh
  obtain ⟨is, tb, e5, h5⟩ := usesMap_rets (es := es) (ex := ex) (fun e he => hex _ (hes e he)) (ls2.map Loader.head) s4.cx [] (by
    intro h hh
    obtain ⟨l, hl, rfl⟩ := hhead h hh
    obtain ⟨m, h1, h2⟩ := hmem l hl
    rw [h2.name]; exact hin m h1) (fun _ h => (nomatch h))
  have A4 : Agrees u Γ { s4.cx with items := is } := L4.env.same' rfl rfl hc4 rfl
  obtain ⟨k5, e6, A5⟩ := enterProgram_rets (k := { s4.cx with items := is }) (cp := cp) (i := i) (hs := ls2.map Loader.head) (m := tb) (ex := ex) hc4 A4 h5 List.mem_cons_self (by
    intro h hh
    obtain ⟨l, hl, rfl⟩ := hhead h hh
    exact D4 l hl) (by
    intro h hh d hd'
    obtain ⟨l, hl, rfl⟩ := hhead h hh
    obtain ⟨tb, o, h1, h2, h3⟩ := L4.shows _ _ hd'
    refine ⟨tb, h1, h3.mono fun x hx => ?_⟩
    obtain ⟨m, g1, g2⟩ := hmem l hl
    obtain ⟨l4, hl4, e4⟩ := List.mem_map.1 (show l.head ∈ ls2.map Loader.head from hh)
    obtain ⟨o', h4, h5⟩ := (L4.ready l4 hl4).unit
    rw [e4] at h4 h5
    have h2 : s4.cx.w.units[l.head.no]? = some o := h2
    rw [h2] at h4; cases h4
    rw [h5, g2.name] at hx
    exact List.mem_cons_of_mem _ (List.mem_append_left _ (List.mem_flatMap.2 ⟨m, g1, hx⟩)))
  refine ⟨ls2, k5, ?_, ?_, A5.le ⟨fun _ h => h, fun x hx => ?_, fun _ h => h⟩⟩
  · have st : Still s s4 := ((k1.still.trans t2).trans k3.still).trans k4.still
    unfold loadUnits
    refine Rets.then e1 (R2.bind ?_)
    simp only [hsort]
    refine R3.bind (R4.bind (Rets.then (a := ()) (s1 := ⟨s.ts, s.tail, k5⟩) ?_ (.one rfl)))
    unfold enterP
    rw [e5]
    simp only [e6]
    obtain ⟨x1, x2⟩ := st
    rw [← x1, ← x2]
  · rw [← hnames]
    have := congrArg (List.map fun h : UnitHead => h.ident.name) hheads
    rw [List.map_map, List.map_map] at this
    exact this
  · rcases List.mem_append.1 hx with hx | hx
    · exact hx
    · exact hex x hx

/-- A program with units is read. -/
theorem whole_rets {lib : TopoLib} {it : List UParser → List Str} (hlib : TopoCorrect lib) (hit : Props.IterOK u it) (path : Str) {ts : List Token}
    (h : OkWhole u sep files ts us) :
    ∃ a d rest k', IsSym r!"." d ∧ d :: rest <:+ ts ∧ a.units.map (fun t => t.head.ident.name) = us.map UnitParts.name ∧
      Rets (parseProgram u sep files lib it 0) ⟨ts, tl, DS.init path⟩ a ⟨d :: rest, tl, k'⟩ := by
  obtain ⟨rank, h1, h2, h3, h4, h5, h6, h7, h8, h9, h10, h11, h12, h13⟩ := h
  rename_i p t s w x is Γ e y Γ' d rest
  have hh := block_head (tl := tl) (rest := d :: rest) h12
  obtain ⟨es, k1, A1, O1, q1, R1⟩ := (acc_usesOf (tl := tl) h4 h5 h6 (rest := y ++ d :: rest)).runs (agrees_init path)
  have hc : k1.cur = 0 := by
    obtain ⟨N, h⟩ := R1
    exact InCtx.uses N _ _ _ (h N (Nat.le_refl _))
  have F1 : Fine none k1 := by
    have F0 := fine_init path
    have B := F0.base (u := u) (Pp := True) (w :: (x ++ e :: (y ++ d :: rest))) (tl := tl) (fun _ => trivial) (fun _ _ h => by cases h)
    have R1' : Rets (fun n => parseUses u n >>= fun es => pure es) _ es _ := R1.bind (.one rfl)
    refine R1'.wp (Q := fun _ s' => Fine none s'.cx) fun n => ?_
    exact (uses_sound B (Heap.uses fun _ _ => trivial) n).bind ⟨rfl, F0.heap (Nat.succ_pos _), List.suffix_rfl⟩ (fun _ => trivial)
      fun es s5 h5 _ _ => Heap.fine F0 h5.cx
  have hp : IsProg k1 0 [] := ⟨path, 1, (O1.ctx 0 (Nat.succ_pos _)).trans rfl⟩
  have h0 : k1.w.maps.obj 0 = some .embedded := by
    refine (O1.frame.obj 0 (Nat.succ_pos _) ?_).trans rfl
    rintro (⟨o, g1, g2⟩ | g)
    · cases g1; cases g2
    · exact absurd g (Nat.not_succ_le_zero _)
  have hd : ∀ j, k1.w.unitDm j = none := fun j => (O1.dms j).trans rfl
  have hj : ∀ n : Nat, (k1.items[n]?).join = none := fun n => (O1.items n).trans rfl
  have hmem : ∀ e ∈ es, ∃ i ∈ is, i.1 = e.ident.name := by
    intro e he
    refine ⟨(e.ident.name, e.path), ?_, rfl⟩
    rw [← q1]; exact List.mem_map.2 ⟨e, he, rfl⟩
  have hfiles : usedFiles sep es = (is.map fun i => UsesItem.effectivePath sep i.2).filter (· ≠ []) := by
    unfold usedFiles
    rw [← q1, List.map_map]
    rfl
  obtain ⟨ls, k2, R2, n2, A2⟩ := loadUnits_rets (s := ⟨y ++ d :: rest, tl, k1⟩) (sep := sep) (files := files) (us := us) (i := Ident.ofTok t) (es := es) hlib hit
    F1 hp hc A1 h0 hd hj (by
      intro e he
      obtain ⟨i, g1, g2⟩ := hmem e he
      rw [← g2]; exact (items_seen h5).2 i g1) (by rw [hfiles]; exact h7) h8 (by
      intro m hm
      obtain ⟨i, g1, g2⟩ := h9 m hm
      rw [← q1] at g1
      obtain ⟨e, he, rfl⟩ := List.mem_map.1 g1
      exact ⟨e, he, g2⟩) rank h10 h11
  obtain ⟨b, k3, A3, O3, q3, R3⟩ := (acc_block (tl := tl) h12 (rest := d :: rest) (.cons (sym_not_kw h13))).runs A2
  refine ⟨⟨Ident.ofTok t, es, ls.map Loader.tree, b⟩, d, rest, k3, h13, ?_, ?_, ?_⟩
  · exact ⟨p :: t :: s :: w :: (x ++ e :: y), by simp⟩
  · rw [← n2, List.map_map]; rfl
  · unfold parseProgram parseProgramUses
    refine Rets.then (current_ok rfl (kw_iff.2 h1)) (Rets.then (nextIs_ok (typT h2)) (Rets.then (nextIs_ok (symbol_iff.2 h3)) (Rets.then
      (next_ok (.cons trivial)) (Rets.bind (a := (es, ls.map Loader.tree)) (Rets.then (a := true) ?_ (R1.bind (Rets.then (next_ok hh.live)
        (R2.bind (.one rfl))))) (R3.bind (Rets.then (current_ok rfl (symbol_iff.2 h13)) (.one rfl)))))))
    rw [is_run (t := w) rfl, kw_iff.2 h4]

end TP
