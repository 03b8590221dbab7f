import Verif.Lemmas.Layers

/-!
# The interface of a unit is accepted
-/

namespace TP
open Maps Spec

variable {u : Uni} {tl : Tail} {α β : Type} {Γ Γ1 Γ' : NameEnv} {k k' : DS}

/-- the maps of the units contain what the units export -/
def UnitsShow (u : Uni) (us : List UnitParts) (k : DS) : Prop := ∀ j m, k.w.unitDm j = some m →
  ∃ tb o, k.w.maps.obj m = some (.impl tb) ∧ k.w.units[j]? = some o ∧ ShowsTbl (exported u us (u.toLower o.name)) tb

/-- items that have a unit have one with their name -/
def ItemsNamed (u : Uni) (k : DS) (es : List UsesEntry) : Prop := ∀ e ∈ es, ∀ j, (k.items[e.no]?).join = some j →
  ∃ o : UnitObj, k.w.units[j]? = some o ∧ u.toLower o.name = u.toLower e.ident.name

/-- what units with these names export -/
def exportedBy (u : Uni) (us : List UnitParts) (ns : List Str) : List (Str × What) := ns.flatMap fun n => exported u us (u.toLower n)

theorem imported_eq (us : List UnitParts) (x : List Token) : imported u us x = exportedBy u us (usedNames x) := rfl

theorem assignUnits_eq (cu : Nat) : ∀ (es : List UsesEntry) (k : DS), ∃ is, k.assignUnits u cu es = { k with items := is }
  | [], k => ⟨k.items, rfl⟩
  | e :: es, k => by
    unfold DS.assignUnits
    cases k.w.byName u (k.parentUnits cu) e.ident.name with
    | none => exact assignUnits_eq cu es k
    | some j =>
      obtain ⟨is, h⟩ := assignUnits_eq cu es { k with items := k.items.set e.no (some j) }
      exact ⟨is, h⟩

/-- the maps of the used units -/
theorem usedUnits_show {us : List UnitParts} {cu : Nat} {es : List UsesEntry} (U : UnitsShow u us k) (I : ItemsNamed u k es)
    {ms : List Nat} (h : (k.assignUnits u cu es).w.usedMaps ((k.assignUnits u cu es).unitsOf es) = some ms) :
    ∀ m ∈ ms, UnitMap k m ∧ ∃ tb, k.w.maps.obj m = some (.impl tb) ∧ ShowsTbl (exportedBy u us (es.map fun e => e.ident.name)) tb := by
  intro m hm
  obtain ⟨is, e1⟩ := assignUnits_eq (u := u) cu es k
  obtain ⟨j, h1, h2⟩ := usedMaps_mem h hm
  obtain ⟨e, h3, h4⟩ := unitsOf_mem h1
  rw [e1] at h2
  obtain ⟨tb, o, g1, g2, g3⟩ := U j m h2
  refine ⟨⟨j, h2⟩, tb, g1, g3.mono fun x hx => ?_⟩
  have : ∃ e' ∈ es, u.toLower o.name = u.toLower e'.ident.name := by
    rcases assignUnits_items h4 with h5 | ⟨e', h5, -, h6⟩
    · obtain ⟨o', g4, g5⟩ := I e h3 j h5
      rw [g2] at g4; cases g4
      exact ⟨e, h3, g5⟩
    · obtain ⟨-, o', g4, g5⟩ := Fine.byName_mem u _ h6
      rw [g2] at g4; cases g4
      exact ⟨e', h5, g5⟩
  obtain ⟨e', h5, h6⟩ := this
  rw [h6] at hx
  exact List.mem_flatMap.2 ⟨_, List.mem_map.2 ⟨e', h5, rfl⟩, hx⟩

theorem importUnits_agrees {us : List UnitParts} {cu : Nat} {es : List UsesEntry} {c : Option (Str × Nat)} (F : Fine c k) (hc : k.cur = cu)
    (hm : Fine.Maps' u k cu es) (A : Agrees u Γ k) (U : UnitsShow u us k) (I : ItemsNamed u k es) :
    ∃ k', k.importUnits u cu es = some k' ∧ Agrees u ⟨[], exportedBy u us (es.map fun e => e.ident.name) ++ Γ.seen, []⟩ k' ∧
      Moves (UnitMap k) cu k k' ∧ k'.cur = k.cur ∧ k'.w.units = k.w.units ∧ k'.items = (k.assignUnits u cu es).items := by
  subst hc
  obtain ⟨is, e1⟩ := assignUnits_eq (u := u) k.cur es k
  obtain ⟨o, r, g1, g2, g3⟩ := id A.rooted
  have hd : (k.assignUnits u k.cur es).w.dm k.cur = some o.dm := by rw [e1]; exact World.dm_eq.2 ⟨o, g1, rfl⟩
  obtain ⟨ms, hms⟩ := (Fine.assignUnits u F hm).1.usedMaps es
  have hs := usedUnits_show U I hms
  let n := (k.w.maps : List (MapObj Node)).length
  let h2 : Maps Node := .impl [] :: k.w.maps
  let k2 : DS := { k with items := is, w := { k.w with maps := .composite (n :: ms ++ o.dm :: []) :: h2, ctxs := k.w.ctxs.modify (CtxObj.withDm (n + 1)) k.cur } }
  have L : Layered k k2 o (CtxObj.withDm (n + 1) o) h2 n [] ms [] := {
    frame := .cons _ _ _
    old := g1
    own := by simp only [h2, Maps.obj, n, if_true]
    new := Nat.le_refl _
    maps := rfl
    obj := by show Ctxs.obj (k.w.ctxs.modify _ k.cur) k.cur = _; rw [Ctxs.obj_modify, if_pos rfl, g1]; rfl
    dm := Heap.withDm_dm _ _
    plain := withDm_plain _ g2
    types := List.prefix_rfl }
  have ho : ∀ m ∈ ms, ∃ tb, h2.obj m = some (.impl tb) ∧ ShowsTbl (exportedBy u us (es.map fun e => e.ident.name)) tb := by
    intro m hm
    obtain ⟨-, tb, f1, f2⟩ := hs m hm
    refine ⟨tb, ?_, f2⟩
    have : m < n := target_lt' (target_impl f1)
    show Maps.obj (.impl [] :: k.w.maps) m = _
    unfold Maps.obj
    rw [if_neg (Nat.ne_of_lt this)]
    exact f1
  refine ⟨k2, ?_, ?_, ?_, rfl, rfl, by rw [e1]⟩
  · unfold DS.importUnits
    simp only
    rw [hd, hms, e1]
    rfl
  · refine L.agrees A (inn := []) (fun _ h => (nomatch h)) (fun _ h => (nomatch h)) (fun i hi => ?_) (.inl rfl)
    rw [List.append_nil] at hi
    exact ho i hi
  · refine L.moves A.rooted (fun i hi => ?_) (by show _ ≤ (k.w.ctxs.modify (CtxObj.withDm (n + 1)) k.cur).length; rw [Ctxs.length_modify]; exact Nat.le_refl _) (fun x _ hx => ?_) rfl
    · rw [List.append_nil] at hi
      obtain ⟨tb, f1, -⟩ := ho i hi
      exact ⟨(hs i hi).1, tb, f1⟩
    · show Ctxs.obj (k.w.ctxs.modify _ k.cur) x = _
      rw [Ctxs.obj_modify, if_neg hx]

/-! ## The step -/

theorem Rets.run {p : Nat → P DS α} {l : Loader} {s s1 : PS DS} {a : α}
    (h : Rets p ⟨l.ts, l.tail, { s.cx with cur := l.cur, pending := l.pending }⟩ a s1) :
    Rets (fun n => l.run (p n)) s (a, { l with ts := s1.ts, tail := s1.tail, cur := s1.cx.cur, pending := s1.cx.pending })
      { s with cx := { s1.cx with cur := s.cx.cur, pending := s.cx.pending } } := by
  obtain ⟨N, h⟩ := h
  refine ⟨N, fun n hn => ?_⟩
  have h1 := h n hn
  simp only at h1
  simp only [Loader.run, h1]

theorem Rets.inv {p : Nat → P DS α} {s s1 : PS DS} {a : α} (h : Rets p s a s1) : ∃ n, p n s = .ok a s1 := ⟨_, h.choose_spec _ (Nat.le_refl _)⟩

theorem intf_walk {ts ts' : List Token} {tl' : Tail} {a : List (IntfDecl (Decl Node))} (hr : Rooted k)
    (h : Rets (parseIntfDecls u) ⟨ts, tl, k⟩ a ⟨ts', tl', k'⟩) : Strolls k k' :=
  h.wp (Q := fun _ s' => Strolls k s'.cx) fun n => wp_mono (intfDecls_sound (Confined.base u _ _ _ k tl) n _ ⟨rfl, hr.strolls, trivial⟩ (fun _ => trivial))
    (fun _ _ ⟨h, _, _⟩ => h.cx) id id

theorem optUses_walk {ts ts' : List Token} {tl' : Tail} {a : List UsesEntry} (hr : Rooted k)
    (h : Rets (parseOptUses u) ⟨ts, tl, k⟩ a ⟨ts', tl', k'⟩) : Strolls k k' :=
  h.wp (Q := fun _ s' => Strolls k s'.cx) fun n => wp_mono (optUses_sound (Confined.base u _ _ _ k tl) Confined.uses n _ ⟨rfl, hr.strolls, trivial⟩ (fun _ => trivial))
    (fun _ _ ⟨h, _, _⟩ => h.cx) id id

theorem intfUses_walk {ts ts' : List Token} {tl' : Tail} {a : List UsesEntry} (hr : Rooted k)
    (h : Rets (parseIntfUses u) ⟨ts, tl, k⟩ a ⟨ts', tl', k'⟩) : Strolls k k' :=
  h.wp (Q := fun _ s' => Strolls k s'.cx) fun n => wp_mono (intfUses_sound (Confined.base u _ _ _ k tl) Confined.uses n _ ⟨rfl, hr.strolls, trivial⟩ (fun _ => trivial))
    (fun _ _ ⟨h, _, _⟩ => h.cx) id id

theorem uses_walk {ts ts' : List Token} {tl' : Tail} {a : List UsesEntry} (hr : Rooted k)
    (h : Rets (parseUses u) ⟨ts, tl, k⟩ a ⟨ts', tl', k'⟩) : Strolls k k' :=
  h.wp (Q := fun _ s' => Strolls k s'.cx) fun n => wp_mono (uses_sound (Confined.base u _ _ _ k tl) Confined.uses n _ ⟨rfl, hr.strolls, trivial⟩ (fun _ => trivial))
    (fun _ _ ⟨h, _, _⟩ => h.cx) id id

theorem unitIdent_walk {ts ts' : List Token} {tl' : Tail} {a : UnitHead × Bool} (hr : Rooted k)
    (h : Rets (fun _ => parseUnitIdent u) ⟨ts, tl, k⟩ a ⟨ts', tl', k'⟩) : Strolls k k' :=
  h.wp (Q := fun _ s' => Strolls k s'.cx) fun n => wp_mono (unitIdent_sound (Confined.base u _ _ _ k tl) (fun _ h i => h.newUnit i) n _ ⟨rfl, hr.strolls, trivial⟩ (fun _ => trivial))
    (fun _ _ ⟨h, _, _⟩ => h.cx) id id

theorem impl_walk {ts ts' : List Token} {tl' : Tail} {a : UnitBody (Decl Node)} (hr : Rooted k)
    (h : Rets (parseImplAndEnd u) ⟨ts, tl, k⟩ a ⟨ts', tl', k'⟩) : Strolls k k' :=
  h.wp (Q := fun _ s' => Strolls k s'.cx) fun n => wp_mono (implAndEnd_sound (Confined.base u _ _ _ k tl) n _ ⟨rfl, hr.strolls, trivial⟩ (fun _ => trivial))
    (fun _ _ ⟨h, _, _⟩ => h.cx) id id

/-- what becomes of the maps of units in the step -/
def NewMap (u : Uni) (us : List UnitParts) (name : Str) (no : Nat) (k k' : DS) : Prop := ∀ j m, k'.w.unitDm j = some m →
  k.w.unitDm j = some m ∨ (j = no ∧ k.w.maps.length ≤ m ∧ m < k'.w.maps.length ∧ ¬ Innermost k' m ∧
    ∃ tb, k'.w.maps.obj m = some (.impl tb) ∧ ShowsTbl (exported u us (u.toLower name)) tb)

theorem finishIntf_moves (hr : Rooted k) {us : List UnitParts} {m : UnitParts} (hu : m ∈ us) (no : Nat) {ds : List (IntfDecl (Decl Node))}
    (hs : ∀ d ∈ ds, ShowsDecl u m.names d) (U : Nat → Prop) (cu : Nat) :
    Moves U cu k (k.finishIntf u no ds) ∧ NewMap u us m.name no k (k.finishIntf u no ds) := by
  obtain ⟨o, r, g1, g2, g3⟩ := id hr
  unfold DS.finishIntf World.finishIntf
  obtain ⟨e1, e2⟩ := setUnitDm_eqs (k.w.newMap (.impl (World.intfTable u (ds.flatMap DS.declNodes) []))).1 no (some (k.w.newMap (.impl (World.intfTable u (ds.flatMap DS.declNodes) []))).2)
  have hl : ∀ x, Spec.target (MapObj.impl (World.intfTable u (ds.flatMap DS.declNodes) []) :: k.w.maps) o.dm = some x → x < k.w.maps.length := by
    intro x hx
    rw [(Frame.cons (fun _ => True) (.impl (World.intfTable u (ds.flatMap DS.declNodes) [])) k.w.maps).tgt _ (target_lt' g3)] at hx
    exact target_lt hx
  refine ⟨Moves.still hr ?_ ?_ (fun x _ _ => ?_) rfl ?_ List.prefix_rfl, ?_⟩
  · simp only [e1]; exact .cons _ _ _
  · simp only [e2]; exact Nat.le_refl _
  · simp only [e2]; rfl
  · simp only [e2]; rfl
  · intro j mm hm
    simp only [unitDm_set] at hm
    by_cases c : no = j ∧ (((k.w.newMap (.impl (World.intfTable u (ds.flatMap DS.declNodes) []))).1.units[no]?).isSome = true)
    · rw [if_pos c] at hm
      cases hm
      refine .inr ⟨c.1.symm, Nat.le_refl _, ?_, ?_, ?_⟩
      · simp only [e1]; exact Nat.lt_succ_self _
      · rintro ⟨o', f1, f2⟩
        simp only [e2] at f1
        rw [show (k.w.newMap (.impl (World.intfTable u (ds.flatMap DS.declNodes) []))).1.ctxs = k.w.ctxs from rfl, g1] at f1
        cases f1
        simp only [e1] at f2
        exact absurd (hl _ f2) (Nat.lt_irrefl _)
      · refine ⟨World.intfTable u (ds.flatMap DS.declNodes) [], ?_, ?_⟩
        · simp only [e1]
          show Maps.obj (.impl _ :: k.w.maps) (k.w.maps : List (MapObj Node)).length = _
          unfold Maps.obj
          rw [if_pos rfl]
        · intro p hp
          rcases intfTable_mem u _ [] p hp with hp | ⟨hp, hk⟩
          · cases hp
          · obtain ⟨x, hx, hpx⟩ := List.mem_flatten.1 hp
            obtain ⟨d, hd, hx⟩ := List.mem_flatMap.1 hx
            obtain ⟨w, f1, f2, f3⟩ := hs d hd x hx _ hpx
            refine ⟨w, List.mem_flatMap.2 ⟨m, hu, ?_⟩, f1⟩
            rw [if_pos rfl, hk]
            exact List.mem_filter.2 ⟨f3, decide_eq_true f2⟩
    · rw [if_neg c] at hm
      exact .inl hm

theorem NewMap.before {us : List UnitParts} {name : Str} {no : Nat} {k0 : DS} (h : NewMap u us name no k k') (hd : ∀ j, k.w.unitDm j = k0.w.unitDm j)
    (hl : k0.w.maps.length ≤ k.w.maps.length) : NewMap u us name no k0 k' := by
  intro j m hm
  rcases h j m hm with h | ⟨h1, h2, h3⟩
  · exact .inl (by rw [← hd]; exact h)
  · exact .inr ⟨h1, Nat.le_trans hl h2, h3⟩

theorem unitDm_units {w w' : World Node} (h : w'.units = w.units) (j : Nat) : w'.unitDm j = w.unitDm j := by unfold World.unitDm; rw [h]

theorem intfStep_rets {files : Str → FileR} {cp : Nat} {ps : List Nat} {l : Loader} {s : PS DS} {us : List UnitParts} {m : UnitParts} {rest : List Token} (hu : m ∈ us)
    (F : Fine none s.cx) (R : Ready u files cp s.cx l) (hp : IsProg s.cx cp ps) (hc : l.cur = l.cu) (A : Agrees u Γ (s.cx.on l.cur))
    (U : UnitsShow u us s.cx) (I : ItemsNamed u s.cx l.uses)
    (hm : ∀ e ∈ l.uses, ∀ j, s.cx.w.byName u ps e.ident.name = some j → s.cx.w.unitDm j ≠ none)
    (hn : l.head.ident.name = m.name) (hes : l.uses.map (fun e => e.ident.name) = usedNames m.uses)
    (hok : OkIntf u ⟨[u.toLower m.name], (u.toLower m.name, .space) :: (imported u us m.uses ++ Γ.seen), []⟩ m.intf m.names)
    (hts : l.ts = m.intf ++ rest) (hr : Nxt l.tail rest (IsKw u r!"IMPLEMENTATION")) :
    ∃ l' s', Rets (fun n => intfStep u n l) s l' s' ∧ Agrees u m.names (s'.cx.on l'.cur) ∧
      Moves (UnitMap s.cx) l.cu (s.cx.on l.cur) (s'.cx.on l'.cur) ∧ l'.ts = rest ∧ l'.tail = l.tail ∧ l'.cu = l.cu ∧
      NewMap u us m.name l.head.no (s.cx.on l.cur) (s'.cx.on l'.cur) ∧
      ∀ n j, (s'.cx.items[n]?).join = some j → (s.cx.items[n]?).join = some j ∨
        ∃ e ∈ l.uses, e.no = n ∧ ∃ o : UnitObj, s.cx.w.units[j]? = some o ∧ u.toLower o.name = u.toLower e.ident.name := by
  let k0 : DS := { s.cx with cur := l.cur, pending := l.pending }
  have F0 : Fine none k0 := F.switch l.cur l.pending
  have A0 : Agrees u Γ k0 := A.same' rfl rfl rfl rfl
  have hpu : k0.parentUnits l.cu = ps := parentUnits_eq (k := k0) (cp := cp) R.cu hp
  obtain ⟨k1, e1, A1, M1, c1, u1, i1⟩ := importUnits_agrees (us := us) (cu := l.cu) (es := l.uses) F0 hc (by
    intro e he j hj
    rw [hpu] at hj
    exact hm e he j hj) A0 U I
  obtain ⟨w2, e2, A2, t, tb, ht, rfl⟩ := A1.declareSpace (name := l.head.ident.name) (node := .unit l.head.no) (.inr (.inl ⟨_, rfl⟩))
    ⟨by simp, fun _ _ h => (nomatch h)⟩
  have hc1 : k1.cur = l.cu := c1.trans hc
  have e2' : k1.setUnit u l.cu l.head = .ok { k1 with w := { k1.w with maps := upd k1.w.maps t tb } } := by
    unfold DS.setUnit DS.setR
    rw [← hc1, e2]
  have A2 : Agrees u ⟨[u.toLower m.name], (u.toLower m.name, .space) :: (imported u us m.uses ++ Γ.seen), []⟩
      { k1 with w := { k1.w with maps := upd k1.w.maps t tb } } := by
    rw [imported_eq, ← hes, ← hn]
    exact A2
  have M2 : Moves (UnitMap k0) l.cu k1 { k1 with w := { k1.w with maps := upd k1.w.maps t tb } } :=
    Moves.still A1.rooted (.upd _ _ _ (.inl ht)) (Nat.le_refl _) (fun _ _ _ => rfl) rfl rfl List.prefix_rfl
  obtain ⟨ds, k3, A3, O3, q3, R3⟩ := (acc_intf (tl := l.tail) hok hr).runs A2
  have M3 := (intf_walk A2.rooted R3).moves (UnitMap k0) l.cu
  obtain ⟨M4, N4⟩ := finishIntf_moves (k := k3) A3.rooted hu l.head.no q3 (UnitMap k0) l.cu
  have A4 := A3.finishIntf l.head.no ds
  have M := ((M1.trans M2).trans M3).trans M4
  have hlen : k0.w.maps.length ≤ k3.w.maps.length := ((M1.trans M2).trans M3).frame.len
  have hdm : ∀ j, k3.w.unitDm j = k0.w.unitDm j := fun j => (O3.dms j).trans (unitDm_units u1 j)
  have N := N4.before (k0 := k0) hdm hlen
  let k4 := k3.finishIntf u l.head.no ds
  refine ⟨{ l with ts := rest, cur := k4.cur, pending := k4.pending, intf := ds },
    { s with cx := { k4 with cur := s.cx.cur, pending := s.cx.pending } }, ?_, ?_, ?_, ?_, ?_, ?_, ?_, ?_⟩
  · unfold intfStep
    refine Rets.bind (Rets.run (a := ds) (s1 := ⟨rest, l.tail, k3.finishIntf u l.head.no ds⟩) ?_) (.one rfl)
    unfold processIntf parseIntfBody
    refine Rets.then (a := ()) (s1 := ⟨l.ts, l.tail, k1⟩) ?_ (Rets.then (a := ())
      (s1 := ⟨l.ts, l.tail, { k1 with w := { k1.w with maps := upd k1.w.maps t tb } }⟩) ?_ ?_)
    · unfold stepP; simp only; rw [e1]
    · unfold stepR; simp only; rw [e2']
    · rw [hts]
      exact R3.bind (Rets.then (a := ()) rfl (.one rfl))
  · exact A4.same' rfl rfl rfl rfl
  · exact ⟨M.frame, M.len, M.ctx, M.cur, M.tgt, M.lay, M.types⟩
  · rfl
  · rfl
  · rfl
  · exact N
  · intro n j h
    have h' : (k3.items[n]?).join = some j := h
    rw [O3.items n] at h'
    have h' : (k1.items[n]?).join = some j := h'
    rw [i1] at h'
    rcases assignUnits_items h' with h | ⟨e, he, h1, h2⟩
    · exact .inl h
    · obtain ⟨-, o, ho, hn⟩ := Fine.byName_mem u _ h2
      exact .inr ⟨e, he, h1, o, ho, hn⟩

end TP
