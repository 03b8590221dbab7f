import Verif.Props.C22
import Verif.Props.C20

/-!
# C24  Later used units take precedence, local declarations take precedence over used units
-/

namespace TP.Spec
open TP

/-- the loaded unit with the given name, ignoring case (the first one if there are several) -/
def loaded {ν : Type} (u : Uni) (w : World ν) (us : List Nat) (n : Str) : Option Nat :=
  us.find? (fun i => match w.units[i]? with | some o => u.toLower o.name == u.toLower n | none => false)

end TP.Spec

namespace TP.Props
open TP Spec Maps
variable {ν : Type} [EmbNode ν] (u : Uni)

/-- calls through a context -/
def callCtx (c : Nat) (w : World ν) : MapCall ν → World ν
  | .set ds => (w.set u c ds).1
  | .overwrite n d => (w.overwrite u c n d).1

omit [EmbNode ν] in
theorem byName_loaded (w : World ν) (us : List Nat) (n : Str) : w.byName u us n = loaded u w us n := by
  unfold loaded
  induction us with
  | nil => rfl
  | cons i us ih =>
    simp only [World.byName, List.find?_cons]
    cases w.units[i]? with
    | none => simp only; exact ih
    | some o =>
      simp only
      by_cases h : u.toLower o.name = u.toLower n
      · rw [if_pos h]; simp [h]
      · rw [if_neg h]
        have : (u.toLower o.name == u.toLower n) = false := by simpa using h
        rw [this]; exact ih

theorem mapM_findSome {α β γ : Type} (f : α → Option β) (g : β → Option γ) :
    ∀ (l : List α) (ms : List β), l.mapM f = some ms →
      ms.reverse.findSome? g = l.reverse.findSome? (fun a => (f a).bind g) ∧
      ∀ m ∈ ms, ∃ a ∈ l, f a = some m := by
  intro l
  induction l with
  | nil =>
    intro ms h
    simp only [List.mapM_nil] at h
    cases h; exact ⟨rfl, by simp⟩
  | cons a l ih =>
    intro ms h
    rw [List.mapM_cons] at h
    cases ha : f a with
    | none => rw [ha] at h; cases h
    | some b =>
      rw [ha] at h
      cases hl : l.mapM f with
      | none => rw [hl] at h; cases h
      | some bs =>
        rw [hl] at h
        cases h
        obtain ⟨e1, e2⟩ := ih bs hl
        refine ⟨?_, ?_⟩
        · rw [List.reverse_cons, List.reverse_cons, List.findSome?_append, List.findSome?_append, e1]
          simp [ha]
        · intro m hm
          rcases List.mem_cons.mp hm with rfl | hm
          · exact ⟨a, by simp, ha⟩
          · obtain ⟨x, hx, hfx⟩ := e2 m hm
            exact ⟨x, by simp [hx], hfx⟩

/-- While the interface body is parsed (after `ImportUnitDecls` and any declarations through the context of the
unit): a name resolves to the unit's own declaration if there is one, otherwise to the declaration in the last
loaded unit of the uses clause that has one, otherwise as before. -/
theorem C24_precedence (w w1 : World ν) (hw : w.WF) (c parent d : Nat) (path ppath : Str) (us : List Nat) (pd : Nat)
    (hc : w.ctxs.obj c = some (.unit parent path d)) (hp : w.ctxs.obj parent = some (.program ppath us pd))
    (hu : ∀ i m, w.unitDm i = some m → m < w.maps.length)
    (uses : List Str) (hi : w.importUnitDecls u c uses = some w1) (calls : List (MapCall ν)) (name : Str) :
    (calls.foldl (callCtx u c) w1).get u c name =
      match (calls.foldl (MapCall.run u 0) [MapObj.impl []]).get u 0 name with
      | some x => some x
      | none =>
        match (uses.reverse.filterMap (loaded u w us)).findSome? (fun i => (w.unitDm i).bind (fun m => w.maps.get u m name)) with
        | some x => some x
        | none => w.get u c name := by
  unfold World.importUnitDecls at hi
  have hdm : w.dm c = some d := World.dm_eq.mpr ⟨_, hc, rfl⟩
  have hused : w.usedUnits u c uses = uses.map (loaded u w us) := by
    unfold World.usedUnits
    rw [hc]; simp only; rw [hp]; simp only
    congr 1; funext n; exact byName_loaded u w us n
  rw [hdm] at hi
  cases hm : w.usedMaps (w.usedUnits u c uses) with
  | none => rw [hm] at hi; cases hi
  | some ms =>
    rw [hm] at hi
    simp only [Option.some.injEq] at hi
    unfold World.usedMaps at hm
    rw [Option.map_eq_some_iff] at hm
    obtain ⟨bs, hbs, hrev⟩ := hm
    rw [hused] at hbs
    have hfl : (uses.map (loaded u w us)).filterMap id = uses.filterMap (loaded u w us) := by
      rw [List.filterMap_map]; rfl
    rw [hfl] at hbs
    obtain ⟨e1, e2⟩ := mapM_findSome w.unitDm (fun m => w.maps.get u m name) _ bs hbs
    have hlt : ∀ m ∈ ms, m < w.maps.length := by
      intro m hmm
      rw [← hrev, List.mem_reverse] at hmm
      obtain ⟨i, _, hi'⟩ := e2 m hmm
      exact hu i m hi'
    have hd : d < w.maps.length := hw c _ hc
    -- shape of the heap after the calls
    have key : ∀ (calls : List (MapCall ν)) (v : World ν) (T : Tbl ν),
        v.maps = .composite (w.maps.length :: ms ++ [d]) :: .impl T :: w.maps →
        v.ctxs.obj c = some (.unit parent path (w.maps.length + 1)) →
        ∃ T', (calls.foldl (callCtx u c) v).maps = .composite (w.maps.length :: ms ++ [d]) :: .impl T' :: w.maps ∧
          (calls.foldl (callCtx u c) v).ctxs.obj c = some (.unit parent path (w.maps.length + 1)) ∧
          calls.foldl (MapCall.run u 0) [MapObj.impl T] = [MapObj.impl T'] := by
      intro calls
      induction calls with
      | nil => intro v T h1 h2; exact ⟨T, h1, h2, rfl⟩
      | cons a calls ih =>
        intro v T h1 h2
        have hv : v.dm c = some (w.maps.length + 1) := World.dm_eq.mpr ⟨_, h2, rfl⟩
        simp only [List.foldl_cons]
        cases a with
        | set ds =>
          have hs : (v.set u c ds).1.maps = .composite (w.maps.length :: ms ++ [d]) :: .impl (Tbl.set u T ds).1 :: w.maps := by
            unfold World.set; rw [hv]; simp only; rw [h1]; simp [Maps.set]
          have hs2 : (v.set u c ds).1.ctxs = v.ctxs := by unfold World.set; rw [hv]
          obtain ⟨T', t1, t2, t3⟩ := ih (v.set u c ds).1 (Tbl.set u T ds).1 hs (by rw [hs2]; exact h2)
          refine ⟨T', t1, t2, ?_⟩
          simp only [MapCall.run, Maps.set, List.length_nil, if_true]; exact t3
        | overwrite n dd =>
          have hs : (v.overwrite u c n dd).1.maps =
              .composite (w.maps.length :: ms ++ [d]) :: .impl (Tbl.overwrite u T n dd) :: w.maps := by
            unfold World.overwrite; rw [hv]; simp only; rw [h1]; simp [Maps.overwrite]
          have hs2 : (v.overwrite u c n dd).1.ctxs = v.ctxs := by unfold World.overwrite; rw [hv]
          obtain ⟨T', t1, t2, t3⟩ := ih (v.overwrite u c n dd).1 (Tbl.overwrite u T n dd) hs (by rw [hs2]; exact h2)
          refine ⟨T', t1, t2, ?_⟩
          simp only [MapCall.run, Maps.overwrite, List.length_nil, if_true]; exact t3
    obtain ⟨T', t1, t2, t3⟩ := key calls w1 [] (by rw [← hi]; simp [World.newMap, World.setDm]) (by
      rw [← hi]; simp [World.newMap, World.setDm, Ctxs.obj_modify, hc, CtxObj.withDm])
    rw [t3]
    unfold World.get
    rw [ctx_get_dm u _ _ _ _ t2 (by intro a b e h; cases h), t1]
    rw [ctx_get_dm u w.maps _ _ _ hc (by intro a b e h; cases h)]
    have hin : ∀ j < w.maps.length, Maps.get u (MapObj.impl T' :: w.maps) j name = Maps.get u w.maps j name := by
      intro j hj
      exact get_append u [MapObj.impl T'] w.maps j hj name
    have hfind : ∀ l : List Nat, (∀ j ∈ l, j < w.maps.length) →
        l.findSome? (fun j => Maps.get u (MapObj.impl T' :: w.maps) j name) = l.findSome? (fun j => Maps.get u w.maps j name) := by
      intro l
      induction l with
      | nil => intro _; rfl
      | cons a l ih =>
        intro hl
        rw [List.findSome?_cons, List.findSome?_cons, hin a (hl a (by simp)), ih (fun j hj => hl j (by simp [hj]))]
    have h1 : Maps.get u (MapObj.impl T' :: w.maps) w.maps.length name = Tbl.get u T' name := by simp [Maps.get]
    have h2 : Maps.get u ([MapObj.impl T'] : Maps ν) 0 name = Tbl.get u T' name := by simp [Maps.get]
    have h3 : Maps.get u (MapObj.composite (w.maps.length :: ms ++ [d]) :: MapObj.impl T' :: w.maps)
        (w.maps.length + 1) name =
        (w.maps.length :: ms ++ [d]).findSome? (fun j => Maps.get u (MapObj.impl T' :: w.maps) j name) := by
      generalize hh : (MapObj.impl T' :: w.maps : Maps ν) = hh'
      have : hh'.length = w.maps.length + 1 := by rw [← hh]; simp
      rw [Maps.get, if_pos this.symm]
    simp only [CtxObj.dm]
    rw [h2, h3, List.cons_append, List.findSome?_cons, h1, List.findSome?_append, hfind ms hlt,
      List.findSome?_cons, hin d hd, List.findSome?_nil, List.filterMap_reverse, ← e1, hrev]
    cases Tbl.get u T' name with
    | some x => rfl
    | none =>
      simp only
      cases ms.findSome? (fun j => Maps.get u w.maps j name) with
      | some x => rfl
      | none => cases Maps.get u w.maps d name <;> rfl

/-- In particular: without an own declaration the last loaded unit of the uses clause that declares the name
gives its meaning. -/
theorem C24_last_wins (w w1 : World ν) (hw : w.WF) (c parent d : Nat) (path ppath : Str) (us : List Nat) (pd : Nat)
    (hc : w.ctxs.obj c = some (.unit parent path d)) (hp : w.ctxs.obj parent = some (.program ppath us pd))
    (hu : ∀ i m, w.unitDm i = some m → m < w.maps.length)
    (before after : List Str) (n : Str) (hi : w.importUnitDecls u c (before ++ n :: after) = some w1)
    (i m : Nat) (x : Decl ν) (name : Str) (hl : loaded u w us n = some i) (hm : w.unitDm i = some m)
    (hx : w.maps.get u m name = some x)
    (ha : ∀ n' ∈ after, ∀ i' m', loaded u w us n' = some i' → w.unitDm i' = some m' → w.maps.get u m' name = none) :
    w1.get u c name = some x := by
  have h := C24_precedence u w w1 hw c parent d path ppath us pd hc hp hu _ hi [] name
  simp only [List.foldl_nil] at h
  rw [h]
  have e : Maps.get u ([MapObj.impl []] : Maps ν) 0 name = none := by simp [Maps.get, Tbl.get, Tbl.find]
  rw [e]
  simp only [List.reverse_append, List.reverse_cons, List.filterMap_append, List.findSome?_append]
  have e2 : (after.reverse.filterMap (loaded u w us)).findSome?
      (fun i => (w.unitDm i).bind (fun m => w.maps.get u m name)) = none := by
    rw [List.findSome?_eq_none_iff]
    intro i' hi'
    rw [List.mem_filterMap] at hi'
    obtain ⟨n', hn', hl'⟩ := hi'
    cases hm' : w.unitDm i' with
    | none => rfl
    | some m' => exact ha n' (List.mem_reverse.mp hn') i' m' hl' hm'
  rw [e2]
  simp [hl, hm, hx]

/-- non-vacuity: units `A` and `B` both declare `x`; with `uses a, b` the `x` of `B` is found. -/
example : let w : World Nat := ⟨[.chained 0 [], .impl [(r!"x", ⟨r!"x", 2⟩)], .impl [(r!"x", ⟨r!"x", 1⟩)], .embedded],
      [⟨r!"A", some 1⟩, ⟨r!"B", some 2⟩], [.unit 0 [] 3, .program [] [0, 1] 3]⟩
    (w.importUnitDecls asciiUni 1 [r!"a", r!"b"]).isSome = true ∧
    ((w.importUnitDecls asciiUni 1 [r!"a", r!"b"]).map (fun w1 => w1.get asciiUni 1 r!"x")) = some (some ⟨r!"x", 2⟩) := by
  refine ⟨by decide, by decide⟩

end TP.Props
