import Verif.Lemmas.Evolve

/-!
# Forward declarations of classes
-/

namespace TP
open Spec Maps

/-- a full class type -/
def IsClass (t : PType (Decl Node)) : Prop := ∃ h ms, t = .cls h ms

/-- from `k` to `k'` the type `i = ty` is declared -/
structure Declares (u : Uni) (k k' : DS) (i : Ident) (ty : PType (Decl Node)) : Prop where
  ready : Rooted k'
  types : k'.types = k.types ++ [ty]
  get : ∀ name, k'.get u name = if u.toLower i.name = u.toLower name then some ⟨i.name, .type k.types.length⟩ else k.get u name
  new : (k.get u i.name = none ∧ k'.actual = k.actual) ∨
    ∃ d j, k.get u i.name = some d ∧ d.node = .type j ∧ k.types[j]? = some .forward ∧ IsClass ty ∧
      k'.actual = (j, k.types.length) :: k.actual

section
variable {u : Uni} {k k' : DS}

theorem tbl_first (h : Rooted k) {t : Nat} (ht : Innermost k t) {name : Str} {d : Decl Node}
    (e : (tbl k.w.maps t).get u name = some d) : k.get u name = some d := by
  obtain ⟨o, t', h1, h2, h3⟩ := h
  obtain ⟨o', h4, h5⟩ := ht
  rw [h1] at h4; cases h4
  rw [h3] at h5; cases h5
  rw [rooted_get u h1 h2, get_layers]
  obtain ⟨l, hl⟩ := layers_target h3
  rw [hl, List.findSome?_cons, own_target u h3, e]

/-- one more declaration in the innermost table -/
theorem get_one (h : Rooted k) {t : Nat} (ht : Innermost k t) {m : Tbl Node} {d : Decl Node} {n : Str}
    (hm : ∀ key, m.find key = if u.toLower n = key then some d else (tbl k.w.maps t).find key)
    {ts : List (PType (Decl Node))} {ac : List (Nat × Nat)} :
    Rooted { k with w := { k.w with maps := Maps.upd k.w.maps t m }, types := ts, actual := ac } ∧
    ∀ name, ({ k with w := { k.w with maps := Maps.upd k.w.maps t m }, types := ts, actual := ac } : DS).get u name =
      if u.toLower n = u.toLower name then some d else k.get u name := by
  have main := fun name => evolves_upd (u := u) h ht m (fun key hn => by
    rw [hm] at hn
    split at hn
    · cases hn
    · exact hn) name (ts := ts) (ac := ac)
  refine ⟨(main []).1, fun name => ?_⟩
  rw [(main name).2]
  unfold Tbl.get Tbl.regularize
  rw [hm]
  by_cases c : u.toLower n = u.toLower name
  · rw [if_pos c, if_pos c]; rfl
  · rw [if_neg c, if_neg c]
    cases e : (tbl k.w.maps t).find (u.toLower name) with
    | none => rfl
    | some x => exact (tbl_first h ht e).symm

theorem declares_set (h : Rooted k) {i : Ident} {ty : PType (Decl Node)} (hg : k.get u i.name = none)
    (e : k.set u [i] (.type ty) = .ok k') : Declares u k k' i ty := by
  obtain ⟨o, t, h1, h2, h3⟩ := id h
  have hd : k.w.dm k.cur = some o.dm := World.dm_eq.2 ⟨o, h1, rfl⟩
  have hset := set_eq u k.w.maps o.dm [⟨i.name, .type k.types.length⟩]
  rw [h3] at hset
  simp only at hset
  have hk' : k' = { k with
      w := { k.w with maps := Maps.upd k.w.maps t ((tbl k.w.maps t).set u [⟨i.name, .type k.types.length⟩]).1 }
      types := k.types ++ [ty]
      actual := k.actual } := by
    rw [setR_ok e]
    unfold World.set
    rw [hd]
    simp only [List.map_cons, List.map_nil, DS.mkNode, DS.addType]
    rw [hset]
  have hok : ((tbl k.w.maps t).set u [⟨i.name, .type k.types.length⟩]).2 = true := by
    unfold DS.set DS.setR World.set at e
    rw [hd] at e
    simp only [List.map_cons, List.map_nil, DS.mkNode] at e
    rw [hset] at e
    simp only at e
    by_cases c : ((tbl k.w.maps t).set u [⟨i.name, .type k.types.length⟩]).2 = true
    · exact c
    · rw [if_neg c] at e; cases e
  obtain ⟨pre, post, hp1, hp2, hp3, -, hp4, -⟩ := Tbl.set_spec u [(⟨i.name, .type k.types.length⟩ : Decl Node)] (tbl k.w.maps t)
    ((tbl k.w.maps t).set u [⟨i.name, .type k.types.length⟩]).1 ((tbl k.w.maps t).set u [⟨i.name, .type k.types.length⟩]).2 rfl
  rw [hp4 hok, List.append_nil] at hp1
  subst hp1
  have := get_one (u := u) h ⟨o, h1, h3⟩ (n := i.name) (d := ⟨i.name, .type k.types.length⟩)
    (m := ((tbl k.w.maps t).set u [⟨i.name, .type k.types.length⟩]).1) (fun key => by
      rw [hp2]
      by_cases c : u.toLower i.name = key
      · simp [c]
      · simp [c]) (ts := k.types ++ [ty]) (ac := k.actual)
  rw [← hk'] at this
  exact ⟨this.1, by rw [hk'], this.2, .inl ⟨hg, by rw [hk']⟩⟩

theorem declares_complete (h : Rooted k) {i : Ident} {ty : PType (Decl Node)} {old : Decl Node} (hg : k.get u i.name = some old)
    (e : k.complete u old i ty = .ok k') : Declares u k k' i ty := by
  obtain ⟨o, t, h1, h2, h3⟩ := id h
  have hd : k.w.dm k.cur = some o.dm := World.dm_eq.2 ⟨o, h1, rfl⟩
  have how := overwrite_eq u k.w.maps o.dm i.name ⟨i.name, .type k.types.length⟩
  rw [h3] at how
  simp only at how
  unfold DS.complete at e
  split at e
  · rename_i j hh ms hj
    split at e
    · rename_i hf
      have hk' : k' = { k with
          w := { k.w with maps := Maps.upd k.w.maps t ((tbl k.w.maps t).overwrite u i.name ⟨i.name, .type k.types.length⟩) }
          types := k.types ++ [PType.cls hh ms]
          actual := (j, k.types.length) :: k.actual } := by
        rw [setR_ok e]
        unfold World.overwrite
        rw [hd]
        simp only
        rw [how]
      have := get_one (u := u) h ⟨o, h1, h3⟩ (n := i.name) (d := ⟨i.name, .type k.types.length⟩)
        (m := (tbl k.w.maps t).overwrite u i.name ⟨i.name, .type k.types.length⟩) (fun key => rfl)
        (ts := k.types ++ [PType.cls hh ms]) (ac := (j, k.types.length) :: k.actual)
      rw [← hk'] at this
      exact ⟨this.1, by rw [hk'], this.2, .inr ⟨old, j, hg, hj, hf, ⟨hh, ms, rfl⟩, by rw [hk']⟩⟩
    · cases e
  · cases e

/-- the declarations of a type section, one after the other -/
inductive SecRun (u : Uni) : DS → List (TypeDecl (Decl Node)) → DS → Prop
  | nil {k : DS} : SecRun u k [] k
  | cons {k k1 k2 k' : DS} {d : TypeDecl (Decl Node)} {ds : List (TypeDecl (Decl Node))} : Evolves u k k1 →
    Declares u k1 k2 d.ident d.type → SecRun u k2 ds k' → SecRun u k (d :: ds) k'

theorem declareType_ok {i : Ident} {ty : PType (Decl Node)} {s s' : PS DS} {a : Unit} (h : Rooted s.cx)
    (e : declareType (declEnv u) i ty s = .ok a s') : Declares u s.cx s'.cx i ty := by
  unfold declareType at e
  obtain ⟨o, s1, e1, e⟩ := ok_bind e
  cases e1
  cases hg : s.cx.get u i.name with
  | none =>
    rw [show (declEnv u).toEnv.get s.cx i.name = none from hg] at e
    change setDecl (declEnv u) [i] (.type ty) s = _ at e
    unfold setDecl at e
    cases e1 : (declEnv u).set s.cx [i] (.type ty) with
    | ok c => rw [e1] at e; cases e; exact declares_set h hg e1
    | _ => rw [e1] at e; cases e
  | some old =>
    rw [show (declEnv u).toEnv.get s.cx i.name = some old from hg] at e
    change (if (declEnv u).isType old then completeType (declEnv u) old i ty else P.fail) s = _ at e
    split at e
    · unfold completeType at e
      cases e1 : (declEnv u).complete s.cx old i ty with
      | ok c => rw [e1] at e; cases e; exact declares_complete h hg e1
      | _ => rw [e1] at e; cases e
    · cases e

theorem ok_traced {α : Type} {p : P DS α} {s s' : PS DS} {a : α} (h : traced p s = .ok a s') : ∃ s1, p s = .ok a s1 ∧ s1.cx = s'.cx := by
  unfold traced at h
  obtain ⟨t, s1, e1, h⟩ := ok_bind h
  obtain ⟨b, s2, e2, h⟩ := ok_bind h
  obtain ⟨t', s3, e3, h⟩ := ok_bind h
  cases h
  have : s1 = s := by unfold P.cur at e1; split at e1 <;> cases e1 <;> rfl
  subst this
  exact ⟨s2, e2, (quiet_cur _ _ _ e3).symm⟩

theorem typeDecl_ok {n : Nat} {s s' : PS DS} {d : TypeDecl (Decl Node)} (h : Rooted s.cx)
    (e : parseTypeDecl u (declEnv u) n s = .ok d s') :
    ∃ k, Evolves u s.cx k ∧ Declares u k s'.cx d.ident d.type := by
  unfold parseTypeDecl at e
  obtain ⟨s1, e, hs1⟩ := ok_traced e
  rw [← hs1]
  obtain ⟨t, s2, e2, e⟩ := ok_bind e
  obtain ⟨_, s3, e3, e⟩ := ok_bind e
  obtain ⟨_, s4, e4, e⟩ := ok_bind e
  obtain ⟨c, s5, e5, e⟩ := ok_bind e
  have h5 : s5.cx = s.cx := by
    rw [quiet_is _ _ _ _ e5, quiet_next _ _ _ e4, quiet_nextIs _ _ _ _ e3, quiet_current _ _ _ _ e2]
  have main : ∀ s6 : PS DS, s6.cx = s.cx → (do
      let ty ← parseType u (declEnv u) n
      declareType (declEnv u) (Ident.ofTok t) ty
      let pd ← typeDeclEnd u
      pure ⟨Ident.ofTok t, ty, pd⟩ : P DS (TypeDecl (Decl Node))) s6 = .ok d s1 →
      ∃ k, Evolves u s.cx k ∧ Declares u k s1.cx d.ident d.type := by
    intro s6 h6 e
    obtain ⟨ty, s7, e7, e⟩ := ok_bind e
    obtain ⟨_, s8, e8, e⟩ := ok_bind e
    obtain ⟨pd, s9, e9, e⟩ := ok_bind e
    cases e
    have q : Quiet (typeDeclEnd u : P DS _) := by unfold typeDeclEnd; quiets
    rw [q _ _ _ e9]
    obtain ⟨h7, h8, -⟩ := (typesTr (evolveBase u) n).type s6 (by rw [h6]; exact h) (fun _ h => by cases h) _ _ e7
    exact ⟨s7.cx, by rw [← h6]; exact (h8 (by rw [h6]; exact h)).2, declareType_ok h7 e8⟩
  cases c with
  | true =>
    obtain ⟨_, s6, e6, e⟩ := ok_bind (p := P.next) e
    exact main s6 ((quiet_next _ _ _ e6).trans h5) e
  | false =>
    exact main s5 h5 e

theorem typeDecls_run : ∀ (n : Nat) {s s' : PS DS} {ds : List (TypeDecl (Decl Node))}, Rooted s.cx →
    parseTypeDecls u (declEnv u) n s = .ok ds s' → SecRun u s.cx ds s'.cx := by
  intro n
  induction n with
  | zero => intro s s' ds _ e; cases e
  | succ n ih =>
    intro s s' ds h e
    unfold parseTypeDecls at e
    obtain ⟨d, s1, e1, e⟩ := ok_bind e
    obtain ⟨c, s2, e2, e⟩ := ok_bind e
    obtain ⟨k1, h1, h2⟩ := typeDecl_ok h e1
    have q2 := quiet_is _ _ _ _ e2
    cases c with
    | true =>
      cases e
      rw [q2]
      exact .cons h1 h2 .nil
    | false =>
      obtain ⟨_, s3, e3, e⟩ := ok_bind (p := P.current _) e
      obtain ⟨_, s4, e4, e⟩ := ok_bind e
      obtain ⟨c, s5, e5, e⟩ := ok_bind e
      have q5 : s5.cx = s1.cx := by
        rw [quiet_is _ _ _ _ e5, quiet_next _ _ _ e4, quiet_current _ _ _ _ e3, q2]
      cases c with
      | true => cases e; rw [q5]; exact .cons h1 h2 .nil
      | false =>
        obtain ⟨rest, s6, e6, e⟩ := ok_bind (p := parseTypeDecls u (declEnv u) n) e
        cases e
        have := ih (by rw [q5]; exact h2.ready) e6
        rw [q5] at this
        exact .cons h1 h2 this

theorem typeSection_run {n : Nat} {s s' : PS DS} {ds : List (TypeDecl (Decl Node))} (h0 : Rooted s.cx)
    (h : parseTypeSection u (declEnv u) n s = .ok ds s') :
    ∃ k, SecRun u { s.cx with pending := [] } ds k ∧ s'.cx = { k.runSection u with pending := s.cx.pending } := by
  unfold parseTypeSection withSection at h
  cases e : (do P.next; parseTypeDecls u (declEnv u) n : P DS _) { s with cx := (declEnv u).openSection s.cx } with
  | ok a s1 =>
    rw [e] at h
    cases h
    obtain ⟨_, s2, e2, e⟩ := ok_bind e
    have q := quiet_next _ _ _ e2
    have h2 : Rooted s2.cx := by rw [q]; exact h0
    have := typeDecls_run n h2 e
    rw [q] at this
    exact ⟨_, this, rfl⟩
  | _ => rw [e] at h; cases h

/-! ## What such a section does -/

/-- the names that are types are types of the list -/
def Bounded (u : Uni) (k : DS) : Prop := ∀ name d j, k.get u name = some d → d.node = .type j → j < k.types.length

theorem Shadowed.noType {name : Str} {d : Decl Node} (h : Shadowed u name d) (j : Nat) : d.node ≠ .type j := by
  obtain ⟨tg, i, -, -, rfl⟩ := h
  intro e; cases e

theorem Evolves.bounded (h : Evolves u k k') (hb : Bounded u k) : Bounded u k' := by
  intro name d j e hj
  rw [h.types]
  rcases h.get name with g | ⟨d', g, hs⟩
  · rw [g] at e; exact hb name d j e hj
  · rw [g] at e; cases e
    exact (hs.noType j hj).elim

theorem Declares.bounded {i : Ident} {ty : PType (Decl Node)} (h : Declares u k k' i ty) (hb : Bounded u k) : Bounded u k' := by
  intro name d j e hj
  rw [h.types, List.length_append, List.length_singleton]
  rw [h.get] at e
  split at e
  · cases e; cases hj; omega
  · have := hb name d j e hj; omega

theorem SecRun.types {ds : List (TypeDecl (Decl Node))} (h : SecRun u k ds k') : k'.types = k.types ++ ds.map TypeDecl.type := by
  induction h with
  | nil => simp
  | cons h1 h2 _ ih => rw [ih, h2.types, h1.types]; simp

theorem SecRun.actual {ds : List (TypeDecl (Decl Node))} (h : SecRun u k ds k') : ∀ p ∈ k.actual, p ∈ k'.actual := by
  induction h with
  | nil => exact fun _ h => h
  | cons h1 h2 _ ih =>
    intro p hp
    refine ih p ?_
    rw [← h1.actual] at hp
    rcases h2.new with ⟨-, e⟩ | ⟨_, _, _, _, _, _, e⟩
    · rw [e]; exact hp
    · rw [e]; exact List.mem_cons_of_mem _ hp

/-- the same name -/
def SameId (u : Uni) (a b : Str) : Prop := u.toLower a = u.toLower b

/-- a name that is not declared in the section -/
theorem SecRun.kept {ds : List (TypeDecl (Decl Node))} (h : SecRun u k ds k') {name : Str} {d : Decl Node}
    (hg : k.get u name = some d ∨ ∃ d, k.get u name = some d ∧ Shadowed u name d) (hn : ∀ e ∈ ds, ¬ SameId u e.ident.name name) :
    k'.get u name = some d ∨ ∃ d, k'.get u name = some d ∧ Shadowed u name d := by
  induction h with
  | nil => exact hg
  | cons h1 h2 _ ih =>
    refine ih ?_ fun e he => hn e (List.mem_cons_of_mem _ he)
    rw [h2.get, if_neg (show ¬ u.toLower _ = u.toLower _ from hn _ List.mem_cons_self)]
    rcases h1.get name with g | g
    · rw [g]; exact hg
    · exact .inr g

/-- a visible name that is declared in the section is a forward declaration, completed there -/
theorem SecRun.visible {ds : List (TypeDecl (Decl Node))} (h : SecRun u k ds k') (hb : Bounded u k) :
    ∀ i (hi : i < ds.length) d, (∀ j (hj : j < i), ¬ SameId u ds[j].ident.name ds[i].ident.name) →
    k.get u ds[i].ident.name = some d →
    ∃ j, d.node = .type j ∧ k.types[j]? = some .forward ∧ IsClass ds[i].type ∧ (j, k.types.length + i) ∈ k'.actual := by
  induction h with
  | nil => intro i hi; simp at hi
  | @cons k k1 k2 k' d0 ds h1 h2 h3 ih =>
    have first : ∀ d, k.get u d0.ident.name = some d →
        ∃ j, d.node = .type j ∧ k.types[j]? = some .forward ∧ IsClass d0.type ∧ (j, k.types.length) ∈ k'.actual := by
      intro d hd
      rcases h1.get d0.ident.name with g | ⟨d', g, hs⟩
      · rcases h2.new with ⟨e, -⟩ | ⟨d', j, e1, e2, e3, e4, e5⟩
        · rw [g, hd] at e; cases e
        · rw [g, hd] at e1; cases e1
          rw [h1.types] at e3 e5
          exact ⟨j, e2, e3, e4, h3.actual _ (by rw [e5]; exact List.mem_cons_self)⟩
      · rcases h2.new with ⟨e, -⟩ | ⟨d', j, e1, e2, e3, e4, e5⟩
        · rw [g] at e; cases e
        · rw [g] at e1; cases e1
          exact (hs.noType j e2).elim
    intro i hi d hf hd
    cases i with
    | zero => simpa using first d hd
    | succ i =>
      simp only [List.getElem_cons_succ] at hd ⊢
      have hi' : i < ds.length := by simpa using hi
      have hb2 := h2.bounded (h1.bounded hb)
      have hlen : k2.types.length = k.types.length + 1 := by rw [h2.types, h1.types]; simp
      have c : ¬ u.toLower d0.ident.name = u.toLower ds[i].ident.name := hf 0 (by omega)
      have : ∃ d', k2.get u ds[i].ident.name = some d' ∧ (d' = d ∨ Shadowed u ds[i].ident.name d') := by
        rw [h2.get, if_neg c]
        rcases h1.get ds[i].ident.name with g | ⟨d', g, hs⟩
        · exact ⟨d, by rw [g]; exact hd, .inl rfl⟩
        · exact ⟨d', g, .inr hs⟩
      obtain ⟨d', hd', hor⟩ := this
      obtain ⟨j, e1, e2, e3, e4⟩ := ih hb2 i hi' d' (fun j hj => by simpa using hf (j + 1) (by omega)) hd'
      rcases hor with rfl | hs
      · have hj := hb _ _ j hd e1
        refine ⟨j, e1, ?_, e3, ?_⟩
        · rw [h2.types, h1.types, List.getElem?_append_left hj] at e2; exact e2
        · rw [hlen] at e4
          rw [show k.types.length + (i + 1) = k.types.length + 1 + i from by omega]; exact e4
      · exact (hs.noType j e1).elim

/-- two declarations of one name are a forward declaration and its completion -/
theorem SecRun.twice {ds : List (TypeDecl (Decl Node))} (h : SecRun u k ds k') (hb : Bounded u k) :
    ∀ i j (hij : i < j) (hj : j < ds.length), SameId u ds[i].ident.name ds[j].ident.name →
    ds[i].type = .forward ∧ IsClass ds[j].type ∧ (k.types.length + i, k.types.length + j) ∈ k'.actual := by
  induction h with
  | nil => intro i j _ hj; simp at hj
  | @cons k k1 k2 k' d0 ds h1 h2 h3 ih =>
    intro i j hij hj hs
    have hb2 := h2.bounded (h1.bounded hb)
    have hlen : k2.types.length = k.types.length + 1 := by rw [h2.types, h1.types]; simp
    have first : ∀ j (hj : j < ds.length), SameId u d0.ident.name ds[j].ident.name →
        d0.type = .forward ∧ IsClass ds[j].type ∧ (k.types.length, k.types.length + (j + 1)) ∈ k'.actual := by
      intro j
      induction j using Nat.strongRecOn with
      | ind j ihj =>
        intro hj hs
        obtain ⟨l, e1, e2, e3, e4⟩ := h3.visible hb2 j hj ⟨d0.ident.name, .type k1.types.length⟩ (fun m hm hs' => by
          obtain ⟨-, ⟨hh, ms, e⟩, -⟩ := ihj m hm (by omega) (hs.trans hs'.symm)
          have := (ih hb2 m j hm hj hs').1
          rw [e] at this; cases this) (by rw [h2.get, if_pos (show u.toLower _ = u.toLower _ from hs)])
        cases e1
        rw [h2.types] at e2
        simp at e2
        refine ⟨e2, e3, ?_⟩
        rw [hlen, h1.types] at e4
        rw [show k.types.length + (j + 1) = k.types.length + 1 + j from by omega]; exact e4
    obtain ⟨j, rfl⟩ : ∃ j', j = j' + 1 := ⟨j - 1, by omega⟩
    have hj' : j < ds.length := by simpa using hj
    simp only [List.getElem_cons_succ] at hs ⊢
    cases i with
    | zero =>
      simp only [List.getElem_cons_zero] at hs ⊢
      exact first j hj' hs
    | succ i =>
      simp only [List.getElem_cons_succ] at hs ⊢
      obtain ⟨e1, e2, e3⟩ := ih hb2 i j (by omega) hj' hs
      refine ⟨e1, e2, ?_⟩
      rw [hlen] at e3
      rw [show k.types.length + (i + 1) = k.types.length + 1 + i from by omega,
        show k.types.length + (j + 1) = k.types.length + 1 + j from by omega]
      exact e3

/-- the last declaration of a name is the one that is found -/
theorem SecRun.last {ds : List (TypeDecl (Decl Node))} (h : SecRun u k ds k') :
    ∀ i (hi : i < ds.length), (∀ j (_ : i < j) (hj : j < ds.length), ¬ SameId u ds[j].ident.name ds[i].ident.name) →
    k'.get u ds[i].ident.name = some ⟨ds[i].ident.name, .type (k.types.length + i)⟩ ∨
      ∃ d, k'.get u ds[i].ident.name = some d ∧ Shadowed u ds[i].ident.name d := by
  induction h with
  | nil => intro i hi; simp at hi
  | @cons k k1 k2 k' d0 ds h1 h2 h3 ih =>
    intro i hi hl
    have hlen : k2.types.length = k.types.length + 1 := by rw [h2.types, h1.types]; simp
    cases i with
    | zero =>
      simp only [List.getElem_cons_zero] at hl ⊢
      refine h3.kept (.inl (by rw [h2.get, if_pos rfl, h1.types]; rfl)) fun e he => ?_
      obtain ⟨j, hj, rfl⟩ := List.getElem_of_mem he
      exact hl (j + 1) (by omega) (by simpa using hj)
    | succ i =>
      simp only [List.getElem_cons_succ] at hl ⊢
      have := ih i (by simpa using hi) fun j hij hj => hl (j + 1) (by omega) (by simpa using hj)
      rw [hlen] at this
      rw [show k.types.length + (i + 1) = k.types.length + 1 + i from by omega]; exact this

end
end TP
