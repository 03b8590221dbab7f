import Verif.Spec.Ranked
import Verif.Lemmas.Acyclic
import Verif.Lemmas.Heap
import Verif.Lemmas.TraceSection

/-!
# The names of the declared types

Every declared type and every reference that is resolved later has a name; what is found for a name has this name.
With a ranking of the names no type leads back to itself.
-/

namespace TP
open Spec Maps

/-! ## Names in the tokens and in the type -/

section
variable {u : Uni} {δ : Type}

theorem heirs_of : ∀ {h : List (TypeId δ)} {x y : List Token}, gTypeIds u h x y → ∀ t ∈ h, t.unit = none →
    t.ident.name ∈ heirs x := by
  intro h
  induction h with
  | nil => intro x y hg; exact hg.elim
  | cons a rest ih =>
    intro x y hg t ht hu
    have head : ∀ {z}, gTypeId u a x z → (∃ c w, z = c :: w ∧ c.typ = .symbol) → a.unit = none ∧ ∃ b, x = b :: z ∧ a.ident.name = b.raw := by
      intro z hz ⟨c, w, hw, hc⟩
      unfold gTypeId at hz
      cases hq : a.unit with
      | some q =>
        rw [hq] at hz
        obtain ⟨_, -, _, -, rfl, t', w', e', h1⟩ := hz
        rw [hw] at e'
        cases e'
        have : c.typ = .ident := h1.1
        rw [hc] at this; cases this
      | none =>
        rw [hq] at hz
        rcases hz with ⟨b, rfl, hb⟩ | ⟨-, rfl, -⟩
        · exact ⟨rfl, b, rfl, by rw [hb]⟩
        · cases hw
    cases rest with
    | nil =>
      obtain ⟨z, h1, e, c, w, e', hc⟩ := hg
      obtain ⟨-, b, rfl, hb⟩ := head h1 ⟨c, w, e', hc.1⟩
      rcases List.mem_cons.1 ht with rfl | ht
      · rw [hb, e']
        unfold heirs
        split <;> exact List.mem_cons_self
      · cases ht
    | cons a' rest =>
      obtain ⟨z, h1, v, ⟨c, e', hc⟩, h2⟩ := hg
      obtain ⟨-, b, rfl, hb⟩ := head h1 ⟨c, v, e', hc.1⟩
      subst e'
      have : c.raw = r!"," := hc.2
      unfold heirs
      rw [if_pos this]
      rcases List.mem_cons.1 ht with rfl | ht
      · rw [hb]; exact List.mem_cons_self
      · exact List.mem_cons_of_mem _ (ih h2 t ht hu)

/-- the first token is followed -/
theorem follows_head (t : Token) (ts : List Token) : t.raw ∈ follows u (t :: ts) := by
  rw [follows]; exact List.mem_cons_self

theorem follows_word {t : Token} {ts : List Token} (h : u.toUpper t.raw ∈ [r!"TYPE", r!"PACKED", r!"SET", r!"FILE", r!"OF"])
    {n : Str} (hn : n ∈ follows u ts) : n ∈ follows u (t :: ts) := by
  rw [follows, if_pos h]
  exact List.mem_cons_of_mem _ hn

theorem follows_kw {w : Str} {x y : List Token} (hw : w ∈ [r!"TYPE", r!"PACKED", r!"SET", r!"FILE", r!"OF"]) (h : kwR u w x y)
    {n : Str} (hn : n ∈ follows u y) : n ∈ follows u x := by
  obtain ⟨t, rfl, -, ht⟩ := h
  exact follows_word (by rw [ht]; exact hw) hn

theorem follows_packed {b : Bool} {x y : List Token} (h : gPacked u b x y) {n : Str} (hn : n ∈ follows u y) : n ∈ follows u x := by
  cases b with
  | true => exact follows_kw (by decide) h hn
  | false => rw [show x = y from h]; exact hn

theorem follows_typeId {t : TypeId δ} {x y : List Token} (h : gTypeId u t x y) (hu : t.unit = none) : t.ident.name ∈ follows u x := by
  unfold gTypeId at h
  rw [hu] at h
  rcases h with ⟨b, rfl, hb⟩ | ⟨rfl, -, hb⟩
  · rw [hb]; exact follows_head b y
  · rw [hb]; exact List.mem_singleton.2 rfl

/-- the names a search may follow are read off the tokens -/
theorem follows_of : ∀ (ty : PType (Decl Node)) {x y : List Token}, gType u ty x y → ∀ t ∈ chainIds ty, t.unit = none →
    t.ident.name ∈ follows u x := by
  intro ty
  induction ty using chainIds.induct with
  | case1 t0 =>
    intro x y hg t ht hu
    cases List.mem_singleton.1 ht
    rw [gType] at hg
    exact follows_typeId hg.1 hu
  | case2 p t0 ih =>
    intro x y hg t ht hu
    rw [gType] at hg
    obtain ⟨a, h1, b, h2, c, h3, h4⟩ := hg
    rw [chainIds] at ht
    exact follows_packed h1 (follows_kw (by decide) h2 (follows_kw (by decide) h3 (ih h4 t ht hu)))
  | case3 p t0 =>
    intro x y hg t ht hu
    cases List.mem_singleton.1 ht
    rw [gType] at hg
    obtain ⟨a, h1, b, h2, c, h3, h4⟩ := hg
    exact follows_packed h1 (follows_kw (by decide) h2 (follows_kw (by decide) h3 (follows_typeId h4 hu)))
  | case4 h ms =>
    intro x y hg t ht hu
    rw [gType] at hg
    obtain ⟨a, ⟨w, rfl, hw⟩, b, h2, -⟩ := hg
    rw [chainIds] at ht
    rcases h2 with ⟨rfl, -⟩ | ⟨c, ⟨p, rfl, hp⟩, d, h3, -⟩
    · cases ht
    · have hw : u.toUpper w.raw = r!"CLASS" := hw.2
      have hp : p.raw = r!"(" := hp.2
      rw [follows, hw, if_neg (by decide), if_pos ⟨rfl, by simp [hp]⟩]
      exact List.mem_cons_of_mem _ (heirs_of h3 t ht hu)
  | case5 ty h1 h2 h3 h4 =>
    intro x y hg t ht hu
    rw [chainIds] at ht
    · cases ht
    all_goals assumption

theorem chain_sub : ∀ (ty : PType (Decl Node)), ∀ t ∈ chainIds ty, t ∈ idsType ty := by
  intro ty
  induction ty using chainIds.induct with
  | case1 t0 => intro t ht; simpa [chainIds, idsType] using ht
  | case2 p t0 ih => intro t ht; rw [chainIds] at ht; rw [idsType]; exact ih t ht
  | case3 p t0 => intro t ht; simpa [chainIds, idsType] using ht
  | case4 h ms => intro t ht; rw [chainIds] at ht; rw [idsType]; exact List.mem_append_left _ ht
  | case5 ty h1 h2 h3 h4 =>
    intro t ht
    rw [chainIds] at ht
    · cases ht
    all_goals assumption

end

/-! ## What is stored -/

section
variable {u : Uni} {P : Str → Node → Prop} {h : Maps Node}

theorem Kept.set (hs : Kept P h) (i : Nat) {ds : List (Decl Node)} (hd : ∀ d ∈ ds, P (u.toLower d.name) d.node) :
    Kept P (h.set u i ds).1 := by
  have := set_eq u h i ds
  cases e : target h i with
  | none => rw [e] at this; rw [this.1]; exact hs
  | some t =>
    rw [e] at this
    rw [this]
    refine hs.upd fun p hp => ?_
    rcases tblSet_mem u _ _ p hp with hp | ⟨hp, e'⟩
    · exact hs t p hp
    · rw [e']; exact hd _ hp

theorem Kept.overwrite (hs : Kept P h) (i : Nat) {name : Str} {d : Decl Node} (hd : P (u.toLower name) d.node) :
    Kept P (h.overwrite u i name d).1 := by
  have := overwrite_eq u h i name d
  cases e : target h i with
  | none => rw [e] at this; rw [this]; exact hs
  | some t =>
    rw [e] at this
    rw [this]
    refine hs.upd fun p hp => ?_
    rcases List.mem_cons.1 hp with rfl | hp
    · exact hd
    · exact hs t p hp

end

/-! ## The invariant -/

/-- if `d` is a declared type then one of this name -/
def DeclIs (nm : List Str) (d : Decl Node) (key : Str) : Prop := ∀ i, d.node = .type i → nm[i]? = some key

/-- the reference of a type identifier leads to what has its name -/
def RefIs (u : Uni) (nm rn : List Str) (t : TypeId (Decl Node)) : Prop :=
  match t.ref with
  | .none => False
  | .now d => DeclIs nm d (u.toLower t.ident.name)
  | .later i => rn[i]? = some (u.toLower t.ident.name)

/-- The types have the names `nm`, the references resolved later `rn`; types lead to types of smaller rank. -/
structure Named (u : Uni) (rank : Str → Nat) (nm rn : List Str) (k : DS) : Prop where
  types : nm.length = k.types.length
  lens : rn.length = k.refs.length
  stored : Kept (fun key n => ∀ i, n = .type i → nm[i]? = some key) k.w.maps
  chain : ∀ (i : Nat) ty key, k.types[i]? = some ty → nm[i]? = some key → ∀ t ∈ chainIds ty, t.ref = .none ∨
    RefIs u nm rn t ∧ rank (u.toLower t.ident.name) < rank key
  refs : ∀ (i : Nat) d, k.refs[i]? = some (some d) → ∃ key, rn[i]? = some key ∧ DeclIs nm d key
  pend : ∀ p ∈ k.pending, rn[p.1]? = some (u.toLower p.2)

theorem getElem?_pre {α : Type} {l l' : List α} (h : l <+: l') {i : Nat} {a : α} (e : l[i]? = some a) : l'[i]? = some a := by
  obtain ⟨r, rfl⟩ := h
  rw [List.getElem?_append_left (List.getElem?_eq_some_iff.1 e).1]
  exact e

theorem DeclIs.mono {nm nm' : List Str} (h : nm <+: nm') {d : Decl Node} {key : Str} (hd : DeclIs nm d key) : DeclIs nm' d key :=
  fun i e => getElem?_pre h (hd i e)

theorem RefIs.mono {u : Uni} {nm nm' rn rn' : List Str} (h : nm <+: nm') (h' : rn <+: rn') {t : TypeId (Decl Node)}
    (hr : RefIs u nm rn t) : RefIs u nm' rn' t := by
  unfold RefIs at hr ⊢
  split at hr
  · exact hr.elim
  · exact hr.mono h
  · exact getElem?_pre h' hr

namespace Named
variable {u : Uni} {rank : Str → Nat} {nm rn : List Str} {k : DS}

theorem same (h : Named u rank nm rn k) {k' : DS} (h1 : k'.w.maps = k.w.maps) (h2 : k'.types = k.types) (h3 : k'.refs = k.refs)
    (h4 : k'.pending = k.pending) : Named u rank nm rn k' :=
  ⟨by rw [h2]; exact h.types, by rw [h3]; exact h.lens, by rw [h1]; exact h.stored, by rw [h2]; exact h.chain,
    by rw [h3]; exact h.refs, by rw [h4]; exact h.pend⟩

/-- other tables -/
theorem maps (h : Named u rank nm rn k) {k' : DS} (h1 : Kept (fun key n => ∀ i, n = .type i → nm[i]? = some key) k'.w.maps)
    (h2 : k'.types = k.types) (h3 : k'.refs = k.refs) (h4 : k'.pending = k.pending) : Named u rank nm rn k' :=
  ⟨by rw [h2]; exact h.types, by rw [h3]; exact h.lens, h1, by rw [h2]; exact h.chain,
    by rw [h3]; exact h.refs, by rw [h4]; exact h.pend⟩

/-- other pending references -/
theorem pending (h : Named u rank nm rn k) {k' : DS} (h1 : k'.w.maps = k.w.maps) (h2 : k'.types = k.types) (h3 : k'.refs = k.refs)
    (h4 : ∀ p ∈ k'.pending, rn[p.1]? = some (u.toLower p.2)) : Named u rank nm rn k' :=
  ⟨by rw [h2]; exact h.types, by rw [h3]; exact h.lens, by rw [h1]; exact h.stored, by rw [h2]; exact h.chain,
    by rw [h3]; exact h.refs, h4⟩

theorem acyclic (h : Named u rank nm rn k) : Acyclic k := by
  have key : ∀ (i : Nat) ty, k.types[i]? = some ty → ∃ key, nm[i]? = some key := by
    intro i ty e
    have := (List.getElem?_eq_some_iff.1 e).1
    rw [← h.types] at this
    exact ⟨_, List.getElem?_eq_getElem this⟩
  refine ⟨⟨fun i => ((nm[i]?).map rank).getD 0, ?_⟩, ?_⟩
  · rintro i j ⟨ty, t, name, h1, h2, h3⟩
    obtain ⟨ki, hi⟩ := key i ty h1
    rcases h.chain i ty ki h1 hi t h2 with hr | ⟨hr, hlt⟩
    · rw [hr] at h3; cases h3
    have hj : nm[j]? = some (u.toLower t.ident.name) := by
      unfold RefIs at hr
      split at hr
      · exact hr.elim
      · rename_i d hd
        rw [hd] at h3
        cases h3
        exact hr j rfl
      · rename_i x hx
        rw [hx] at h3
        obtain ⟨k', h4, h5⟩ := h.refs x ⟨name, .type j⟩ (by
          simp only [DS.ref] at h3
          cases e : k.refs[x]? with
          | none => rw [e] at h3; cases h3
          | some o => rw [e] at h3; rw [show o = _ from h3])
        rw [hr] at h4
        cases h4
        exact h5 j rfl
    simp [hi, hj, hlt]
  · intro ty hty t ht i hi
    obtain ⟨n, hn⟩ := List.mem_iff_getElem?.1 hty
    obtain ⟨kn, hk⟩ := key n ty hn
    rcases h.chain n ty kn hn hk t ht with hr | ⟨hr, -⟩
    · rw [hr] at hi; cases hi
    · unfold RefIs at hr
      rw [hi] at hr
      rw [← h.lens]
      exact (List.getElem?_eq_some_iff.1 hr).1

theorem newRef (h : Named u rank nm rn k) (name : Str) : Named u rank nm (rn ++ [u.toLower name]) (k.newRef name).1 where
  types := h.types
  lens := by simp [DS.newRef, h.lens]
  stored := h.stored
  chain i ty key h1 h2 t ht := (h.chain i ty key h1 h2 t ht).imp_right fun ⟨hr, hl⟩ => ⟨hr.mono List.prefix_rfl (List.prefix_append _ _), hl⟩
  refs i d hd := by
    simp only [DS.newRef] at hd
    rw [List.getElem?_append] at hd
    split at hd
    · obtain ⟨key, h1, h2⟩ := h.refs i d hd
      exact ⟨key, getElem?_pre (List.prefix_append _ _) h1, h2⟩
    · cases hx : i - k.refs.length with
      | zero => rw [hx] at hd; cases hd
      | succ n => rw [hx] at hd; cases hd
  pend p hp := by
    simp only [DS.newRef, List.mem_append, List.mem_singleton] at hp
    rcases hp with hp | rfl
    · exact getElem?_pre (List.prefix_append _ _) (h.pend p hp)
    · show (rn ++ [u.toLower name])[k.refs.length]? = some (u.toLower name)
      rw [← h.lens]
      simp

theorem rollback (h : Named u rank nm rn k) : Named u rank nm rn k.rollback := by
  unfold DS.rollback World.clone
  split
  · rename_i w c e
    split at e
    · cases e
    · cases e
      exact h.same rfl rfl rfl rfl
  · exact h

theorem stack (h : Named u rank nm rn k) : Named u rank nm rn k.stack := by
  unfold DS.stack World.stack
  split
  · rename_i w c e
    split at e
    · cases e
    · cases e
      exact h.maps (h.stored.cons (fun p hp => by cases hp)) rfl rfl rfl
  · exact h

theorem restore (h : Named u rank nm rn k) (k0 : DS) : Named u rank nm rn (k0.restore k) := by
  unfold DS.restore
  split
  · exact h.same rfl rfl rfl rfl
  · exact h

theorem set (h : Named u rank nm rn k) {is : List Ident} {kind : DKind (Decl Node)} (hk : ∀ ty, kind ≠ .type ty) {k' : DS}
    (e : k.set u is kind = .ok k') : Named u rank nm rn k' := by
  have hn : ∀ i j, k.mkNode kind i ≠ .type j := by
    intro i j hj
    cases kind with
    | type ty => exact hk ty rfl
    | _ => cases hj
  have hadd : k.addType kind = k := by
    cases kind with
    | type ty => exact (hk ty rfl).elim
    | _ => rfl
  unfold DS.set at e
  rw [hadd] at e
  rw [setR_ok e]
  refine h.maps ?_ rfl rfl rfl
  unfold World.set
  split
  · exact h.stored
  · refine h.stored.set _ fun d hd => ?_
    obtain ⟨i, -, rfl⟩ := List.mem_map.1 hd
    exact fun j hj => (hn i j hj).elim

/-- what a new type has to satisfy -/
def Fits (u : Uni) (rank : Str → Nat) (nm rn : List Str) (key : Str) (ty : PType (Decl Node)) : Prop :=
  ∀ t ∈ chainIds ty, t.ref = .none ∨ RefIs u nm rn t ∧ rank (u.toLower t.ident.name) < rank key

theorem add (h : Named u rank nm rn k) {key : Str} {ty : PType (Decl Node)} (hf : Fits u rank nm rn key ty) {k' : DS}
    (h1 : Kept (fun key' n => ∀ i, n = .type i → (nm ++ [key])[i]? = some key') k'.w.maps)
    (h2 : k'.types = k.types ++ [ty]) (h3 : k'.refs = k.refs) (h4 : k'.pending = k.pending) : Named u rank (nm ++ [key]) rn k' where
  types := by simp [h2, h.types]
  lens := by rw [h3]; exact h.lens
  stored := h1
  chain i ty' key' e1 e2 t ht := by
    rw [h2] at e1
    have pre : nm <+: nm ++ [key] := List.prefix_append _ _
    have old : (t.ref = .none ∨ RefIs u nm rn t ∧ rank (u.toLower t.ident.name) < rank key') := by
      rw [List.getElem?_append] at e1
      split at e1
      · rename_i c
        rw [List.getElem?_append_left (by rw [h.types]; exact c)] at e2
        exact h.chain i ty' key' e1 e2 t ht
      · rename_i c
        have hi : i = k.types.length := by
          have := (List.getElem?_eq_some_iff.1 e1).1
          simp at this; omega
        subst hi
        rw [Nat.sub_self] at e1
        cases e1
        rw [← h.types] at e2
        simp at e2
        subst e2
        exact hf t ht
    exact old.imp_right fun ⟨hr, hl⟩ => ⟨hr.mono pre List.prefix_rfl, hl⟩
  refs i d hd := by
    rw [h3] at hd
    obtain ⟨key', e1, e2⟩ := h.refs i d hd
    exact ⟨key', e1, e2.mono (List.prefix_append _ _)⟩
  pend := by rw [h4]; exact h.pend

/-- the tables with the new type -/
theorem more (h : Named u rank nm rn k) (key : Str) : Kept (fun key' n => ∀ i, n = .type i → (nm ++ [key])[i]? = some key') k.w.maps :=
  h.stored.mono fun _ _ hk i e => getElem?_pre (List.prefix_append _ _) (hk i e)

theorem newNo (h : Named u rank nm rn k) (key : Str) {i : Nat} (e : Node.type k.types.length = .type i) : (nm ++ [key])[i]? = some key := by
  cases e
  rw [← h.types]; simp

theorem setType (h : Named u rank nm rn k) {i : Ident} {ty : PType (Decl Node)} (hf : Fits u rank nm rn (u.toLower i.name) ty) {k' : DS}
    (e : k.set u [i] (.type ty) = .ok k') : Named u rank (nm ++ [u.toLower i.name]) rn k' := by
  unfold DS.set at e
  rw [setR_ok e]
  refine h.add hf ?_ rfl rfl rfl
  simp only [World.set]
  split
  · exact h.more _
  · refine (h.more _).set _ fun d hd j hj => ?_
    cases List.mem_singleton.1 hd
    exact h.newNo _ hj

theorem complete (h : Named u rank nm rn k) {old : Decl Node} {i : Ident} {ty : PType (Decl Node)}
    (hf : Fits u rank nm rn (u.toLower i.name) ty) {k' : DS} (e : k.complete u old i ty = .ok k') :
    Named u rank (nm ++ [u.toLower i.name]) rn k' := by
  unfold DS.complete at e
  split at e
  · split at e
    · rw [setR_ok e]
      refine h.add hf ?_ rfl rfl rfl
      simp only [World.overwrite]
      split
      · exact h.more _
      · exact (h.more _).overwrite _ fun j hj => h.newNo _ hj
    · cases e
  · cases e

theorem get (h : Named u rank nm rn k) {name : Str} {d : Decl Node} (e : k.get u name = some d) : DeclIs nm d (u.toLower name) := by
  rcases ctxGet_stored u h.stored e with hd | ⟨_, _, hd⟩
  · exact hd
  · intro i hi
    rw [hd] at hi; cases hi

theorem runRef (h : Named u rank nm rn k) {r : Nat × Str} (hr : rn[r.1]? = some (u.toLower r.2)) : Named u rank nm rn (k.runRef u r) := by
  unfold DS.runRef
  split
  · rename_i d hd
    refine ⟨h.types, by simp [h.lens], h.stored, h.chain, fun i d' e => ?_, h.pend⟩
    simp only [List.getElem?_set] at e
    split at e
    · rename_i c
      split at e
      · cases e; subst c
        exact ⟨_, hr, h.get hd⟩
      · cases e
    · exact h.refs i d' e
  · exact h

theorem runSection (h : Named u rank nm rn k) : Named u rank nm rn (k.runSection u) := by
  unfold DS.runSection
  have : ∀ (l : List (Nat × Str)) (k : DS), Named u rank nm rn k → (∀ p ∈ l, rn[p.1]? = some (u.toLower p.2)) →
      Named u rank nm rn (l.foldl (DS.runRef u) k) := by
    intro l
    induction l with
    | nil => exact fun k h _ => h
    | cons r l ih =>
      exact fun k h hl => ih _ (h.runRef (hl r List.mem_cons_self)) fun p hp => hl p (List.mem_cons_of_mem _ hp)
  exact this _ _ h h.pend

end Named

/-! ## While a type is parsed -/

/-- `k` still has the same types -/
def Stays (u : Uni) (rank : Str → Nat) (nm rn : List Str) (k : DS) : Prop := ∃ rn', rn <+: rn' ∧ Named u rank nm rn' k

/-- what is known of a type identifier -/
def TidIs (u : Uni) (nm : List Str) (k : DS) (t : TypeId (Decl Node)) : Prop :=
  t.ref = .none ∨ t.unit = none ∧ match t.ref with
    | .none => False
    | .now d => DeclIs nm d (u.toLower t.ident.name)
    | .later i => (i, t.ident.name) ∈ k.pending

theorem TidIs.up {u : Uni} {nm : List Str} {k k' : DS} {t : TypeId (Decl Node)} (hg : Grows k k') (h : TidIs u nm k t) : TidIs u nm k' t := by
  unfold TidIs at h ⊢
  refine h.imp_right fun ⟨h1, h2⟩ => ⟨h1, ?_⟩
  split at h2
  · exact h2
  · exact h2
  · exact hg _ h2

theorem stillBase (u : Uni) (rank : Str → Nat) (nm rn : List Str) :
    TrBase u (declEnv u) (Stays u rank nm rn) Grows (TidIs u nm) where
  refl _ := fun _ h => h
  trans h1 h2 := fun p hp => h2 p (h1 p hp)
  up := TidIs.up
  roll := fun ⟨rn', h1, h2⟩ => ⟨⟨rn', h1, h2.rollback⟩, .same (rollback_refs _).2⟩
  set := by
    rintro c is k c' hk ⟨rn', h1, h2⟩ e
    exact ⟨⟨rn', h1, h2.set (by rintro ty rfl; rcases hk with h | h <;> cases h) e⟩, .same (set_refs e).2⟩
  newRef := by
    rintro c t ⟨rn', h1, h2⟩ -
    refine ⟨⟨_, h1.trans (List.prefix_append _ _), h2.newRef t.raw⟩, fun p hp => by simp [declEnv, DS.newRef, hp], .inr ⟨rfl, ?_⟩⟩
    simp [declEnv, DS.newRef, Ident.ofTok]
  now := by
    rintro c t d ⟨rn', h1, h2⟩ e
    exact .inr ⟨rfl, h2.get e⟩
  emb := by
    rintro c t k d - e
    refine .inr ⟨rfl, fun i hi => ?_⟩
    change DS.emb u k (t.value u) = some d at e
    unfold DS.emb at e
    split at e
    · cases e; cases hi
    · cases e
  qual _ := .inl rfl
  stack := fun ⟨rn', h1, h2⟩ => ⟨⟨rn', h1, h2.stack⟩, fun t => TidIs.up (.same (stack_refs _).2)⟩
  restore := by
    rintro c c' - ⟨rn', h1, h2⟩ g
    exact ⟨⟨rn', h1, h2.restore c⟩, fun p hp => by
      change p ∈ (c.restore c').pending
      rw [(restore_refs _ _).2]
      exact g p (by change p ∈ c.stack.pending; rw [(stack_refs c).2]; exact hp), fun t => TidIs.up (.same (restore_refs _ _).2)⟩

/-- after a type has been parsed -/
theorem Named.parsed {u : Uni} {rank : Str → Nat} {nm rn : List Str} {n : Nat} {s s' : PS DS} {ty : PType (Decl Node)}
    (h : Named u rank nm rn s.cx) (e : parseType u (declEnv u) n s = .ok ty s') (hg : gType u ty s.ts s'.ts) {key : Str}
    (hr : ∀ name ∈ follows u s.ts, rank (u.toLower name) < rank key) :
    ∃ rn', rn <+: rn' ∧ Named u rank nm rn' s'.cx ∧ Named.Fits u rank nm rn' key ty := by
  obtain ⟨⟨rn', h1, h2⟩, -, h3⟩ := (typesTr (stillBase u rank nm rn) n).type s ⟨rn, List.prefix_rfl, h⟩ (fun _ h => by cases h) _ _ e
  refine ⟨rn', h1, h2, fun t ht => ?_⟩
  rcases h3 t (chain_sub ty t ht) with hn | ⟨hu, hv⟩
  · exact .inl hn
  · refine .inr ⟨?_, hr _ (follows_of ty hg t ht hu)⟩
    unfold RefIs
    split at hv
    · exact hv.elim
    · exact hv
    · exact h2.pend _ hv

end TP
