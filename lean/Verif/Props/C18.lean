import Verif.Lemmas.DeclMap
import Verif.Lemmas.Case

/-!
# C18  Declarations are case-insensitive and never silently replaced
-/

namespace TP.Props
open TP Spec Maps
variable {ν : Type} [EmbNode ν] (u : Uni)

omit [EmbNode ν] in
theorem find_decl {l : List (Decl ν)} (hn : (l.map (fun d => u.toLower d.name)).Nodup) {d : Decl ν} (hd : d ∈ l) :
    l.find? (fun x => u.toLower x.name == u.toLower d.name) = some d := by
  induction l with
  | nil => cases hd
  | cons a l ih =>
    rw [List.map_cons, List.nodup_cons] at hn
    rw [List.find?_cons]
    cases hd with
    | head => simp
    | tail _ hd =>
      have : (u.toLower a.name == u.toLower d.name) = false := by
        simp only [beq_eq_false_iff_ne]
        intro e; apply hn.1; rw [e]; exact List.mem_map_of_mem hd
      rw [this]; exact ih hn.2 hd

/-- After a successful Set through any map (plain, chained, composite), Get through this map with any casing of
a declared name returns the declaration. -/
theorem C18_get (h : Maps ν) (i : Nat) (ds : List (Decl ν)) (hs : (h.set u i ds).2 = .ok)
    (d : Decl ν) (hd : d ∈ ds) (name : Str) (hn : SameName name d.name) :
    (h.set u i ds).1.get u i name = some d := by
  have h1 := set_eq u h i ds
  cases ht : target h i with
  | none => rw [ht] at h1; exact absurd hs h1.2
  | some t =>
    rw [ht] at h1
    obtain ⟨l, hl⟩ := layers_target ht
    rw [h1] at hs ⊢
    rw [get_layers, layers_upd, hl, List.findSome?_cons, own_upd_target u ht]
    cases hb : (Tbl.set u (tbl h t) ds).2 with
    | false => rw [hb] at hs; cases hs
    | true =>
      obtain ⟨pre, post, e1, e2, _, e4, e5, _⟩ := Tbl.set_spec u ds (tbl h t) _ _ rfl
      have := e5 hb
      subst this
      rw [List.append_nil] at e1; subst e1
      rw [Tbl.get, Tbl.regularize, e2, hn.lower u, find_decl u e4 hd]; rfl

/-- After a successful Set the innermost scope itself declares the names. -/
theorem own_set_ok (h : Maps ν) (i t : Nat) (ht : target h i = some t) (ds : List (Decl ν))
    (hs : (h.set u i ds).2 = .ok) (d : Decl ν) (hd : d ∈ ds) (name : Str) (hn : SameName name d.name) :
    own u (h.set u i ds).1 t name = some d := by
  have h1 := set_eq u h i ds
  rw [ht] at h1
  rw [h1] at hs ⊢
  rw [own_upd_target u ht]
  cases hb : (Tbl.set u (tbl h t) ds).2 with
  | false => rw [hb] at hs; cases hs
  | true =>
    obtain ⟨pre, post, e1, e2, _, e4, e5, _⟩ := Tbl.set_spec u ds (tbl h t) _ _ rfl
    have := e5 hb
    subst this
    rw [List.append_nil] at e1; subst e1
    rw [Tbl.get, Tbl.regularize, e2, hn.lower u, find_decl u e4 hd]; rfl

/-- The plain map: Set of a name already present in any casing fails with an error and the present declaration
stays, in any casing. -/
theorem C18_duplicate (h : Maps ν) (i : Nat) (m : Tbl ν) (hi : h.obj i = some (.impl m)) (ds : List (Decl ν))
    (d old : Decl ν) (hd : d ∈ ds) (hold : h.get u i d.name = some old) :
    (h.set u i ds).2 = .err ∧ ∀ name, SameName name d.name → (h.set u i ds).1.get u i name = some old := by
  have ht : target h i = some i ∧ layers h i = [i] := by
    clear hold
    induction h with
    | nil => cases hi
    | cons o h ih =>
      simp only [obj] at hi
      by_cases e : i = h.length
      · rw [if_pos e] at hi; injection hi with hi; subst hi; simp [target, layers, e]
      · rw [if_neg e] at hi; simp only [target, layers, if_neg e]; exact ih hi
  obtain ⟨ht, hl⟩ := ht
  have h1 := set_eq u h i ds
  rw [ht] at h1
  have hown : Tbl.find (tbl h i) (u.toLower d.name) = some old := by
    rw [get_layers, hl, List.findSome?_cons, own_target u ht] at hold
    simp only [Tbl.get, Tbl.regularize, List.findSome?_nil] at hold
    cases hf : Tbl.find (tbl h i) (u.toLower d.name) with
    | none => rw [hf] at hold; cases hold
    | some x => rw [hf] at hold; exact hold
  obtain ⟨pre, post, e1, e2, e3, e4, e5, e6⟩ := Tbl.set_spec u ds (tbl h i) _ _ rfl
  have hnp : d ∉ pre := fun hp => by rw [e3 d hp] at hown; cases hown
  have hb : (Tbl.set u (tbl h i) ds).2 = false := by
    cases hb : (Tbl.set u (tbl h i) ds).2 with
    | false => rfl
    | true =>
      have := e5 hb
      subst this
      rw [List.append_nil] at e1; subst e1
      exact absurd hd hnp
  rw [h1, hb]
  refine ⟨rfl, fun name hn => ?_⟩
  rw [get_layers, layers_upd, hl, List.findSome?_cons, own_upd_target u ht, Tbl.get, Tbl.regularize, e2,
    hn.lower u, hown]
  have : pre.find? (fun x => u.toLower x.name == u.toLower d.name) = none := by
    rw [List.find?_eq_none]
    intro x hx hbe
    have := e3 x hx
    rw [beq_iff_eq.mp hbe, hown] at this; cases this
  rw [this]; rfl

/-- Names that are not mentioned keep their meaning in every map, whether Set succeeds or not. -/
theorem C18_others (h : Maps ν) (i : Nat) (ds : List (Decl ν)) (name : Str)
    (hn : ∀ d ∈ ds, u.toLower name ≠ u.toLower d.name) (j : Nat) :
    (h.set u i ds).1.get u j name = h.get u j name := by
  have h1 := set_eq u h i ds
  obtain ⟨_, f2, _, f4⟩ := set_frame u h i ds
  rw [get_layers, get_layers, f2]
  congr 1
  funext k
  by_cases hk : target h i = some k
  · rw [hk] at h1
    rw [h1, own_upd_target u hk, own_target u hk, Tbl.get, Tbl.get, Tbl.regularize]
    obtain ⟨pre, post, e1, e2, _⟩ := Tbl.set_spec u ds (tbl h k) _ _ rfl
    rw [e2]
    have : pre.find? (fun x => u.toLower x.name == u.toLower name) = none := by
      rw [List.find?_eq_none]
      intro x hx hbe
      exact hn x (by rw [e1]; simp [hx]) (beq_iff_eq.mp hbe).symm
    rw [this]; rfl
  · exact f4 k name hk

/-- Nothing declared in the innermost scope is ever replaced by Set: what the scope declares stays. -/
theorem C18_never_replaced (h : Maps ν) (i : Nat) (ds : List (Decl ν)) (j : Nat) (name : Str) (old : Decl ν)
    (ho : own u h j name = some old) : own u (h.set u i ds).1 j name = some old := by
  have h1 := set_eq u h i ds
  obtain ⟨_, _, _, f4⟩ := set_frame u h i ds
  by_cases hk : target h i = some j
  · rw [hk] at h1
    rw [own_target u hk, Tbl.get, Tbl.regularize] at ho
    rw [h1, own_upd_target u hk, Tbl.get, Tbl.regularize]
    obtain ⟨pre, post, e1, e2, e3, _⟩ := Tbl.set_spec u ds (tbl h j) _ _ rfl
    have : pre.find? (fun x => u.toLower x.name == u.toLower name) = none := by
      rw [List.find?_eq_none]
      intro x hx hbe
      have := e3 x hx
      rw [beq_iff_eq.mp hbe, ho] at this; cases this
    rw [e2, this, ho]; rfl
  · rw [f4 j name hk]; exact ho

end TP.Props

namespace TP.Props
open TP Spec Maps

/-- a node type for examples -/
instance : EmbNode Nat := ⟨fun _ _ => 0⟩

/-- non-vacuity: declaring `Foo` in a plain map succeeds, and declaring `FOO` then fails. -/
example : (Maps.set asciiUni [MapObj.impl ([] : Tbl Nat)] 0 [⟨r!"Foo", 1⟩]).2 = .ok ∧
    (Maps.set asciiUni (Maps.set asciiUni [MapObj.impl ([] : Tbl Nat)] 0 [⟨r!"Foo", 1⟩]).1 0 [⟨r!"FOO", 2⟩]).2 = .err ∧
    SameName r!"FOO" r!"Foo" := by
  refine ⟨by decide, by decide, by unfold SameName; decide⟩

end TP.Props
