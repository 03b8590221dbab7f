import Verif.Lemmas.Zone
import Verif.Props.C44
import Verif.Props.C64

/-!
# C67  A block neither refers to nor changes what is out of its reach

The tables of all units and scopes live side by side.  A context reaches the layers of its own map, and through a name of a
unit or program that it finds there the map of that unit or program.  `OutOfReach F k` says that the maps `F` can not be
reached like that.
-/

namespace TP.Props
open TP Spec Maps

/-- the maps `F` can not be reached from the current context -/
structure OutOfReach (F : Nat → Prop) (k : DS) : Prop where
  /-- they exist -/
  maps : ∀ j, F j → j < k.w.maps.length
  /-- the current context is one of a program or a unit, with another map -/
  here : ∃ o, k.w.ctxs.obj k.cur = some o ∧ o.plain ∧ ¬ F o.dm
  /-- the other maps have other layers -/
  layers : ∀ j, ¬ F j → ∀ x ∈ layers k.w.maps j, ¬ F x
  /-- the namespaces that are found in the other maps have other maps -/
  spaces : ∀ j, ¬ F j → ∀ p ∈ tbl k.w.maps j, ∀ m, SpaceMap k p.2 m → ¬ F m

/-- the maps that a block does not write: all but the map of its context and the table that declarations go to -/
def blockFixed (k : DS) (dm j : Nat) : Prop := j < k.w.maps.length ∧ j ≠ dm ∧ target k.w.maps dm ≠ some j

/-- the division of the maps for a block -/
def reachZone (F : Nat → Prop) (k : DS) (dm : Nat) : Zone where
  far := F
  fixed := blockFixed k dm
  away c := c ≠ k.cur ∧ c < k.w.ctxs.length
  old d := ∃ j, ¬ F j ∧ ∃ p ∈ tbl k.w.maps j, p.2 = d

theorem nsMap_space {k : DS} {d : Decl Node} {m : Nat} (h : k.nsMap d = some m) : SpaceMap k d m := by
  unfold DS.nsMap at h
  split at h
  · rename_i i hd
    obtain ⟨j, hj, h⟩ := Option.bind_eq_some_iff.1 h
    exact .inr (.inl ⟨i, j, hd, Option.join_eq_some_iff.1 hj, h⟩)
  · rename_i j hd
    exact .inl ⟨j, hd, h⟩
  · rename_i hd
    exact .inr (.inr ⟨hd, h⟩)
  · cases h

theorem target_target {h : Maps Node} {i t : Nat} (ht : target h i = some t) : target h t = some t := by
  induction h generalizing i t with
  | nil => cases ht
  | cons o h ih =>
    have key : ∀ i, target h i = some t → target (o :: h) t = some t := by
      intro i e
      rw [target_cons_lt _ _ (target_lt e)]
      exact ih e
    unfold target at ht
    split at ht
    · rename_i hi
      cases o with
      | impl m => cases ht; unfold target; rw [if_pos hi]
      | chained p m => cases ht; unfold target; rw [if_pos hi]
      | composite ms =>
        cases ms with
        | nil => cases ht
        | cons j ms => exact key _ ht
      | embedded => cases ht
    · exact key _ ht

theorem OutOfReach.inside {F : Nat → Prop} {k : DS} (h : OutOfReach F k) {o : CtxObj} (ho : k.w.ctxs.obj k.cur = some o) :
    Inside (reachZone F k o.dm) k (· ∈ []) k.types k := by
  obtain ⟨o', ho', hp, hf⟩ := h.here
  rw [ho] at ho'
  cases ho'
  refine ⟨fun j hj p hp => .inl ⟨j, hj, p, hp, rfl⟩, h.layers, fun j hj t ht => ?_, fun j hj => ⟨h.maps j hj, ?_, ?_⟩, fun c o' hc e => ?_,
    fun hc => hc.1 rfl, List.prefix_rfl, fun j hj => hj.1, fun c hc => hc.2, ?_, fun _ _ => rfl, fun _ _ => rfl, rfl, rfl, rfl, fun i d hi e => ?_⟩
  · rintro ⟨h1, h2, h3⟩
    by_cases c : j = o.dm
    · subst c; exact h3 ht
    · by_cases c' : target k.w.maps o.dm = some j
      · have := target_target c'
        rw [this] at ht
        cases ht
        exact h3 c'
      · exact hj ⟨target_lt' ht, c, c'⟩
  · rintro rfl; exact hf hj
  · exact fun e => h.layers _ hf _ (target_mem_layers e) hj
  · have hc : c = k.cur := by
      by_contra hcon
      exact hc ⟨hcon, Ctxs.obj_lt e⟩
    subst hc
    rw [ho] at e
    cases e
    exact ⟨hp, fun hx => hx.2.1 rfl⟩
  · rintro d m ⟨j, hj, p, hp, rfl⟩ e
    exact h.spaces j hj p hp m (nsMap_space e)
  · have := (List.getElem?_eq_some_iff.1 e).1
    omega

section
variable (u : Uni)

/-- What a block refers to was found in a table within reach, or it is declared in the block, an embedded type or a member of
a class: the references that are set when the identifier is met, and those that are set at the end of a type section. -/
theorem C67_refers (F : Nat → Prop) (n : Nat) (s s' : PS DS) (b : Block (Decl Node)) (hF : OutOfReach F s.cx)
    (h : parseBlock u (declEnv u) n s = .ok b s') :
    (∀ r ∈ b.refs, (∃ j, ¬ F j ∧ ∃ p ∈ tbl s.cx.w.maps j, p.2 = r.2) ∨ Leads (· ∈ dclBlock b) s'.cx.types r.2) ∧
    ∀ r ∈ laterRefs s'.cx (idsBlock b), (∃ j, ¬ F j ∧ ∃ p ∈ tbl s.cx.w.maps j, p.2 = r.2) ∨ Leads (· ∈ dclBlock b) s'.cx.types r.2 := by
  obtain ⟨o, ho, -⟩ := hF.here
  have hi := hF.inside ho
  have key : ∀ d, (reachZone F s.cx o.dm).Sees (· ∈ dclBlock b ++ []) s'.cx.types d →
      (∃ j, ¬ F j ∧ ∃ p ∈ tbl s.cx.w.maps j, p.2 = d) ∨ Leads (· ∈ dclBlock b) s'.cx.types d := by
    rintro d (h | ⟨h, -⟩)
    · exact .inl h
    · exact .inr (by simpa using h)
  exact ⟨fun r hr => key _ ((inside_block hi h).1 r hr), fun r hr => key _ (inside_later hi h r hr)⟩

/-- Every map that was there stays as it is, but for the table that declarations of the context go to; so do the other contexts,
the units and the items of uses clauses. -/
theorem C67_writes (n : Nat) (s s' : PS DS) (b : Block (Decl Node)) (o : CtxObj) (ho : s.cx.w.ctxs.obj s.cx.cur = some o) (hp : o.plain)
    (h : parseBlock u (declEnv u) n s = .ok b s') :
    (∀ j, blockFixed s.cx o.dm j → s'.cx.w.maps.obj j = s.cx.w.maps.obj j) ∧
    (∀ c, c ≠ s.cx.cur → c < s.cx.w.ctxs.length → s'.cx.w.ctxs.obj c = s.cx.w.ctxs.obj c) ∧
    s'.cx.w.units = s.cx.w.units ∧ s'.cx.items = s.cx.items ∧ s'.cx.program = s.cx.program := by
  have hF : OutOfReach (fun _ => False) s.cx :=
    ⟨fun _ h => h.elim, ⟨o, ho, hp, fun h => h⟩, fun _ _ _ _ h => h, fun _ _ _ _ _ _ h => h⟩
  have hi := (inside_block (hF.inside ho) h).2
  exact ⟨hi.sameM, fun c h1 h2 => hi.sameC c ⟨h1, h2⟩, hi.sameU, hi.sameI, hi.sameP⟩

end

/-! ## Examples -/

/-- a program context that has `x` in its map; beside it there is a map with `y` -/
def exApart : DS :=
  ⟨⟨[.chained 0 [(r!"x", ⟨r!"x", .decl .var ⟨r!"x", ⟨1, 1, 0⟩, ⟨1, 2, 1⟩⟩⟩)], .impl [(r!"y", ⟨r!"y", .decl .var ⟨r!"y", ⟨2, 1, 0⟩, ⟨2, 2, 1⟩⟩⟩)], .embedded],
    [], [.program [] [] 2]⟩, 0, [], [], [], [], [], none⟩

example : OutOfReach (· = 1) exApart where
  maps j h := by subst h; decide
  here := ⟨.program [] [] 2, rfl, trivial, by decide⟩
  layers j hj x hx := by
    by_cases c : j < 3
    · have : j = 0 ∨ j = 2 := by omega
      rcases this with rfl | rfl
      · have : x ∈ [0] := hx
        simp at this; omega
      · have : x ∈ [2, 0] := hx
        simp at this; omega
    · have h0 : layers exApart.w.maps j = [] := by
        simp only [exApart, layers, List.length_cons, List.length_nil]
        repeat rw [if_neg (by omega)]
      rw [h0] at hx; cases hx
  spaces j hj p hp m hm := by
    rcases hm with ⟨i, -, h⟩ | ⟨i, j, -, h, -⟩ | ⟨-, h⟩
    · simp [exApart, World.unitDm] at h
    · simp [exApart] at h
    · cases h

/-- the names that a block refers to, in this context, and the declarations -/
def apartRefs (text : Str) : Option (List (Str × Option Ident)) :=
  match parseBlock asciiUni (declEnv asciiUni) 400 { exText text with cx := exApart } with
  | .ok b _ => some (b.refs.map fun r => (r.1.name, match r.2.node with
    | .decl _ i => some i
    | _ => none))
  | _ => none

/-- the names in the three tables after a block -/
def apartTables (text : Str) : Option (List (List Str)) :=
  match parseBlock asciiUni (declEnv asciiUni) 400 { exText text with cx := exApart } with
  | .ok _ s => some ((List.range 3).map fun j => (tbl s.cx.w.maps j).map fun p => p.1)
  | _ => none

/-- `y` is written in the block, but it has no reference. -/
example : apartRefs r!"var v: Integer; begin v := x; y := v; end." =
    some [(r!"Integer", none), (r!"v", some ⟨r!"v", ⟨1, 5, 4⟩, ⟨1, 6, 5⟩⟩), (r!"x", some ⟨r!"x", ⟨1, 1, 0⟩, ⟨1, 2, 1⟩⟩),
      (r!"v", some ⟨r!"v", ⟨1, 5, 4⟩, ⟨1, 6, 5⟩⟩)] := by krfl

example : apartTables r!"var v: Integer; begin v := x; y := v; end." = some [[], [r!"y"], [r!"v", r!"x"]] := by krfl

example : blockFixed exApart 2 1 ∧ ¬ blockFixed exApart 2 2 := by
  refine ⟨⟨by decide, by decide, by decide⟩, fun h => h.2.1 rfl⟩

end TP.Props
