import Verif.Props.C18

/-!
# C20  Scope chains resolve to the innermost declaration
-/

namespace TP.Props
open TP Spec Maps
variable {ν : Type} [EmbNode ν] (u : Uni)

/-- The first layer in search order that declares the name gives the declaration: `Get` returns `d` exactly when
some layer declares `d` for the name and no earlier layer declares the name. -/
theorem C20_innermost (h : Maps ν) (i : Nat) (name : Str) (d : Decl ν) :
    h.get u i name = some d ↔
      ∃ before l after, layers h i = before ++ l :: after ∧ own u h l name = some d ∧
        ∀ k ∈ before, own u h k name = none := by
  rw [get_layers, List.findSome?_eq_some_iff]

/-- Nothing is found exactly when no layer declares the name. -/
theorem C20_not_found (h : Maps ν) (i : Nat) (name : Str) :
    h.get u i name = none ↔ ∀ k ∈ layers h i, own u h k name = none := by
  rw [get_layers, List.findSome?_eq_none_iff]

/-- Search order of a new scope chained to `p`: first itself (empty), then the scopes of `p`. -/
theorem C20_chained (h : Maps ν) (p : Nat) (name : Str) :
    (alloc h (.chained p [])).1.get u (alloc h (.chained p [])).2 name = h.get u p name := by
  simp [alloc, Maps.get, Tbl.get, Tbl.find]

/-- Search order of a composite: the scopes of its parts one after the other. -/
theorem C20_composite (h : Maps ν) (ms : List Nat) (name : Str) :
    (alloc h (.composite ms)).1.get u (alloc h (.composite ms)).2 name = ms.findSome? (fun j => h.get u j name) := by
  simp [alloc, Maps.get]

/-- Making a new map changes no existing one. -/
theorem C20_alloc (h : Maps ν) (o : MapObj ν) (j : Nat) (hj : j < h.length) (name : Str) :
    (alloc h o).1.get u j name = h.get u j name := by
  have : ¬ j = h.length := by omega
  simp [alloc, Maps.get, this]

/-- Declaring through a map changes only what is seen through its innermost scope: maps that do not search that
scope are unchanged. -/
theorem C20_set_frame (h : Maps ν) (i : Nat) (ds : List (Decl ν)) (j : Nat)
    (hj : ∀ t, target h i = some t → t ∉ layers h j) (name : Str) :
    (h.set u i ds).1.get u j name = h.get u j name := by
  obtain ⟨_, f2, _, f4⟩ := set_frame u h i ds
  rw [get_layers, get_layers, f2]
  have : ∀ l : List Nat, (∀ k ∈ l, k ∈ layers h j) →
      l.findSome? (fun k => own u (h.set u i ds).1 k name) = l.findSome? (fun k => own u h k name) := by
    intro l hl
    induction l with
    | nil => rfl
    | cons a l ih =>
      rw [List.findSome?_cons, List.findSome?_cons, ih (fun k hk => hl k (by simp [hk])),
        f4 a name (fun e => hj a e (hl a (by simp)))]
  exact this _ (fun _ hk => hk)

/-- Calls on a map. -/
inductive MapCall (ν : Type)
  | set (ds : List (Decl ν))
  | overwrite (name : Str) (d : Decl ν)

def MapCall.run (i : Nat) (h : Maps ν) : MapCall ν → Maps ν
  | .set ds => (h.set u i ds).1
  | .overwrite name d => (h.overwrite u i name d).1

/-- After opening a scope chained to `p` and any calls through it, all maps that existed before (in particular
the outer scope) resolve every name as before. -/
theorem C20_outer_kept (h : Maps ν) (p : Nat) (calls : List (MapCall ν)) (j : Nat) (hj : j < h.length)
    (name : Str) :
    (calls.foldl (MapCall.run u (alloc h (.chained p [])).2) (alloc h (.chained p [])).1).get u j name =
      h.get u j name := by
  have key : ∀ (calls : List (MapCall ν)) (g : Maps ν) (p : Nat) (t : Tbl ν), g = MapObj.chained p t :: h →
      ∃ t', calls.foldl (MapCall.run u h.length) g = MapObj.chained p t' :: h := by
    intro calls
    induction calls with
    | nil => intro g p t e; exact ⟨t, e⟩
    | cons a calls ih =>
      intro g p t e
      subst e
      rw [List.foldl_cons]
      cases a with
      | set ds => exact ih _ p (Tbl.set u t ds).1 (by simp only [MapCall.run, Maps.set, if_true])
      | overwrite n d => exact ih _ p (Tbl.overwrite u t n d) (by simp only [MapCall.run, Maps.overwrite, if_true])
  obtain ⟨t', e⟩ := key calls _ p [] rfl
  simp only [alloc]
  rw [e]
  have : ¬ j = h.length := by omega
  simp [Maps.get, this]

/-- non-vacuity: an inner scope hides `x` of the outer scope. -/
example : let h : Maps Nat := [.chained 0 [(r!"x", ⟨r!"X", 2⟩)], .impl [(r!"x", ⟨r!"x", 1⟩)]]
    h.get asciiUni 1 r!"x" = some ⟨r!"X", 2⟩ ∧ h.get asciiUni 0 r!"x" = some ⟨r!"x", 1⟩ := by decide

end TP.Props
