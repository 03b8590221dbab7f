import Verif.Lemmas.Scope
import Verif.Props.C18

/-!
# C22  Leaving a scope restores the enclosing scope
-/

namespace TP.Props
open TP Spec Maps
variable {ν : Type} [EmbNode ν] (u : Uni)

/-- Open a scope on context `c`, do anything properly nested through `c` and through contexts cloned meanwhile
(declarations, nested scopes; stopping at a failure or not), leave the scope: every context that existed
before, `c` included, resolves every name as before, and so does every declaration map. -/
theorem C22_scope (w : World ν) (hw : w.WF) (c : Nat) (body : Cmd ν) (hin : body.Within c w.ctxs.length) :
    (∀ i < w.ctxs.length, ∀ name, (Cmd.run u (.scope c body) w).1.get u i name = w.get u i name) ∧
      ∀ j < w.maps.length, ∀ name, (Cmd.run u (.scope c body) w).1.maps.get u j name = w.maps.get u j name := by
  have hmaps : ∃ new, (Cmd.run u (.scope c body) w).1.maps = new ++ w.maps := by
    simp only [Cmd.run]
    cases hs : w.stack c with
    | none => exact ⟨[], rfl⟩
    | some r =>
      obtain ⟨w1, bak⟩ := r
      obtain ⟨h1, h2⟩ := Cmd.inv_stack hs
      exact (Cmd.run_inv u body hin w1 h1 (by omega)).1.old
  obtain ⟨new, hm⟩ := hmaps
  have hmget : ∀ j < w.maps.length, ∀ name,
      (Cmd.run u (.scope c body) w).1.maps.get u j name = w.maps.get u j name := by
    intro j hj name
    rw [hm]; exact get_append u new w.maps j hj name
  obtain ⟨hc1, hc2, _⟩ := Cmd.run_ctxs u (.scope c body) w
  refine ⟨?_, hmget⟩
  intro i hi name
  exact Ctxs.get_congr u hc1 name hc2 (fun i o ho => hmget _ (hw i o ho) name) i hi

omit [EmbNode ν] in
/-- Whatever contexts the history uses, after it every context that existed before searches the map it searched
before: only declarations made to that map itself (the outer scopes) can show. -/
theorem C22_same_map (w : World ν) (cmd : Cmd ν) (i : Nat) (hi : i < w.ctxs.length) :
    (Cmd.run u cmd w).1.ctxs.obj i = w.ctxs.obj i := (Cmd.run_ctxs u cmd w).2.1 i hi

theorem ctx_get_dm (m : Maps ν) (cs : Ctxs) (c : Nat) (o : CtxObj) (ho : cs.obj c = some o)
    (hs : ∀ p q d, o ≠ .stackable p q d) (name : Str) : Ctxs.get u m cs c name = m.get u o.dm name := by
  induction cs with
  | nil => cases ho
  | cons a cs ih =>
    simp only [Ctxs.obj] at ho
    simp only [Ctxs.get]
    by_cases he : c = cs.length
    · rw [if_pos he] at ho ⊢; injection ho with ho; subst ho
      cases a with
      | stackable p q d => exact absurd rfl (hs p q d)
      | program p us d => rfl
      | unit p q d => rfl
    · rw [if_neg he] at ho ⊢; exact ih ho

/-- In the scope: declarations with different names are accepted, even if they hide outer names; they are found
through the context in any casing; names that are not declared in the scope are found as before. -/
theorem C22_inner (w : World ν) (hw : w.WF) (c : Nat) (o : CtxObj) (hc : w.ctxs.obj c = some o)
    (hns : ∀ p q d, o ≠ .stackable p q d) (ds : List (Decl ν)) :
    ∃ w1, w.stack c = some (w1, o.dm) ∧
      ((ds.map (fun d => u.toLower d.name)).Nodup → (w1.set u c ds).2 = .ok) ∧
      ((w1.set u c ds).2 = .ok → ∀ d ∈ ds, ∀ name, SameName name d.name → (w1.set u c ds).1.get u c name = some d) ∧
      ∀ name, (∀ d ∈ ds, u.toLower name ≠ u.toLower d.name) → (w1.set u c ds).1.get u c name = w.get u c name := by
  have hd : w.dm c = some o.dm := World.dm_eq.mpr ⟨_, hc, rfl⟩
  refine ⟨(w.newMap (.chained o.dm [])).1.setDm c (w.newMap (.chained o.dm [])).2, by simp only [World.stack, hd], ?_⟩
  have hobj : ((w.newMap (.chained o.dm [])).1.setDm c (w.newMap (.chained o.dm [])).2).ctxs.obj c =
      some (o.withDm w.maps.length) := by
    simp [World.setDm, World.newMap, Ctxs.obj_modify, hc]
  have hdm : (o.withDm w.maps.length).dm = w.maps.length := by cases o <;> rfl
  have hns' : ∀ p q d, o.withDm w.maps.length ≠ .stackable p q d := by
    intro p q d; cases o <;> simp_all [CtxObj.withDm]
  have hd1 : ((w.newMap (.chained o.dm [])).1.setDm c (w.newMap (.chained o.dm [])).2).dm c = some w.maps.length :=
    World.dm_eq.mpr ⟨_, hobj, hdm⟩
  have hdl := hw c _ hc
  generalize hg : (w.newMap (.chained o.dm [])).1.setDm c (w.newMap (.chained o.dm [])).2 = w1 at hobj hd1 ⊢
  have hm1 : w1.maps = .chained o.dm [] :: w.maps := by rw [← hg]; rfl
  have hset : w1.set u c ds = ({ w1 with maps := (w1.maps.set u w.maps.length ds).1 }, (w1.maps.set u w.maps.length ds).2) := by
    unfold World.set; rw [hd1]
  rw [hset]
  have hgetc : ∀ name, ({ w1 with maps := (w1.maps.set u w.maps.length ds).1 } : World ν).get u c name =
      (w1.maps.set u w.maps.length ds).1.get u w.maps.length name := by
    intro name
    unfold World.get
    rw [ctx_get_dm u _ _ _ _ hobj hns', hdm]
  refine ⟨?_, ?_, ?_⟩
  · intro hnd
    rw [hm1]
    simp only [Maps.set, if_true]
    have key : ∀ (ds : List (Decl ν)) (m : Tbl ν), (ds.map (fun d => u.toLower d.name)).Nodup →
        (∀ d ∈ ds, m.find (u.toLower d.name) = none) → (Tbl.set u m ds).2 = true := by
      intro ds
      induction ds with
      | nil => intro m _ _; rfl
      | cons d ds ih =>
        intro m hn hm
        rw [List.map_cons, List.nodup_cons] at hn
        simp only [Tbl.set, Tbl.regularize, hm d (by simp)]
        refine ih _ hn.2 (fun d' hd' => ?_)
        rw [Tbl.find_cons, if_neg]
        · exact hm d' (by simp [hd'])
        · intro e; exact hn.1 (by rw [e]; exact List.mem_map_of_mem (f := fun d : Decl ν => u.toLower d.name) hd')
    rw [if_pos (key ds [] hnd (fun _ _ => rfl))]
  · intro hok d hd' name hn
    rw [hgetc]
    exact C18_get u w1.maps w.maps.length ds hok d hd' name hn
  · intro name hn
    rw [hgetc, C18_others u w1.maps w.maps.length ds name hn, hm1]
    unfold World.get
    rw [ctx_get_dm u _ _ _ _ hc hns]
    simp [Maps.get, Tbl.get, Tbl.find]

/-- non-vacuity: a scope in which `x` is declared and hides the outer `x`. -/
example : let w : World Nat := ⟨[.chained 0 [(r!"x", ⟨r!"x", 1⟩)], .embedded], [], [.program [] [] 1]⟩
    w.WF ∧ (Cmd.set 0 [⟨r!"X", 2⟩] : Cmd Nat).Within 0 w.ctxs.length ∧
      (Cmd.run asciiUni (.scope 0 (.set 0 [⟨r!"X", 2⟩])) w).1.get asciiUni 0 r!"x" = some ⟨r!"x", 1⟩ := by
  refine ⟨?_, Or.inl rfl, by decide⟩
  intro c o ho
  simp only [Ctxs.obj] at ho
  split at ho
  · injection ho with ho; subst ho; decide
  · cases ho

end TP.Props
