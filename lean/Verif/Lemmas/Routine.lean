import Verif.Lemmas.Evolve

/-!
# What a routine does to the contexts and declaration maps
-/

namespace TP
open Spec Maps

section
variable {u : Uni} {k k' : DS}

/-- only tables of `maps` changed -/
theorem Rooted.upd (h : Rooted k) {t : Nat} {m : Tbl Node} {ts : List (PType (Decl Node))} {ac : List (Nat × Nat)} :
    Rooted { k with w := { k.w with maps := Maps.upd k.w.maps t m }, types := ts, actual := ac } := by
  obtain ⟨o, t', h1, h2, h3⟩ := h
  exact ⟨o, t', h1, h2, by simp only [target_upd]; exact h3⟩

theorem Rooted.set (h : Rooted k) {is : List Ident} {kind : DKind (Decl Node)} (e : k.set u is kind = .ok k') : Rooted k' := by
  obtain ⟨o, t, h1, h2, h3⟩ := id h
  have hd : k.w.dm k.cur = some o.dm := World.dm_eq.2 ⟨o, h1, rfl⟩
  have hset := set_eq u k.w.maps o.dm (is.map fun i => ⟨i.name, k.mkNode kind i⟩)
  rw [h3] at hset
  simp only at hset
  rw [setR_ok e]
  unfold World.set
  rw [hd]
  simp only
  rw [hset]
  cases kind <;> exact h.upd

theorem Rooted.complete (h : Rooted k) {old : Decl Node} {i : Ident} {ty : PType (Decl Node)}
    (e : k.complete u old i ty = .ok k') : Rooted k' := by
  obtain ⟨o, t, h1, h2, h3⟩ := id h
  have hd : k.w.dm k.cur = some o.dm := World.dm_eq.2 ⟨o, h1, rfl⟩
  unfold DS.complete at e
  split at e
  · split at e
    · have how := overwrite_eq u k.w.maps o.dm i.name ⟨i.name, .type k.types.length⟩
      rw [h3] at how
      simp only at how
      rw [setR_ok e]
      unfold World.overwrite
      rw [hd]
      simp only
      rw [how]
      exact h.upd
    · cases e
  · cases e

theorem Rooted.runSection (h : Rooted k) : Rooted (k.runSection u) := by
  unfold DS.runSection
  generalize k.pending = l
  induction l generalizing k with
  | nil => exact h
  | cons r l ih =>
    refine ih ?_
    unfold DS.runRef
    split
    · exact h
    · exact h

/-- After a scope: no table and no context that existed before it has changed. -/
theorem own_restore (h : Rooted k) (h' : Rooted k') (e : Own k.stack k') :
    Rooted (k.restore k') ∧ Own k (k.restore k') ∧ Frame (fun t => k.w.maps.length ≤ t) k.w.maps (k.restore k').w.maps := by
  obtain ⟨o, t, h1, h2, h3⟩ := id h
  obtain ⟨o', h1', h4, h5, h6, h7⟩ := stack_obj h
  rw [h1] at h1'; cases h1'
  have hd : k.w.dm k.cur = some o.dm := World.dm_eq.2 ⟨o, h1, rfl⟩
  have he : k.restore k' = { k' with w := k'.w.setDm k.cur o.dm } := by unfold DS.restore; rw [hd]; rfl
  have hS : ∀ t, OwnS k.stack t → k.w.maps.length ≤ t := by
    rintro t (⟨o', ho', ht'⟩ | ht)
    · rw [h6, h4] at ho'; cases ho'
      rw [Heap.withDm_dm, h5] at ht'
      simp [target] at ht'
      omega
    · rw [h5] at ht; simp at ht; omega
  have own : Heap (fun _ _ => True) (OwnS k) (OwnM k) k.stack k' := {
    owns := fun i o ho hM => by
      obtain ⟨t, h1, h2⟩ := e.owns i o ho (by unfold OwnM at hM ⊢; rw [h6, h7]; exact hM)
      exact ⟨t, h1, .inr (hS t h2)⟩
    cur := by have := e.cur; unfold OwnM at this ⊢; rw [h6, h7] at this; exact this
    here := e.here
    newS := fun t ht => .inr (hS t (e.newS t ht))
    newM := fun i hi => by have := e.newM i hi; unfold OwnM at this ⊢; rw [h6, h7] at this; exact this
    stored := e.stored
    frame := e.frame.mono fun t ht => .inr (hS t ht)
    len := e.len
    ctx := e.ctx
    units := e.units
    dms := e.dms
    items := e.items
    program := e.program
    types := e.types }
  have hm : (k.restore k').w.maps = k'.w.maps := by rw [he]; rfl
  have fr : Frame (fun t => k.w.maps.length ≤ t) k.w.maps k'.w.maps := by
    have := e.frame.mono hS
    rw [h5] at this
    exact (Frame.cons _ _ _).trans this
  refine ⟨?_, h.own.restore own, by rw [hm]; exact fr⟩
  by_cases hc : k'.cur = k.cur
  · have hob : k'.w.ctxs.obj k.cur = some (CtxObj.withDm k.w.maps.length o) := by
      rw [e.ctx k.cur (by rw [h7]; exact Ctxs.obj_lt h1)]; exact h4
    have hob' : (k.restore k').w.ctxs.obj (k.restore k').cur = some o := by
      rw [he]
      simp only [World.setDm, Ctxs.obj_modify, hc, if_pos, hob]
      cases o <;> rfl
    exact ⟨o, t, hob', h2, by rw [hm, fr.tgt _ (target_lt' h3)]; exact h3⟩
  · obtain ⟨o2, t2, g1, g2, g3⟩ := id h'
    have hob' : (k.restore k').w.ctxs.obj (k.restore k').cur = some o2 := by
      rw [he]
      simp only [World.setDm, Ctxs.obj_modify]
      rw [if_neg hc]; exact g1
    exact ⟨o2, t2, hob', g2, by rw [hm]; exact g3⟩

/-- the parser of declarations changes only the innermost scope of its context, and new ones -/
def Keeps (k0 k : DS) : Prop := Rooted k ∧ Own k0 k

theorem keepsBase (u : Uni) (k0 : DS) {Good : List Token → Prop} (hgood : ∀ t ts, Good (t :: ts) → Good ts) {tl : Tail} :
    DBase u (declEnv u) (Keeps k0) Good tl True True := by
  refine .of (F := fun J => ∃ k1, J = Keeps k1) ?_ ⟨k0, rfl⟩
  rintro J ⟨k1, rfl⟩
  refine ⟨?_, fun c h => ?_, fun _ _ _ _ c h => ?_⟩
  · exact {
      roll := fun c h => ⟨(evolves_rollback (u := u) h.1).1, h.2.rollback⟩
      nil := fun _ => trivial
      hang := fun _ => trivial
      ns := fun _ _ _ _ _ _ _ _ _ _ _ _ => trivial
      set := by
        intro c h is kind _
        have := h.2.set u (fun _ _ _ _ _ => trivial) is kind
        rw [show (declEnv u).set c is kind = DS.set u c is kind from rfl]
        cases e : DS.set u c is kind with
        | ok k' => rw [e] at this; exact ⟨h.1.set e, this⟩
        | err => trivial
        | panic => trivial
      newRef := fun c name h => ⟨h.1, h.2.same rfl rfl rfl rfl rfl⟩
      ordinal := fun _ _ _ _ => trivial
      findMember := fun _ _ _ _ _ _ => trivial
      findProp := fun _ _ _ _ _ _ => trivial
      good := hgood
      asm := fun _ _ _ _ _ => trivial }
  · refine ⟨Keeps c.stack, ⟨c.stack, rfl⟩, ⟨(rooted_stack (u := u) h.1).1, (rooted_stack (u := u) h.1).1.own⟩, fun c' h' => ?_⟩
    obtain ⟨g1, g2, -⟩ := own_restore h.1 h'.1 h'.2
    exact ⟨g1, h.2.trans g2⟩
  · refine ⟨Keeps k1, _, ⟨k1, rfl⟩, ⟨⟨h.1, h.2.same rfl rfl rfl rfl rfl⟩, trivial, fun c' h' => ?_⟩, .any ?_ ?_⟩
    · exact ⟨(h'.1.runSection (u := u)), (h'.2.runSection u).same rfl rfl rfl rfl rfl⟩
    · intro c h i ty
      have := h.2.set u (fun _ _ _ _ _ => trivial) [i] (.type ty)
      rw [show (declEnv u).set c [i] (.type ty) = DS.set u c [i] (.type ty) from rfl]
      cases e : DS.set u c [i] (.type ty) with
      | ok k' => rw [e] at this; exact ⟨h.1.set e, this⟩
      | err => trivial
      | panic => trivial
    · intro c h d i ty
      have := h.2.complete u (fun _ _ _ _ _ => trivial) d i ty
      rw [show (declEnv u).complete c d i ty = DS.complete u c d i ty from rfl]
      cases e : DS.complete u c d i ty with
      | ok k' => rw [e] at this; exact ⟨h.1.complete e, this⟩
      | err => trivial
      | panic => trivial

/-- What a parser that opens a scope leaves: the contexts and tables there were. -/
structure Untouched (u : Uni) (k k' : DS) : Prop where
  rooted : Rooted k'
  /-- every declaration map answers as before -/
  map : ∀ j < k.w.maps.length, ∀ name, k'.w.maps.get u j name = k.w.maps.get u j name
  /-- every context searches the map it searched before -/
  ctx : ∀ i < k.w.ctxs.length, k'.w.ctxs.obj i = k.w.ctxs.obj i
  len : k.w.ctxs.length ≤ k'.w.ctxs.length
  /-- the parser has its context or a new one -/
  cur : k'.cur = k.cur ∨ k.w.ctxs.length ≤ k'.cur
  /-- the maps of the units are the same -/
  unit : ∀ j, k'.w.unitDm j = k.w.unitDm j

theorem stacked_untouched {α : Type} {p : P DS α} {G : α → Rd} {n r : Nat}
    (hp : ∀ J tl, DBase u (declEnv u) J (fun _ => True) tl True True → TSound J (fun _ => True) tl True True p G n r)
    {s s' : PS DS} {a : α} (h : Rooted s.cx) (e : stacked (declEnv u) p s = .ok a s') : Untouched u s.cx s'.cx := by
  have h1 := (rooted_stack (u := u) h).1
  have := hp _ s.tail (keepsBase u s.cx.stack (fun _ _ _ => trivial)) { s with cx := s.cx.stack } ⟨rfl, ⟨h1, h1.own⟩, trivial⟩
    (fun _ => trivial)
  unfold stacked at e
  unfold wp at this
  rw [show (declEnv u).stack s.cx = s.cx.stack from rfl] at e
  cases e2 : p { s with cx := s.cx.stack } with
  | ok b s1 =>
    rw [e2] at e this
    cases e
    obtain ⟨g1, g2, g3⟩ := own_restore h this.1.cx.1 this.1.cx.2
    refine ⟨g1, fun j hj name => g3.get u hj (fun i hi => ?_) name, g2.ctx, g2.len, g2.cur, g2.dms⟩
    have := layers_lt hi
    omega
  | err => rw [e2] at e; cases e
  | panic => rw [e2] at e; cases e
  | wait => rw [e2] at e; cases e

/-- lookups in a context that was there -/
theorem Untouched.get (h : Untouched u k k') (hw : k.w.WF) {i : Nat} (hi : i < k.w.ctxs.length) (name : Str) :
    k'.w.get u i name = k.w.get u i name :=
  Ctxs.get_congr u h.len name h.ctx (fun i o ho => h.map _ (hw i o ho) name) i hi

/-- the body of a routine, without its scope -/
theorem funcBody_sound {κ δ : Type} {D : DEnv κ δ} {I : κ → Prop} {Good : List Token → Prop} {tl : Tail} {Pp Pw : Prop}
    (B : DBase u D I Good tl Pp Pw) (n : Nat) : TSound I Good tl Pp Pw (do
      let h ← parseFuncHeading u D n
      let _ ← P.current (sym r!";")
      setDecl D [h.ident] .func
      P.next
      let o ← parseRoutineOpts u n
      let b ← parseBlock u D n
      pure (.func h o b) : P κ (DeclSect δ)) (fun _ _ _ => True) n 18 := by
  intro s hs hf
  refine (allTypes B n).funcHeading.bind hs (fun h => hf (by omega)) fun h s1 h1 l1 ⟨g1, l1'⟩ => ?_
  refine B.current h1 fun t2 ht2 c2 => ?_
  obtain ⟨ts2, hts2⟩ := tok_cons' notEof_sym ht2 c2
  refine B.setDecl h1 fun s2 h2 e2 => ?_
  refine B.next h2 (e2.trans hts2) fun s3 h3 e3 => ?_
  have l3 : s1.ts.length = s3.ts.length + 1 := by rw [hts2, e3]; rfl
  refine (routineOpts_sound B n).bind h3 (fun h => hf (by omega)) fun o s4 h4 l4 g4 => ?_
  refine (allDecls B n).block.bind h4 (fun h => hf (by omega)) fun b s5 h5 l5 g5 => ?_
  exact ⟨h5, by omega, trivial⟩

theorem func_untouched {n : Nat} {s s' : PS DS} {f : DeclSect (Decl Node)} (h : Rooted s.cx)
    (e : parseFunc u (declEnv u) n s = .ok f s') : Untouched u s.cx s'.cx := by
  cases n with
  | zero => rw [parseFunc] at e; cases e
  | succ n =>
    rw [parseFunc] at e
    exact stacked_untouched (fun J tl B => funcBody_sound B n) h e

theorem exportedHeading_untouched {n : Nat} {s s' : PS DS} {f : Heading (Decl Node) × RoutineOpts} (h : Rooted s.cx)
    (e : parseExportedHeading u (declEnv u) n s = .ok f s') : Untouched u s.cx s'.cx := by
  unfold parseExportedHeading at e
  refine stacked_untouched (G := fun _ _ _ => True) (n := n) (r := 14) (fun J tl B => ?_) h e
  intro s hs hf
  refine (allTypes B n).funcHeading.bind hs (fun h => hf (by omega)) fun h s1 h1 l1 ⟨g1, l1'⟩ => ?_
  refine B.current h1 fun t2 ht2 c2 => ?_
  obtain ⟨ts2, hts2⟩ := tok_cons' notEof_sym ht2 c2
  refine B.setDecl h1 fun s2 h2 e2 => ?_
  refine B.next h2 (e2.trans hts2) fun s3 h3 e3 => ?_
  have l3 : s1.ts.length = s3.ts.length + 1 := by rw [hts2, e3]; rfl
  refine (routineOpts_sound B n).bind h3 (fun h => hf (by omega)) fun o s4 h4 l4 g4 => ?_
  exact ⟨h4, by omega, trivial⟩

end
end TP
