import Verif.Spec.Occurs
import Verif.Lemmas.TraceType

/-!
# The type identifiers of a type section
-/

namespace TP
open Spec

section
variable {κ δ : Type} {u : Uni} {D : DEnv κ δ} {I : κ → Prop} {E : κ → κ → Prop} {V : κ → TypeId δ → Prop}
variable (B : TrBase u D I E V)
  (hn : ∀ {c i ty c'}, I c → D.get c i.name = none → D.set c [i] (.type ty) = .ok c' → I c' ∧ E c c')
  (hc : ∀ {c old i ty c'}, I c → D.get c i.name = some old → D.complete c old i ty = .ok c' → I c' ∧ E c c')
include B hn hc

omit B in
theorem declareType_tr (i : Ident) (ty : PType δ) {hs : List (TypeId δ)} :
    Tr I E V hs (declareType D i ty) (fun _ => []) := by
  unfold declareType
  intro s hi _ a s' e
  change (match D.get s.cx i.name with
    | none => setDecl D [i] (.type ty)
    | some old => if D.isType old then completeType D old i ty else P.fail) s = .ok a s' at e
  cases hg : D.get s.cx i.name with
  | none =>
    rw [hg] at e
    change setDecl D [i] (.type ty) s = _ at e
    unfold setDecl at e
    cases e1 : D.set s.cx [i] (.type ty) with
    | ok c =>
      rw [e1] at e; cases e
      exact ⟨(hn hi hg e1).1, (hn hi hg e1).2, fun _ h => by cases h⟩
    | _ => rw [e1] at e; cases e
  | some old =>
    rw [hg] at e
    change (if D.isType old then completeType D old i ty else P.fail) s = _ at e
    split at e
    · unfold completeType at e
      cases e1 : D.complete s.cx old i ty with
      | ok c =>
        rw [e1] at e; cases e
        exact ⟨(hc hi hg e1).1, (hc hi hg e1).2, fun _ h => by cases h⟩
      | _ => rw [e1] at e; cases e
    · cases e

theorem typeDecl_tr (n : Nat) : Tr I E V [] (parseTypeDecl u D n) (fun d => idsType d.type) := by
  unfold parseTypeDecl
  refine Tr.traced B ?_
  refine Tr.step B (quiet_current _) fun t => Tr.step B (quiet_nextIs _) fun _ => Tr.step B quiet_next fun _ => ?_
  have q : Quiet (do if ← P.is (kw u r!"TYPE") then P.next : P κ Unit) := by quiets
  have e : Quiet (typeDeclEnd u : P κ _) := by unfold typeDeclEnd; quiets
  refine Tr.step B (quiet_is _) fun c => ?_
  have main : Tr I E V [] (do
      let ty ← parseType u D n
      declareType D (Ident.ofTok t) ty
      let pd ← typeDeclEnd u
      pure ⟨Ident.ofTok t, ty, pd⟩ : P κ (TypeDecl δ)) (fun d => idsType d.type) := by
    refine Tr.bind B (typesTr B n).type fun ty => Tr.bind B (declareType_tr hn hc _ _) fun _ => Tr.step B e fun pd => ?_
    exact Tr.pure B (by ids)
  split
  · exact Tr.step B quiet_next fun _ => main
  · exact main

theorem typeDecls_tr : ∀ n : Nat, Tr I E V [] (parseTypeDecls u D n) idsDecls := by
  intro n
  induction n with
  | zero => exact Tr.wait
  | succ n ih =>
    unfold parseTypeDecls
    refine Tr.bind B (typeDecl_tr B hn hc n) fun d => Tr.step B (quiet_is _) fun c => Tr.ite (Tr.pure B ?_) ?_
    · simp [idsDecls]
    · refine Tr.step B (quiet_current _) fun _ => Tr.step B quiet_next fun _ => Tr.step B (quiet_is _) fun _ =>
        Tr.ite (Tr.pure B (by simp [idsDecls])) ?_
      refine Tr.bind B (ih.any _) fun rest => Tr.pure B ?_
      intro x hx
      simp only [idsDecls, List.flatMap_cons, List.mem_append] at hx ⊢
      tauto

end

/-! ## The context of the parser -/

/-- the type identifier `t`, in the context `k` while the section that begins in `k0` is being parsed -/
def RefIn (u : Uni) (k0 k : DS) (t : TypeId (Decl Node)) : Prop :=
  (t.unit.isSome ∧ t.ref = .none) ∨
  (∃ k1 d, Occurs u k0 k1 ∧ k1.get u t.ident.name = some d ∧ t.ref = .now d) ∨
  (∃ kind tok d, t.ident = Ident.ofTok tok ∧ DS.emb u kind (tok.value u) = some d ∧ t.ref = .now d) ∨
  (∃ k1 i, Occurs u k0 k1 ∧ k1.get u t.ident.name = none ∧ t.ref = .later i ∧ (i, t.ident.name) ∈ k.pending)

/-- the references that will be resolved -/
structure Pend (k : DS) : Prop where
  new : ∀ i n, (i, n) ∈ k.pending → k.refs[i]? = some none
  one : ∀ i n n', (i, n) ∈ k.pending → (i, n') ∈ k.pending → n = n'

theorem Pend.same {k k' : DS} (h : Pend k) (hr : k'.refs = k.refs) (hp : k'.pending = k.pending) : Pend k' :=
  ⟨by rw [hr, hp]; exact h.new, by rw [hp]; exact h.one⟩

theorem setR_ok {k k' : DS} {r : World Node × Outcome} (h : k.setR r = .ok k') : k' = { k with w := r.1 } := by
  unfold DS.setR at h
  split at h <;> cases h
  rfl

theorem rollback_refs (k : DS) : k.rollback.refs = k.refs ∧ k.rollback.pending = k.pending := by
  unfold DS.rollback; split <;> exact ⟨rfl, rfl⟩
theorem stack_refs (k : DS) : k.stack.refs = k.refs ∧ k.stack.pending = k.pending := by
  unfold DS.stack; split <;> exact ⟨rfl, rfl⟩
theorem restore_refs (k0 k : DS) : (k0.restore k).refs = k.refs ∧ (k0.restore k).pending = k.pending := by
  unfold DS.restore; split <;> exact ⟨rfl, rfl⟩
theorem set_refs {u : Uni} {k k' : DS} {is : List Ident} {kind : DKind (Decl Node)} (h : k.set u is kind = .ok k') :
    k'.refs = k.refs ∧ k'.pending = k.pending := by
  rw [setR_ok h]
  cases kind <;> exact ⟨rfl, rfl⟩
theorem complete_refs {u : Uni} {k k' : DS} {old : Decl Node} {i : Ident} {ty : PType (Decl Node)}
    (h : k.complete u old i ty = .ok k') : k'.refs = k.refs ∧ k'.pending = k.pending := by
  unfold DS.complete at h
  split at h
  · split at h
    · rw [setR_ok h]; exact ⟨rfl, rfl⟩
    · cases h
  · cases h

theorem rollback_types (k : DS) : k.rollback.types = k.types := by unfold DS.rollback; split <;> rfl
theorem stack_types (k : DS) : k.stack.types = k.types := by unfold DS.stack; split <;> rfl
theorem restore_types (k0 k : DS) : (k0.restore k).types = k.types := by unfold DS.restore; split <;> rfl
theorem set_types {u : Uni} {k k' : DS} {is : List Ident} {kind : DKind (Decl Node)} (hk : ∀ t, kind ≠ .type t) (h : k.set u is kind = .ok k') :
    k'.types = k.types := by
  rw [setR_ok h]
  cases kind with
  | type t => exact (hk t rfl).elim
  | _ => rfl

theorem Pend.newRef {k : DS} (h : Pend k) (name : Str) : Pend (k.newRef name).1 := by
  constructor
  · intro i n hm
    simp only [DS.newRef, List.mem_append, List.mem_singleton, Prod.mk.injEq] at hm ⊢
    rcases hm with hm | ⟨rfl, rfl⟩
    · have := h.new i n hm
      rw [List.getElem?_append_left (List.getElem?_eq_some_iff.1 this).1]
      exact this
    · simp
  · intro i n n' h1 h2
    simp only [DS.newRef, List.mem_append, List.mem_singleton, Prod.mk.injEq] at h1 h2
    have lt : ∀ {m}, (k.refs.length, m) ∈ k.pending → False := fun hm => by
      have := h.new _ _ hm
      simp at this
    rcases h1 with h1 | ⟨rfl, rfl⟩ <;> rcases h2 with h2 | ⟨e, rfl⟩
    · exact h.one i n n' h1 h2
    · subst e; exact (lt h1).elim
    · exact (lt h2).elim
    · rfl

theorem occurs_pend {u : Uni} {k0 k : DS} (h0 : Pend k0) (h : Occurs u k0 k) : Pend k := by
  induction h with
  | start => exact h0
  | rollback _ ih => exact ih.same (rollback_refs _).1 (rollback_refs _).2
  | set _ e ih => exact ih.same (set_refs e).1 (set_refs e).2
  | complete _ e ih => exact ih.same (complete_refs e).1 (complete_refs e).2
  | newRef _ _ ih => exact ih.newRef _
  | stack _ ih => exact ih.same (stack_refs _).1 (stack_refs _).2
  | restore _ _ _ ih => exact ih.same (restore_refs _ _).1 (restore_refs _ _).2

/-- no pending reference is lost -/
def Grows (k k' : DS) : Prop := ∀ p ∈ k.pending, p ∈ k'.pending

theorem Grows.same {k k' : DS} (h : k'.pending = k.pending) : Grows k k' := fun p hp => by rw [h]; exact hp

theorem RefIn.up {u : Uni} {k0 k k' : DS} {t : TypeId (Decl Node)} (h : Grows k k') (hv : RefIn u k0 k t) : RefIn u k0 k' t := by
  rcases hv with hv | hv | hv | ⟨k1, i, h1, h2, h3, h4⟩
  · exact .inl hv
  · exact .inr (.inl hv)
  · exact .inr (.inr (.inl hv))
  · exact .inr (.inr (.inr ⟨k1, i, h1, h2, h3, h _ h4⟩))

theorem sectionBase (u : Uni) (k0 : DS) : TrBase u (declEnv u) (Occurs u k0) Grows (RefIn u k0) where
  refl _ := fun _ h => h
  trans h1 h2 := fun p hp => h2 p (h1 p hp)
  up := RefIn.up
  roll h := ⟨h.rollback, .same (rollback_refs _).2⟩
  set _ h e := ⟨h.set e, .same (set_refs e).2⟩
  newRef {c t} h e := ⟨h.newRef e, fun p hp => by simp [declEnv, DS.newRef, hp],
    .inr (.inr (.inr ⟨c, _, h, e, rfl, by simp [declEnv, DS.newRef, Ident.ofTok]⟩))⟩
  now {c t d} h e := .inr (.inl ⟨c, d, h, e, rfl⟩)
  emb {c t k d} _ e := .inr (.inr (.inl ⟨k, t, d, rfl, e, rfl⟩))
  qual _ := .inl ⟨rfl, rfl⟩
  stack {c} h := ⟨h.stack, fun t => RefIn.up (.same (stack_refs _).2)⟩
  restore {c c'} h h' g := ⟨h.restore h', fun p hp => by
    change p ∈ (c.restore c').pending
    rw [(restore_refs _ _).2]
    exact g p (by change p ∈ c.stack.pending; rw [(stack_refs c).2]; exact hp), fun t => RefIn.up (.same (restore_refs _ _).2)⟩

/-! ## The end of the section -/

theorem runRef_same (u : Uni) (k : DS) (r : Nat × Str) : (k.runRef u r).w = k.w ∧ (k.runRef u r).cur = k.cur := by
  unfold DS.runRef; split <;> exact ⟨rfl, rfl⟩

theorem runRefs_same (u : Uni) (l : List (Nat × Str)) : ∀ k : DS, (l.foldl (DS.runRef u) k).w = k.w ∧
    (l.foldl (DS.runRef u) k).cur = k.cur := by
  induction l with
  | nil => exact fun k => ⟨rfl, rfl⟩
  | cons r l ih =>
    intro k
    have := runRef_same u k r
    have := ih (k.runRef u r)
    simp_all

theorem runRef_get (u : Uni) (k : DS) (r : Nat × Str) (name : Str) : (k.runRef u r).get u name = k.get u name := by
  unfold DS.get; rw [(runRef_same u k r).1, (runRef_same u k r).2]

theorem runRef_other (u : Uni) (k : DS) (r : Nat × Str) {i : Nat} (h : r.1 ≠ i) :
    (k.runRef u r).refs[i]? = k.refs[i]? := by
  unfold DS.runRef; split
  · exact List.getElem?_set_ne h
  · rfl

theorem runRef_this (u : Uni) (k : DS) (i : Nat) (name : Str) (h : i < k.refs.length) (hn : k.refs[i]?.join = none ∨
    k.refs[i]?.join = k.get u name) :
    ((k.runRef u (i, name)).refs[i]?).join = k.get u name := by
  unfold DS.runRef
  cases e : k.get u name with
  | some d => simp [h]
  | none =>
    rw [e] at hn
    simpa using hn

theorem runRef_length (u : Uni) (k : DS) (r : Nat × Str) : (k.runRef u r).refs.length = k.refs.length := by
  unfold DS.runRef; split <;> simp

theorem runRefs_other (u : Uni) (l : List (Nat × Str)) (i : Nat) : ∀ k : DS, (∀ r ∈ l, r.1 ≠ i) →
    (l.foldl (DS.runRef u) k).refs[i]? = k.refs[i]? := by
  induction l with
  | nil => intro k _; rfl
  | cons r l ih =>
    intro k h
    rw [List.foldl_cons, ih _ fun r' hr' => h r' (List.mem_cons_of_mem _ hr')]
    exact runRef_other u k r (h r List.mem_cons_self)

/-- after all of them have been run, the reference `i` is to what its name is -/
theorem runRefs_this (u : Uni) (l : List (Nat × Str)) (i : Nat) (name : Str) : ∀ k : DS, i < k.refs.length →
    (k.refs[i]?.join = none ∨ k.refs[i]?.join = k.get u name) → (∀ n', (i, n') ∈ l → n' = name) →
    (((i, name) ∈ l ∨ k.refs[i]?.join = k.get u name) →
      ((l.foldl (DS.runRef u) k).refs[i]?).join = k.get u name) := by
  induction l with
  | nil =>
    intro k _ _ _ h
    rcases h with h | h
    · cases h
    · exact h
  | cons r l ih =>
    intro k hl hn h1 h
    rw [List.foldl_cons, ← runRef_get u k r]
    have step : (k.runRef u r).refs[i]?.join = none ∨ (k.runRef u r).refs[i]?.join = (k.runRef u r).get u name := by
      rw [runRef_get]
      by_cases hr : r.1 = i
      · have := h1 r.2 (by rw [← hr]; exact List.mem_cons_self)
        obtain ⟨j, m⟩ := r
        subst hr this
        exact .inr (runRef_this u k _ _ hl hn)
      · rw [runRef_other u k r hr]; exact hn
    refine ih _ (by rw [runRef_length]; exact hl) step (fun n' hm => h1 n' (List.mem_cons_of_mem _ hm)) ?_
    rw [runRef_get]
    by_cases hr : r.1 = i
    · have := h1 r.2 (by rw [← hr]; exact List.mem_cons_self)
      obtain ⟨j, m⟩ := r
      subst hr this
      exact .inr (runRef_this u k _ _ hl hn)
    · rcases h with h | h
      · rcases List.mem_cons.1 h with h | h
        · subst h; exact (hr rfl).elim
        · exact .inl h
      · rw [runRef_other u k r hr]; exact .inr h

/-- what a type section does -/
theorem typeSection_ok {u : Uni} {n : Nat} {s s' : PS DS} {ds : List (TypeDecl (Decl Node))}
    (h : parseTypeSection u (declEnv u) n s = .ok ds s') :
    ∃ k, Occurs u { s.cx with pending := [] } k ∧ (∀ t ∈ idsDecls ds, RefIn u { s.cx with pending := [] } k t) ∧
      s'.cx = { k.runSection u with pending := s.cx.pending } := by
  unfold parseTypeSection withSection at h
  have B := sectionBase u { s.cx with pending := [] }
  have main : Tr _ _ _ [] (do P.next; parseTypeDecls u (declEnv u) n : P DS _) idsDecls :=
    Tr.step B quiet_next fun _ => typeDecls_tr B
      (fun h _ e => ⟨h.set e, .same (set_refs e).2⟩) (fun h _ e => ⟨h.complete e, .same (complete_refs e).2⟩) n
  cases e : (do P.next; parseTypeDecls u (declEnv u) n : P DS _) { s with cx := (declEnv u).openSection s.cx } with
  | ok a s1 =>
    rw [e] at h
    cases h
    obtain ⟨h1, _, h3⟩ := main _ .start (fun _ h => by cases h) _ _ e
    exact ⟨_, h1, h3, rfl⟩
  | _ => rw [e] at h; cases h

/-- a resolved reference -/
theorem resolved {u : Uni} {k : DS} (hp : Pend k) {i : Nat} {name : Str} (h : (i, name) ∈ k.pending) :
    ((k.runSection u).refs[i]?).join = (k.runSection u).get u name := by
  have hn := hp.new _ _ h
  have hl : i < k.refs.length := (List.getElem?_eq_some_iff.1 hn).1
  have hg : (k.runSection u).get u name = k.get u name := by
    unfold DS.get DS.runSection
    rw [(runRefs_same u _ k).1, (runRefs_same u _ k).2]
  rw [hg]
  exact runRefs_this u k.pending i name k hl (.inl (by rw [hn]; rfl)) (fun n' hm => hp.one _ _ _ hm h) (.inl h)

end TP
