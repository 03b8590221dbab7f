import Verif.Spec.TypeIds
import Verif.Lemmas.TypeBase

/-!
# What happens to the context while types are parsed

`E` is what one context may become, `V` says what a type identifier is in a context.
-/

namespace TP
open Spec

variable {κ δ : Type}

structure TrBase (u : Uni) (D : DEnv κ δ) (I : κ → Prop) (E : κ → κ → Prop) (V : κ → TypeId δ → Prop) : Prop where
  refl : ∀ c, E c c
  trans : ∀ {a b c}, E a b → E b c → E a c
  up : ∀ {a b t}, E a b → V a t → V b t
  roll : ∀ {c}, I c → I (D.rollback c) ∧ E c (D.rollback c)
  set : ∀ {c is k c'}, k = .enumElem ∨ k = .param → I c → D.set c is k = .ok c' → I c' ∧ E c c'
  newRef : ∀ {c} {t : Token}, I c → D.get c t.raw = none → I (D.newRef c t.raw).1 ∧ E c (D.newRef c t.raw).1 ∧
    V (D.newRef c t.raw).1 ⟨none, Ident.ofTok t, .later (D.newRef c t.raw).2⟩
  now : ∀ {c} {t : Token} {d}, I c → D.get c t.raw = some d → V c ⟨none, Ident.ofTok t, .now d⟩
  emb : ∀ {c} {t : Token} {k d}, I c → D.emb k (t.value u) = some d → V c ⟨none, Ident.ofTok t, .now d⟩
  qual : ∀ {c i j}, I c → V c ⟨some i, j, .none⟩
  stack : ∀ {c}, I c → I (D.stack c) ∧ ∀ t, V c t → V (D.stack c) t
  restore : ∀ {c c'}, I c → I c' → E (D.stack c) c' → I (D.restore c c') ∧ E c (D.restore c c') ∧
    ∀ t, V c' t → V (D.restore c c') t

variable {u : Uni} {D : DEnv κ δ} {I : κ → Prop} {E : κ → κ → Prop} {V : κ → TypeId δ → Prop}

/-- If `hs` are all right, then so are the type identifiers `f` of the result. -/
def Tr (I : κ → Prop) (E : κ → κ → Prop) (V : κ → TypeId δ → Prop) {α : Type} (hs : List (TypeId δ)) (p : P κ α)
    (f : α → List (TypeId δ)) : Prop :=
  ∀ s, I s.cx → (∀ t ∈ hs, V s.cx t) → ∀ a s', p s = .ok a s' → I s'.cx ∧ E s.cx s'.cx ∧ ∀ t ∈ f a, V s'.cx t

/-- leaves the context -/
def Quiet {α : Type} (p : P κ α) : Prop := ∀ s a s', p s = .ok a s' → s'.cx = s.cx

section
variable {α β : Type}

theorem ok_bind {p : P κ α} {f : α → P κ β} {s : PS κ} {b : β} {s' : PS κ} (h : (p >>= f) s = .ok b s') :
    ∃ a s1, p s = .ok a s1 ∧ f a s1 = .ok b s' := by
  change P.bind p f s = _ at h
  unfold P.bind at h
  cases e : p s with
  | ok a s1 => rw [e] at h; exact ⟨a, s1, rfl, h⟩
  | _ => rw [e] at h; cases h

theorem Quiet.bind {p : P κ α} {f : α → P κ β} (hp : Quiet p) (hf : ∀ a, Quiet (f a)) : Quiet (p >>= f) := by
  intro s b s' h
  obtain ⟨a, s1, h1, h2⟩ := ok_bind h
  exact (hf a _ _ _ h2).trans (hp _ _ _ h1)

theorem quiet_pure (a : α) : Quiet (pure a : P κ α) := by
  intro s b s' h; cases h; rfl
theorem quiet_fail : Quiet (P.fail : P κ α) := by intro s b s' h; cases h
theorem quiet_wait : Quiet (P.wait : P κ α) := by intro s b s' h; cases h
theorem quiet_cur? : Quiet (P.cur? : P κ _) := by
  intro s b s' h; unfold P.cur? at h; split at h <;> cases h <;> rfl
theorem quiet_cur : Quiet (P.cur : P κ _) := by
  intro s b s' h; unfold P.cur at h; split at h <;> cases h <;> rfl
theorem quiet_next : Quiet (P.next : P κ _) := by
  intro s b s' h; unfold P.next at h; split at h <;> cases h <;> rfl
theorem quiet_is (pred : Pred) : Quiet (P.is pred : P κ _) := quiet_cur.bind fun _ => quiet_pure _
theorem quiet_current (pred : Pred) : Quiet (P.current pred : P κ _) := by
  refine quiet_cur?.bind fun o => ?_
  cases o with
  | none => exact quiet_fail
  | some t =>
    show Quiet (if pred t then pure t else P.fail)
    split
    · exact quiet_pure _
    · exact quiet_fail
theorem quiet_nextIs (pred : Pred) : Quiet (P.nextIs pred : P κ _) := quiet_next.bind fun _ => quiet_current pred
theorem quiet_currentP (pred : Pred) : Quiet (currentP pred : P κ _) := by
  refine quiet_cur.bind fun t => ?_
  split
  · exact quiet_pure _
  · exact quiet_fail
theorem quiet_getDecl (name : Str) : Quiet (getDecl D.toEnv name) := by intro s b s' h; cases h; rfl
theorem quiet_ite {c : Prop} [Decidable c] {p q : P κ α} (hp : Quiet p) (hq : Quiet q) : Quiet (if c then p else q) := by
  split <;> assumption
theorem quiet_ordinal (t : PType δ) : Quiet (checkOrdinal D t) := by
  intro s b s' h; unfold checkOrdinal at h; split at h <;> cases h; rfl
theorem quiet_member (h' : List (TypeId δ)) (ms : Sects δ) (name : Str) : Quiet (findMember D h' ms name) := by
  intro s b s' h; unfold findMember at h; split at h <;> cases h; rfl
theorem quiet_prop (h' : List (TypeId δ)) (ms : Sects δ) (name : Str) : Quiet (findProp D h' ms name) := by
  intro s b s' h; unfold findProp at h; split at h <;> cases h <;> rfl

/-- tries the lemmas about steps that leave the context -/
macro "quiet" : tactic => `(tactic| first
  | exact quiet_pure _ | exact quiet_fail | exact quiet_wait | exact quiet_cur? | exact quiet_cur | exact quiet_next
  | exact quiet_is _ | exact quiet_current _ | exact quiet_nextIs _ | exact quiet_currentP _ | exact quiet_getDecl _
  | exact quiet_ordinal _ | exact quiet_member _ _ _ | exact quiet_prop _ _ _ | assumption)

/-- all of them -/
macro "quiets" : tactic => `(tactic| repeat' (first
  | quiet
  | (refine quiet_ite ?_ ?_)
  | (refine Quiet.bind ?_ fun _ => ?_)
  | split))

theorem quiet_idents {terminator : Pred} : ∀ n, Quiet (parseIdents terminator n : P κ _) := by
  intro n
  induction n with
  | zero => exact quiet_wait
  | succ n ih => unfold parseIdents; quiets
theorem quiet_directives : ∀ n, Quiet (parseMethodDirectives u n : P κ _) := by
  intro n
  induction n with
  | zero => exact quiet_wait
  | succ n ih => unfold parseMethodDirectives; quiets
theorem quiet_optSemi : Quiet (optSemi : P κ _) := by unfold optSemi; quiets
theorem quiet_traced {p : P κ α} (h : Quiet p) : Quiet (traced p) := by unfold traced; quiets
theorem quiet_directiveList (n : Nat) : Quiet (parseMethodDirectiveList u n : P κ _) := by
  unfold parseMethodDirectiveList
  exact quiet_optSemi.bind fun _ => quiet_traced (quiet_directives n)
theorem quiet_visibility : Quiet (parseVisibility u : P κ _) := by unfold parseVisibility; quiets
theorem quiet_destructor : Quiet (parseDestructor u : P κ (Heading δ)) := by
  unfold parseDestructor; exact quiet_traced (by quiets)
theorem quiet_accessor {h' : List (TypeId δ)} {ms : Sects δ} {w : Str} : Quiet (parseAccessor u D h' ms w) := by
  unfold parseAccessor; quiets
theorem quiet_stored {h' : List (TypeId δ)} {ms : Sects δ} : Quiet (parseStored u D h' ms) := by
  unfold parseStored; quiets
theorem quiet_parmOpt : Quiet (parseParmOpt u : P κ _) := by unfold parseParmOpt; quiets
theorem quiet_funcWord : Quiet (parseFuncWord u : P κ _) := by unfold parseFuncWord; quiets
theorem quiet_ofObject : Quiet (parseOfObject u : P κ _) := by unfold parseOfObject; quiets
theorem quiet_classRef : Quiet (parseClassRef u D) := by unfold parseClassRef; quiets
theorem quiet_emb (k : EmbKind) : Quiet (parseEmb u D k) := by unfold parseEmb; quiets

end

section
variable (B : TrBase u D I E V)
include B
variable {α β : Type}

theorem Tr.quiet {p : P κ α} (h : Quiet p) {hs : List (TypeId δ)} : Tr I E V hs p (fun _ => []) := by
  intro s hi _ a s' e
  rw [h _ _ _ e]
  exact ⟨hi, B.refl _, fun _ h => by cases h⟩

theorem Tr.bind {p : P κ α} {f : α → P κ β} {F : α → List (TypeId δ)} {G : β → List (TypeId δ)} {hs : List (TypeId δ)}
    (hp : Tr I E V hs p F) (hf : ∀ a, Tr I E V (F a ++ hs) (f a) G) : Tr I E V hs (p >>= f) G := by
  intro s hi hv b s' e
  obtain ⟨a, s1, e1, e2⟩ := ok_bind e
  obtain ⟨i1, x1, v1⟩ := hp s hi hv a s1 e1
  obtain ⟨i2, x2, v2⟩ := hf a s1 i1 (fun t ht => by
    rcases List.mem_append.1 ht with ht | ht
    · exact v1 t ht
    · exact B.up x1 (hv t ht)) b s' e2
  exact ⟨i2, B.trans x1 x2, v2⟩

/-- a step that leaves the context comes first -/
theorem Tr.step {p : P κ α} {f : α → P κ β} {G : β → List (TypeId δ)} {hs : List (TypeId δ)}
    (hp : Quiet p) (hf : ∀ a, Tr I E V hs (f a) G) : Tr I E V hs (p >>= f) G :=
  Tr.bind B (Tr.quiet B hp) hf

theorem Tr.pure {a : α} {F : α → List (TypeId δ)} {hs : List (TypeId δ)} (h : ∀ t ∈ F a, t ∈ hs) :
    Tr I E V hs (Pure.pure a : P κ α) F := by
  intro s hi hv b s' e
  cases e
  exact ⟨hi, B.refl _, fun t ht => hv t (h t ht)⟩

omit B in
theorem Tr.fail {F : α → List (TypeId δ)} {hs : List (TypeId δ)} : Tr I E V hs (P.fail : P κ α) F := by
  intro s hi hv b s' e; cases e
omit B in
theorem Tr.wait {F : α → List (TypeId δ)} {hs : List (TypeId δ)} : Tr I E V hs (P.wait : P κ α) F := by
  intro s hi hv b s' e; cases e

omit B in
theorem Tr.ite {c : Prop} [Decidable c] {p q : P κ α} {F : α → List (TypeId δ)} {hs : List (TypeId δ)}
    (hp : Tr I E V hs p F) (hq : Tr I E V hs q F) : Tr I E V hs (if c then p else q) F := by
  split <;> assumption

omit B in
theorem Tr.any {p : P κ α} {F : α → List (TypeId δ)} (h : Tr I E V [] p F) (hs : List (TypeId δ)) : Tr I E V hs p F :=
  fun s hi _ => h s hi (fun _ h => by cases h)

omit B in
theorem Tr.weaken {p : P κ α} {F F' : α → List (TypeId δ)} {hs : List (TypeId δ)} (h : Tr I E V hs p F)
    (hF : ∀ a, ∀ t ∈ F' a, t ∈ F a) : Tr I E V hs p F' := fun s hi hv a s' e =>
  ⟨(h s hi hv a s' e).1, (h s hi hv a s' e).2.1, fun t ht => (h s hi hv a s' e).2.2 t (hF a t ht)⟩

theorem Tr.traced {p : P κ α} {F : α → List (TypeId δ)} {hs : List (TypeId δ)} (h : Tr I E V hs p F) :
    Tr I E V hs (traced p) F := by
  unfold TP.traced
  refine Tr.step B quiet_cur fun _ => Tr.bind B h fun a => Tr.step B quiet_cur fun _ => Tr.pure B fun t ht => ?_
  exact List.mem_append_left _ ht

theorem Tr.stacked {p : P κ α} {F : α → List (TypeId δ)} {hs : List (TypeId δ)} (h : Tr I E V hs p F) :
    Tr I E V hs (stacked D p) F := by
  intro s hi hv a s' e
  unfold TP.stacked at e
  cases e1 : p { s with cx := D.stack s.cx } with
  | ok b s1 =>
    rw [e1] at e
    cases e
    have hst := B.stack hi
    obtain ⟨i1, x1, v1⟩ := h _ hst.1 (fun t ht => hst.2 t (hv t ht)) _ _ e1
    obtain ⟨i2, x2, v2⟩ := B.restore hi i1 x1
    exact ⟨i2, x2, fun t ht => v2 t (v1 t ht)⟩
  | _ => rw [e1] at e; cases e

/-- the parser of expressions -/
theorem Tr.expr (n : Nat) {hs : List (TypeId δ)} : Tr I E V hs (parseExpr u D.toEnv n) (fun _ => []) := by
  intro s hi _ a s' e
  let S : SEnv κ δ Unit := { D.toEnv with isLabel := D.isLabel, setHandler := fun _ _ _ => .err, parseType := fun _ => P.fail }
  have SB : SBase u S (fun _ _ _ _ => True) (fun k c => I c ∧ E k c) (fun _ => True) s.tail True True False := {
    roll := fun k c h => ⟨(B.roll h.1).1, B.trans h.2 (B.roll h.1).2⟩
    get := fun l => l.elim
    member := fun l => l.elim
    nil := fun _ => trivial
    hang := fun _ => trivial
    ns := fun _ _ _ _ _ _ _ _ _ _ _ _ _ => trivial
    set := fun _ _ _ _ _ => trivial
    good := fun _ _ _ => trivial
    asm := fun _ _ _ _ _ => trivial
    type := fun _ _ _ _ _ _ _ => trivial }
  have := SB.expr (k := s.cx) (s := s) ⟨rfl, ⟨hi, B.refl _⟩, trivial⟩ (n := n) (fun _ => trivial) (f := fun e => Pure.pure e)
    (Q := fun _ s' => I s'.cx ∧ E s.cx s'.cx) (fun e s' used _ h _ => h.cx)
  rw [wp_bind] at this
  unfold wp at this
  rw [show parseExpr u S.toEnv n s = .ok a s' from e] at this
  exact ⟨this.1, this.2, fun _ h => by cases h⟩

theorem Tr.setDecl {is : List Ident} {k : DKind δ} (hk : k = .enumElem ∨ k = .param) {hs : List (TypeId δ)} : Tr I E V hs (setDecl D is k) (fun _ => []) := by
  intro s hi _ a s' e
  unfold TP.setDecl at e
  cases e1 : D.set s.cx is k with
  | ok c =>
    rw [e1] at e; cases e
    exact ⟨(B.set hk hi e1).1, (B.set hk hi e1).2, fun _ h => by cases h⟩
  | _ => rw [e1] at e; cases e

/-! ## Type identifiers -/

theorem typeIdWithUnit_tr : Tr I E V [] (parseTypeIdWithUnit u D) Option.toList := by
  unfold parseTypeIdWithUnit
  refine Tr.step B quiet_cur fun t => Tr.step B (quiet_getDecl _) fun d => Tr.ite ?_ ?_
  · refine Tr.step B (quiet_nextIs _) fun _ => Tr.step B (quiet_nextIs _) fun t2 => ?_
    intro s hi hv b s' e
    cases e
    refine ⟨hi, B.refl _, fun t ht => ?_⟩
    rw [List.mem_singleton.1 ht]
    exact B.qual hi
  · exact Tr.pure B fun t ht => by cases ht

theorem typeIdWithoutUnit_tr : Tr I E V [] (parseTypeIdWithoutUnit D) (fun t => [t]) := by
  unfold parseTypeIdWithoutUnit
  refine Tr.step B quiet_cur fun t => Tr.step B quiet_next fun _ => ?_
  intro s hi hv b s' e
  change (match D.get s.cx t.raw with
    | some d => (Pure.pure ⟨none, Ident.ofTok t, .now d⟩ : P κ (TypeId δ))
    | none => do
      let i ← newRef D t.raw
      Pure.pure ⟨none, Ident.ofTok t, .later i⟩) s = .ok b s' at e
  cases hg : D.get s.cx t.raw with
  | some d =>
    rw [hg] at e; cases e
    exact ⟨hi, B.refl _, fun x hx => by rw [List.mem_singleton.1 hx]; exact B.now hi hg⟩
  | none =>
    rw [hg] at e; cases e
    obtain ⟨h1, h2, h3⟩ := B.newRef (t := t) hi hg
    exact ⟨h1, h2, fun x hx => by rw [List.mem_singleton.1 hx]; exact h3⟩

theorem typeId_tr : Tr I E V [] (parseTypeId u D) (fun t => [t]) := by
  unfold parseTypeId
  refine Tr.bind B (typeIdWithUnit_tr B) fun o => ?_
  cases o with
  | none => exact (typeIdWithoutUnit_tr B).any _
  | some t => exact Tr.pure B fun t ht => by simpa using ht

theorem emb_tr (k : EmbKind) : Tr I E V [] (parseEmb u D k) (fun o => o.toList.flatMap idsType) := by
  unfold parseEmb
  refine Tr.step B quiet_cur fun t => ?_
  cases hk : D.emb k (t.value u) with
  | none => exact Tr.pure B fun t ht => by cases ht
  | some d =>
    refine Tr.step B quiet_next fun _ => ?_
    intro s hi hv b s' e
    cases e
    refine ⟨hi, B.refl _, fun x hx => ?_⟩
    have : x = ⟨none, Ident.ofTok t, .now d⟩ := by simpa [idsType] using hx
    rw [this]; exact B.emb hi hk

/-- a rollback without a change of the context -/
theorem tr_rollback {s0 s1 : PS κ} (h : s1.cx = s0.cx) (hi : I s1.cx) : I (D.rollback s0.cx) ∧ E s1.cx (D.rollback s0.cx) := by
  rw [h] at hi ⊢; exact B.roll hi

theorem subrangeIdent_tr (n : Nat) : Tr I E V [] (parseSubrangeIdent u D n) (fun o => o.toList.flatMap idsType) := by
  unfold parseSubrangeIdent
  intro s hi hv b s' e
  obtain ⟨s0, s1, e1, e⟩ := ok_bind e
  obtain ⟨t1, s2, e2, e⟩ := ok_bind e
  obtain ⟨_, s3, e3, e⟩ := ok_bind e
  obtain ⟨c, s4, e4, e⟩ := ok_bind e
  have h1 : s0 = s ∧ s1 = s := by
    unfold rollbackPoint at e1
    split at e1 <;> cases e1
    exact ⟨rfl, rfl⟩
  have h4 : s4.cx = s.cx := by
    rw [quiet_is _ _ _ _ e4, quiet_next _ _ _ e3, quiet_cur _ _ _ e2, h1.2]
  have hi4 : I s4.cx := by rw [h4]; exact hi
  rw [← h4]
  cases c with
  | true =>
    have : Tr I E V [] (do
        P.next
        let e ← parseExpr u D.toEnv n
        let r ← getDecl D.toEnv t1.raw
        Pure.pure (some (.subrange (qualExpr ⟨none, ⟨Ident.ofTok t1, r⟩⟩) e)) : P κ (Option (PType δ)))
        (fun o => o.toList.flatMap idsType) :=
      Tr.step B quiet_next fun _ => Tr.bind B (Tr.expr B n) fun _ => Tr.step B (quiet_getDecl _) fun _ => Tr.pure B fun t ht => by
        simp [idsType] at ht
    exact this s4 hi4 (fun _ h => by cases h) b s' e
  | false =>
    cases e
    rw [h1.1]
    obtain ⟨h5, h6⟩ := tr_rollback B h4 hi4
    exact ⟨h5, h6, fun _ h => by cases h⟩

theorem variantIdent_tr : Tr I E V [] (parseVariantIdent D) (fun _ => []) := by
  unfold parseVariantIdent
  intro s hi hv b s' e
  obtain ⟨s0, s1, e1, e⟩ := ok_bind e
  obtain ⟨t1, s2, e2, e⟩ := ok_bind e
  obtain ⟨_, s3, e3, e⟩ := ok_bind e
  obtain ⟨c, s4, e4, e⟩ := ok_bind e
  have h1 : s0 = s ∧ s1 = s := by
    unfold rollbackPoint at e1
    split at e1 <;> cases e1
    exact ⟨rfl, rfl⟩
  have h4 : s4.cx = s.cx := by
    rw [quiet_is _ _ _ _ e4, quiet_next _ _ _ e3, quiet_current _ _ _ _ e2, h1.2]
  have hi4 : I s4.cx := by rw [h4]; exact hi
  rw [← h4]
  cases c with
  | true =>
    have : Quiet (do P.next; Pure.pure (some (Ident.ofTok t1)) : P κ (Option Ident)) := by quiets
    rw [this _ _ _ e]
    exact ⟨hi4, B.refl _, fun _ h => by cases h⟩
  | false =>
    cases e
    rw [h1.1]
    obtain ⟨h5, h6⟩ := tr_rollback B h4 hi4
    exact ⟨h5, h6, fun _ h => by cases h⟩

end
end TP
