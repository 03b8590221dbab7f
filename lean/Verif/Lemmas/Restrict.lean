import Verif.Spec.Declared
import Verif.Lemmas.TraceBlock

/-!
# Parsers that may declare only certain things

`DEnv.restrict` is an environment in which only certain declarations succeed.  If a parser succeeds and all that its result
declares is allowed, then it does the same in the restricted environment.
-/

namespace TP
open Spec

variable {κ δ : Type}

open Classical in
/-- only the declarations allowed by `okS` and `okC` succeed -/
noncomputable def DEnv.restrict (D : DEnv κ δ) (okS : κ → List Ident → DKind δ → Prop) (okC : κ → Ident → PType δ → Prop) : DEnv κ δ :=
  { D with
    set := fun c is k => if okS c is k then D.set c is k else .err
    complete := fun c old i ty => if okC c i ty then D.complete c old i ty else .err }

/-- what is declared -/
def dcls (is : List Ident) : DKind δ → List (Dcl δ)
  | .enumElem => is.map (.named .enumElem)
  | .const => is.map (.named .const)
  | .var => is.map (.named .var)
  | .threadVar => is.map (.named .threadVar)
  | .param => is.map (.named .param)
  | .type t => is.map fun i => .type i.name t
  | .label => is.map (.named .label)
  | .func => is.map (.named .func)
  | .heading => is.map (.named .heading)
  | .handler => is.map (.named .handler)

/-- `F` holds in the end, and so before -/
structure ReBase (u : Uni) (D : DEnv κ δ) (S : Dcl δ → Prop) (F : κ → Prop) (okS : κ → List Ident → DKind δ → Prop)
    (okC : κ → Ident → PType δ → Prop) : Prop where
  set : ∀ {c is k c'}, D.set c is k = .ok c' → F c' → F c ∧ ((∀ x ∈ dcls is k, S x) → okS c is k)
  complete : ∀ {c old i ty c'}, D.complete c old i ty = .ok c' → F c' → F c ∧ (S (.type i.name ty) → okC c i ty)
  roll : ∀ {c}, F (D.rollback c) → F c
  newRef : ∀ {c a}, F (D.newRef c a).1 → F c
  stack : ∀ {c}, F (D.stack c) → F c
  restore : ∀ {c c'}, F (D.restore c c') → F c'
  sect : ∀ {c c'}, F (D.closeSection c (D.runSection c')) → F c'
  openS : ∀ {c}, F (D.openSection c) → F c

/-- If the result declares only what is in `S`, then `hs` is in `S`, and `q` does the same. -/
def Re (S : Dcl δ → Prop) (F : κ → Prop) {α : Type} (hs : List (Dcl δ)) (p q : P κ α) (f : α → List (Dcl δ)) : Prop :=
  ∀ s a s', p s = .ok a s' → (∀ x ∈ f a, S x) → F s'.cx → (∀ x ∈ hs, S x) ∧ F s.cx ∧ q s = .ok a s'

variable {u : Uni} {D : DEnv κ δ} {S : Dcl δ → Prop} {F : κ → Prop} {okS : κ → List Ident → DKind δ → Prop} {okC : κ → Ident → PType δ → Prop}
variable {α β : Type}

namespace Re

theorem bind {p q : P κ α} {f g : α → P κ β} {G : α → List (Dcl δ)} {H : β → List (Dcl δ)} {hs : List (Dcl δ)}
    (hp : Re S F [] p q G) (hf : ∀ a, Re S F (G a ++ hs) (f a) (g a) H) : Re S F hs (p >>= f) (q >>= g) H := by
  intro s b s' e hb hF
  obtain ⟨a, s1, e1, e2⟩ := ok_bind e
  obtain ⟨h1, h2, h3⟩ := hf a s1 b s' e2 hb hF
  obtain ⟨-, h4, h5⟩ := hp s a s1 e1 (fun x hx => h1 x (List.mem_append_left _ hx)) h2
  refine ⟨fun x hx => h1 x (List.mem_append_right _ hx), h4, ?_⟩
  change P.bind q g s = _
  unfold P.bind
  rw [h5]
  exact h3

/-- what was declared before is in the first result -/
theorem bind2 {p q : P κ α} {f g : α → P κ β} {G : α → List (Dcl δ)} {H : β → List (Dcl δ)} {hs : List (Dcl δ)}
    (hp : Re S F hs p q G) (hf : ∀ a, Re S F (G a) (f a) (g a) H) : Re S F hs (p >>= f) (q >>= g) H := by
  intro s b s' e hb hF
  obtain ⟨a, s1, e1, e2⟩ := ok_bind e
  obtain ⟨h1, h2, h3⟩ := hf a s1 b s' e2 hb hF
  obtain ⟨h4, h5, h6⟩ := hp s a s1 e1 h1 h2
  refine ⟨h4, h5, ?_⟩
  change P.bind q g s = _
  unfold P.bind
  rw [h6]
  exact h3

theorem same {p : P κ α} (h : ∀ s a s', p s = .ok a s' → F s'.cx → F s.cx) : Re S F [] p p (fun _ => []) := fun s a s' e _ hF =>
  ⟨(fun _ h => by cases h), h s a s' e hF, e⟩

theorem step {p : P κ α} {f g : α → P κ β} {H : β → List (Dcl δ)} {hs : List (Dcl δ)} (hp : Quiet p)
    (hf : ∀ a, Re S F hs (f a) (g a) H) : Re S F hs (p >>= f) (p >>= g) H :=
  bind (same fun _ _ _ e h => by rw [← hp _ _ _ e]; exact h) hf

theorem pure {a : α} {G : α → List (Dcl δ)} {hs : List (Dcl δ)} (h : ∀ t ∈ hs, t ∈ G a) : Re S F hs (Pure.pure a) (Pure.pure a) G := by
  intro s b s' e hb hF
  cases e
  exact ⟨fun x hx => hb x (h x hx), hF, rfl⟩

theorem fail {G : α → List (Dcl δ)} {hs : List (Dcl δ)} {q : P κ α} : Re S F hs P.fail q G := fun s b s' e => by cases e
theorem wait {G : α → List (Dcl δ)} {hs : List (Dcl δ)} {q : P κ α} : Re S F hs P.wait q G := fun s b s' e => by cases e

theorem ite {c : Prop} [Decidable c] {p q p' q' : P κ α} {G : α → List (Dcl δ)} {hs : List (Dcl δ)}
    (hp : Re S F hs p p' G) (hq : Re S F hs q q' G) : Re S F hs (if c then p else q) (if c then p' else q') G := by
  split <;> assumption

theorem mono {p q : P κ α} {G G' : α → List (Dcl δ)} {hs : List (Dcl δ)} (h : Re S F hs p q G) (hG : ∀ a, ∀ t ∈ G a, t ∈ G' a) :
    Re S F hs p q G' := fun s a s' e hb hF => h s a s' e (fun x hx => hb x (hG a x hx)) hF

/-- the last step -/
theorem last {p q : P κ α} {G : α → List (Dcl δ)} {hs : List (Dcl δ)} (h : Re S F [] p q G) (hG : ∀ a, ∀ t ∈ hs, t ∈ G a) : Re S F hs p q G :=
  fun s a s' e hb hF => ⟨fun x hx => hb x (hG a x hx), (h s a s' e hb hF).2⟩

theorem traced {p q : P κ α} {G : α → List (Dcl δ)} {hs : List (Dcl δ)} (h : Re S F hs p q G) : Re S F hs (traced p) (traced q) G := by
  intro s a s' e hb hF
  unfold TP.traced at e
  obtain ⟨t, s1, e1, e⟩ := ok_bind e
  obtain ⟨b, s2, e2, e⟩ := ok_bind e
  obtain ⟨t', s3, e3, e⟩ := ok_bind e
  cases e
  rw [quiet_cur _ _ _ e3] at hF
  obtain ⟨h1, h2, h3⟩ := h _ _ _ e2 hb hF
  rw [quiet_cur _ _ _ e1] at h2
  refine ⟨h1, h2, ?_⟩
  unfold TP.traced
  change P.bind P.cur _ s = _
  unfold P.bind
  rw [e1]
  change P.bind q _ s1 = _
  unfold P.bind
  rw [h3]
  change P.bind P.cur _ s2 = _
  unfold P.bind
  rw [e3]
  rfl

end Re

section
variable (B : ReBase u D S F okS okC)
include B
local notation "D'" => DEnv.restrict D okS okC

/-- what does not declare anything -/
theorem ReBase.calm : TrBase u D (fun _ => True) (fun a b => F b → F a) (fun _ _ => True) where
  refl _ := id
  trans h h' := fun x => h (h' x)
  up _ _ := trivial
  roll _ := ⟨trivial, B.roll⟩
  set _ _ e := ⟨trivial, fun h => (B.set e h).1⟩
  newRef _ _ := ⟨trivial, B.newRef, trivial⟩
  now _ _ := trivial
  emb _ _ := trivial
  qual _ := trivial
  stack _ := ⟨trivial, fun _ _ => trivial⟩
  restore _ _ h := ⟨trivial, fun x => B.stack (h (B.restore x)), fun _ _ => trivial⟩

omit B in
/-- a parser that declares nothing -/
theorem Re.calm {p : P κ α} {f : α → List (TypeId δ)} {G : α → List (Dcl δ)} (h : Tr (fun _ => True) (fun a b => F b → F a) (fun _ _ => True) [] p f) :
    Re S F [] p p G := Re.mono (Re.same fun s a s' e => (h s trivial (fun _ h => by cases h) a s' e).2.1) fun _ _ h => by cases h

theorem Re.stacked {p q : P κ α} {G : α → List (Dcl δ)} {hs : List (Dcl δ)} (h : Re S F hs p q G) : Re S F hs (stacked D p) (stacked D' q) G := by
  intro s a s' e hb hF
  unfold TP.stacked at e
  cases e1 : p { s with cx := D.stack s.cx } with
  | ok b s1 =>
    rw [e1] at e
    cases e
    obtain ⟨h1, h2, h3⟩ := h _ _ _ e1 hb (B.restore hF)
    refine ⟨h1, B.stack h2, ?_⟩
    unfold TP.stacked
    rw [show q { s with cx := (D').stack s.cx } = _ from h3]
    rfl
  | _ => rw [e1] at e; cases e

theorem Re.setDecl {is : List Ident} {k : DKind δ} : Re S F [] (setDecl D is k) (setDecl D' is k) (fun _ => dcls is k) := by
  intro s a s' e hb hF
  unfold TP.setDecl at e
  cases e1 : D.set s.cx is k with
  | ok c =>
    rw [e1] at e; cases e
    obtain ⟨h1, h2⟩ := B.set e1 hF
    refine ⟨(fun _ h => by cases h), h1, ?_⟩
    unfold TP.setDecl
    rw [show (D').set s.cx is k = .ok c by unfold DEnv.restrict; simp only; rw [if_pos (h2 hb), e1]]
  | _ => rw [e1] at e; cases e

theorem Re.declareType (i : Ident) (ty : PType δ) : Re S F [] (declareType D i ty) (declareType D' i ty) (fun _ => [.type i.name ty]) := by
  unfold TP.declareType
  refine Re.step (quiet_getDecl _) fun o => ?_
  cases o with
  | none => exact Re.mono (Re.setDecl B) fun _ t ht => by simpa [dcls] using ht
  | some old =>
    refine Re.ite ?_ Re.fail
    intro s a s' e hb hF
    unfold completeType at e
    cases e1 : D.complete s.cx old i ty with
    | ok c =>
      rw [e1] at e; cases e
      obtain ⟨h1, h2⟩ := B.complete e1 hF
      refine ⟨(fun _ h => by cases h), h1, ?_⟩
      unfold completeType
      rw [show (D').complete s.cx old i ty = .ok c by unfold DEnv.restrict; simp only; rw [if_pos (h2 (hb _ (List.mem_singleton.2 rfl))), e1]]
    | _ => rw [e1] at e; cases e

end

end TP
