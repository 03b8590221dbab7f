import Verif.Spec.Acyclic
import Verif.Lemmas.Rounds
import Verif.Lemmas.DeclSound

/-!
# Searches through types that do not lead back to themselves
-/

namespace TP
open Spec

/-- a search in which some rank decreases -/
theorem Steps.ends {α : Type} {step : α → Option α} {rank : α → Nat} (h : ∀ a b, step a = some b → rank b < rank a) :
    ∀ a, ¬ Steps step (rank a + 1) a := by
  have : ∀ n a, rank a < n → ¬ Steps step n a := by
    intro n
    induction n with
    | zero => intro a h; omega
    | succ n ih =>
      rintro a ha ⟨b, h1, h2⟩
      exact ih b (by have := h a b h1; omega) h2
  exact fun a => this _ a (Nat.lt_succ_self _)

section
variable {k : DS}

theorem typeNo_eq {t : TypeId (Decl Node)} {i : Nat} (h : k.typeNo t = some i) : ∃ name, k.ref t.ref = some ⟨name, .type i⟩ := by
  unfold DS.typeNo at h
  split at h
  · cases h; exact ⟨_, by assumption⟩
  · cases h

theorem parent_leads {h : List (TypeId (Decl Node))} {i : Nat} (e : ClassType.getParentClass k.typeNodes (h.map k.typeNo) = some i) :
    ∃ t ∈ h, ∃ name, k.ref t.ref = some ⟨name, .type i⟩ := by
  cases h with
  | nil => cases e
  | cons t l =>
    rw [List.map_cons] at e
    unfold ClassType.getParentClass at e
    split at e
    · rename_i d _ hd
      split at e
      · cases e
        obtain ⟨name, hn⟩ := typeNo_eq (List.cons.inj hd).1
        exact ⟨t, List.mem_cons_self, name, hn⟩
      · cases e
    · cases e

theorem typeNodes_cls {i : Nat} {h : List (Option Nat)} {m : List (Section Node)} (e : k.typeNodes i = .cls h m) :
    ∃ hs ms, k.types[i]? = some (.cls hs ms) ∧ h = hs.map k.typeNo := by
  unfold DS.typeNodes at e
  split at e
  · rename_i t ht
    cases t <;> simp only [DS.typeNode] at e <;> cases e
    exact ⟨_, _, ht, rfl⟩
  · cases e

theorem memberStep_leads {u : Uni} {name : Str} {i j : Nat} (e : ClassType.memberStep u k.typeNodes name i = some j) : LeadsTo k i j := by
  unfold ClassType.memberStep at e
  split at e
  · rename_i h m hc
    obtain ⟨hs, ms, h1, rfl⟩ := typeNodes_cls hc
    split at e
    · cases e
    · obtain ⟨t, h2, n, h3⟩ := parent_leads e
      exact ⟨_, t, n, h1, h2, h3⟩
  · cases e

theorem propStep_leads {u : Uni} {name : Str} {i j : Nat} (e : ClassType.propStep u k.typeNodes name i = some j) : LeadsTo k i j := by
  unfold ClassType.propStep at e
  split at e
  · rename_i h m hc
    obtain ⟨hs, ms, h1, rfl⟩ := typeNodes_cls hc
    split at e
    · cases e
    · obtain ⟨t, h2, n, h3⟩ := parent_leads e
      exact ⟨_, t, n, h1, h2, h3⟩
  · cases e

theorem ty_ends : ∀ p : PType (Decl Node),
    (∀ t ∈ chainIds p, ∀ d, k.tyNo t = some d → ∃ m, ¬ Steps (Ty.step k.tys .ordinal) m (k.tys d)) →
    ∃ m, ¬ Steps (Ty.step k.tys .ordinal) m (k.ty p) := by
  intro p
  induction p using DS.ty.induct with
  | case1 t =>
    intro ref
    simp only [DS.ty]
    cases hn : k.tyNo t with
    | none => exact ⟨1, fun ⟨_, h, _⟩ => by cases h⟩
    | some d =>
      obtain ⟨m, hm⟩ := ref t (by simp [chainIds]) d hn
      exact ⟨m + 1, fun ⟨_, h, h2⟩ => by cases h; exact hm h2⟩
  | case6 b p ihp =>
    intro ref
    simp only [DS.ty]
    obtain ⟨m, hm⟩ := ihp (by simpa only [chainIds] using ref)
    exact ⟨m + 1, fun ⟨_, h, h2⟩ => by simp only [Ty.step, or_true, if_true] at h; cases h; exact hm h2⟩
  | case7 b t =>
    intro ref
    simp only [DS.ty]
    cases hn : k.tyNo t with
    | none => exact ⟨1, fun ⟨_, h, _⟩ => by cases h⟩
    | some d =>
      obtain ⟨m, hm⟩ := ref t (by simp [chainIds]) d hn
      exact ⟨m + 1, fun ⟨_, h, h2⟩ => by cases h; exact hm h2⟩
  | _ => intro _; exact ⟨1, fun ⟨_, h, _⟩ => by simp [DS.ty, Ty.step] at h⟩

/-- the classification of declared types ends -/
theorem tys_end {rank : Nat → Nat} (hr : ∀ i j, LeadsTo k i j → rank j < rank i) :
    ∀ d, ∃ m, ¬ Steps (Ty.step k.tys .ordinal) m (k.tys d) := by
  have key : ∀ n i, rank i < n → ∃ m, ¬ Steps (Ty.step k.tys .ordinal) m (k.tys (i + 5)) := by
    intro n
    induction n with
    | zero => intro i h; omega
    | succ n ih =>
      intro i hi
      simp only [DS.tys]
      cases e : k.types[i]? with
      | none => exact ⟨1, fun ⟨_, h, _⟩ => by cases h⟩
      | some ty =>
        refine ty_ends ty fun t ht d hd => ?_
        unfold DS.tyNo at hd
        split at hd
        · rename_i nm j hj
          cases hd
          exact ih j (by have := hr i j ⟨ty, t, nm, e, ht, hj⟩; omega)
        · cases hd
          refine ⟨1, fun ⟨_, h, _⟩ => ?_⟩
          cases ‹EmbKind› <;> cases h
        · cases hd
  intro d
  match d with
  | 0 | 1 | 2 | 3 | 4 => exact ⟨1, fun ⟨_, h, _⟩ => by cases h⟩
  | i + 5 => exact key _ i (Nat.lt_succ_self _)

variable (h : Acyclic k)
include h

theorem Spec.Acyclic.ordinal (ty : PType (Decl Node)) : k.ordinal ty ≠ none := by
  intro e
  obtain ⟨rank, hr⟩ := h.rank
  obtain ⟨m, hm⟩ := ty_ends ty fun _ _ d _ => tys_end hr d
  exact hm (Ty.is_none.1 (DS.ordinal_hang e m))

theorem Spec.Acyclic.findMember (u : Uni) (hs : List (TypeId (Decl Node))) (ms : Sects (Decl Node)) (name : Str) :
    k.findMember u hs ms name ≠ .hang := by
  intro e
  obtain ⟨rank, hr⟩ := h.rank
  obtain ⟨-, c, -, hc⟩ := DS.findMember_hang u e
  exact Steps.ends (fun i j hs => hr i j (memberStep_leads hs)) c ((ClassType.findMemberDecl_none u k.typeNodes).1 (hc _))

theorem Spec.Acyclic.findProp (u : Uni) (hs : List (TypeId (Decl Node))) (ms : Sects (Decl Node)) (name : Str) :
    k.findProp u hs ms name ≠ .hang := by
  intro e
  obtain ⟨rank, hr⟩ := h.rank
  obtain ⟨-, c, -, hc⟩ := DS.findProp_hang u e
  exact Steps.ends (fun i j hs => hr i j (propStep_leads hs)) c ((ClassType.findProperty_none u k.typeNodes).1 (hc _))

/-- more references do not matter -/
theorem Spec.Acyclic.more {k' : DS} (ht : k'.types = k.types) (hr : k.refs <+: k'.refs) : Acyclic k' := by
  obtain ⟨r, hr⟩ := hr
  have known : ∀ ty ∈ k.types, ∀ t ∈ chainIds ty, k'.ref t.ref = k.ref t.ref := by
    intro ty hty t ht'
    have := h.known ty hty t ht'
    cases e : t.ref with
    | later i =>
      simp only [DS.ref]
      rw [← hr, List.getElem?_append_left (this i e)]
    | _ => rfl
  obtain ⟨rank, hrank⟩ := h.rank
  refine ⟨⟨rank, fun i j ⟨ty, t, nm, h1, h2, h3⟩ => hrank i j ⟨ty, t, nm, by rw [← ht]; exact h1, h2, ?_⟩⟩, fun ty hty t ht' i e => ?_⟩
  · rw [ht] at h1
    rw [← known ty (List.mem_of_getElem? h1) t h2]; exact h3
  · rw [ht] at hty
    have := h.known ty hty t ht' i e
    rw [← hr, List.length_append]; omega

end

/-! ## Blocks without types -/

/-- no more types than in `k0` -/
structure SameTypes (k0 k : DS) : Prop where
  types : k.types = k0.types
  refs : k0.refs <+: k.refs

theorem rollback_keeps (k : DS) : k.rollback.types = k.types ∧ k.rollback.refs = k.refs := by
  unfold DS.rollback; split <;> exact ⟨rfl, rfl⟩

theorem SameTypes.set {u : Uni} {k0 k k' : DS} (h : SameTypes k0 k) {is : List Ident} {kind : DKind (Decl Node)}
    (hk : ∀ ty, kind ≠ .type ty) (e : k.set u is kind = .ok k') : SameTypes k0 k' := by
  have ha : k.addType kind = k := by
    cases kind <;> first | rfl | exact (hk _ rfl).elim
  unfold DS.set at e
  rw [ha] at e
  unfold DS.setR at e
  split at e <;> cases e
  exact ⟨h.types, h.refs⟩

/-- no token of the word `TYPE` -/
def NoTypeWord (u : Uni) (ts : List Token) : Prop := ∀ t ∈ ts, ¬ IsKw u r!"TYPE" t

/-- Where no types are declared and the types that are do not lead back to themselves, all searches end. -/
theorem sameBase (u : Uni) {k0 : DS} (hk : Acyclic k0) {Good : List Token → Prop} {tl : Tail} (htl : tl ≠ .hang)
    (hgood : ∀ t ts, Good (t :: ts) → Good ts) (hno : ∀ ts, Good ts → NoTypeWord u ts)
    (hasm : ∀ t ts, Good (t :: ts) → IsKw u r!"ASM" t → ∃ x ∈ ts.tail, IsKw u r!"END" x) :
    DBase u (declEnv u) (SameTypes k0) Good tl True False := by
  refine .of (F := fun J => J = SameTypes k0) ?_ rfl
  rintro J rfl
  refine ⟨{
    roll := fun c h => ⟨(rollback_keeps c).1.trans h.types, by
      rw [show ((declEnv u).rollback c).refs = c.refs from (rollback_keeps c).2]; exact h.refs⟩
    nil := fun _ => trivial
    hang := htl
    ns := fun _ _ _ _ _ _ _ _ _ _ _ _ => trivial
    set := fun c h is k hk => by
      rw [show (declEnv u).set c is k = c.set u is k from rfl]
      cases e : c.set u is k with
      | ok k' => exact h.set hk e
      | _ => trivial
    newRef := fun c name h => ⟨h.types, h.refs.trans (List.prefix_append _ _)⟩
    ordinal := fun c h ty => (hk.more h.types h.refs).ordinal ty
    findMember := fun c h => (hk.more h.types h.refs).findMember u
    findProp := fun c h => (hk.more h.types h.refs).findProp u
    good := hgood
    asm := fun t ts h ht hn => by
      obtain ⟨x, h1, h2⟩ := hasm t ts h ht
      exact hn x h1 h2 }, ?_, ?_⟩
  · intro c h
    refine ⟨_, rfl, ?_, fun c' h' => ?_⟩
    · rw [show (declEnv u).stack c = c.stack from rfl]
      unfold DS.stack; split <;> exact ⟨h.types, h.refs⟩
    · rw [show (declEnv u).restore c c' = c.restore c' from rfl]
      unfold DS.restore; split <;> exact ⟨h'.types, h'.refs⟩
  · intro t ts hg ht
    exact (hno _ hg t List.mem_cons_self ht).elim

end TP
