import Verif.Lemmas.GoalSound
import Verif.Lemmas.Scope
import Verif.Props.C27
import Verif.Props.C47
import Mathlib.Data.List.Forall2
import Mathlib.Logic.Relation
import Mathlib.Data.List.Nodup

/-!
# Soundness of `ParseProgram`
-/

namespace TP
open Spec Props

variable {u : Uni} {Pp Pw : Prop} {α β : Type}

theorem wp_run {l : Loader} {p : P DS α} {s : PS DS} {Q : α × Loader → PS DS → Prop}
    (h : wp p ⟨l.ts, l.tail, { s.cx with cur := l.cur, pending := l.pending }⟩ (fun a s' =>
      Q (a, { l with ts := s'.ts, tail := s'.tail, cur := s'.cx.cur, pending := s'.cx.pending })
        { s with cx := { s'.cx with cur := s.cx.cur, pending := s.cx.pending } }) Pp Pw) : wp (l.run p) s Q Pp Pw := by
  unfold wp at h ⊢
  unfold Loader.run
  cases e : p ⟨l.ts, l.tail, { s.cx with cur := l.cur, pending := l.pending }⟩ <;> rw [e] at h <;> exact h

theorem wp_inImpl {cu unit : Nat} {es : List UsesEntry} {p : P DS α} {s : PS DS} {Q : α → PS DS → Prop}
    (h : match s.cx.openImpl u cu unit es with
      | none => Pp
      | some (k, um) => wp p { s with cx := k } (fun a s' => Q a { s' with cx := s'.cx.closeImpl unit um }) Pp Pw) :
    wp (inImpl u cu unit es p) s Q Pp Pw := by
  unfold wp inImpl
  cases e : s.cx.openImpl u cu unit es with
  | none => rw [e] at h; exact h
  | some k =>
    obtain ⟨k, um⟩ := k
    rw [e] at h
    unfold wp at h
    simp only at h ⊢
    cases e : p { s with cx := k } <;> rw [e] at h <;> exact h

/-- the main parser keeps its tokens -/
def Still (s s' : PS DS) : Prop := s'.ts = s.ts ∧ s'.tail = s.tail

theorem Still.refl (s : PS DS) : Still s s := ⟨rfl, rfl⟩
theorem Still.trans {s s' s'' : PS DS} (h : Still s s') (h' : Still s' s'') : Still s s'' :=
  ⟨h'.1.trans h.1, h'.2.trans h.2⟩

/-- only the tree counts -/
abbrev wpT (p : P DS α) (s : PS DS) (Q : α → PS DS → Prop) : Prop := wp p s Q True True

theorem wpT_stepR {f : DS → SetR DS} {s : PS DS} {g : Unit → P DS α} {Q : α → PS DS → Prop}
    (h : ∀ s', Still s s' → wpT (g ()) s' Q) : wpT (stepR f >>= g) s Q := by
  show wp _ _ _ _ _
  rw [wp_bind]
  unfold wp stepR
  cases f s.cx with
  | ok c => exact h _ ⟨rfl, rfl⟩
  | err => trivial
  | panic => trivial

variable (u) in
theorem anyUses (c : DS) (i : Ident) : match c.setUses u i with
    | .ok _ => True
    | .err => True
    | .panic => True := by cases c.setUses u i <;> trivial

/-! ## No uses clause names a unit twice -/

theorem wp_any {α : Type} (p : P DS α) (s : PS DS) : wpT p s (fun _ _ => True) := by
  show wp _ _ _ _ _
  unfold wp
  cases p s <;> trivial

theorem wp_and {p : P DS α} {s : PS DS} {Q Q' : α → PS DS → Prop} (h : wpT p s Q) (h' : wpT p s Q') :
    wpT p s (fun a s' => Q a s' ∧ Q' a s') := by
  change wp _ _ _ _ _ at h h' ⊢
  unfold wp at h h' ⊢
  cases e : p s <;> rw [e] at h h' <;> simp_all

variable (u) in
/-- the innermost scope declares the name -/
def Taken (c : DS) (name : Str) : Prop :=
  ∃ d t, c.w.dm c.cur = some d ∧ target c.w.maps d = some t ∧ (own u c.w.maps t name).isSome = true

theorem Taken.lower {c : DS} {a b : Str} (h : u.toLower a = u.toLower b) (ha : Taken u c a) : Taken u c b := by
  obtain ⟨d, t, h1, h2, h3⟩ := ha
  refine ⟨d, t, h1, h2, ?_⟩
  rw [Maps.own_target u h2] at h3 ⊢
  unfold Tbl.get Tbl.regularize at h3 ⊢
  rw [← h]; exact h3

theorem setUses_ok {c c' : DS} {i : Ident} (h : c.setUses u i = .ok c') :
    ¬ Taken u c i.name ∧ Taken u c' i.name ∧ ∀ name, Taken u c name → Taken u c' name := by
  unfold DS.setUses DS.setR World.set at h
  simp only at h
  cases hd : c.w.dm c.cur with
  | none => rw [hd] at h; cases h
  | some d =>
    rw [hd] at h
    have h1 := Maps.set_eq u c.w.maps d [⟨i.name, .uses c.items.length⟩]
    cases ht : target c.w.maps d with
    | none =>
      rw [ht] at h1
      simp only at h
      cases e : (Maps.set u c.w.maps d [⟨i.name, .uses c.items.length⟩]).2 with
      | ok => exact absurd e h1.2
      | err => rw [e] at h; cases h
      | panic => rw [e] at h; cases h
    | some t =>
      rw [ht] at h1
      simp only at h h1
      rw [h1] at h
      simp only at h
      have hset : Tbl.set u (Maps.tbl c.w.maps t) [⟨i.name, .uses c.items.length⟩] =
          match (Maps.tbl c.w.maps t).find (u.toLower i.name) with
          | some _ => (Maps.tbl c.w.maps t, false)
          | none => ((u.toLower i.name, ⟨i.name, .uses c.items.length⟩) :: Maps.tbl c.w.maps t, true) := by
        simp only [Tbl.set, Tbl.regularize]
        cases (Maps.tbl c.w.maps t).find (u.toLower i.name) <;> rfl
      cases hf : (Maps.tbl c.w.maps t).find (u.toLower i.name) with
      | some x => rw [hset, hf] at h; simp at h
      | none =>
        rw [hset, hf] at h
        simp only [if_true, SetR.ok.injEq] at h
        subst h
        refine ⟨?_, ?_, ?_⟩
        · rintro ⟨d', t', e1, e2, e3⟩
          rw [hd] at e1; cases e1
          rw [ht] at e2; cases e2
          rw [Maps.own_target u ht] at e3
          unfold Tbl.get Tbl.regularize at e3
          rw [hf] at e3; cases e3
        · refine ⟨d, t, hd, (Maps.target_upd _ _ _ _).trans ht, ?_⟩
          rw [Maps.own_upd_target u ht]
          simp [Tbl.get, Tbl.regularize, Tbl.find]
        · rintro name ⟨d', t', e1, e2, e3⟩
          rw [hd] at e1; cases e1
          rw [ht] at e2; cases e2
          refine ⟨d, t, hd, (Maps.target_upd _ _ _ _).trans ht, ?_⟩
          rw [Maps.own_upd_target u ht]
          rw [Maps.own_target u ht] at e3
          unfold Tbl.get at e3 ⊢
          rw [Tbl.find_cons]
          split
          · rfl
          · exact e3

theorem declareUses_nodup : ∀ (is : List (Ident × Option Str)) (s : PS DS), wpT (declareUses u is) s
    (fun es _ => (es.map fun e => u.toLower e.ident.name).Nodup ∧ ∀ e ∈ es, ¬ Taken u s.cx e.ident.name)
  | [], s => ⟨List.nodup_nil, fun _ h => by cases h⟩
  | (i, p) :: is, s => by
    unfold declareUses
    refine wp_askP ?_
    show wp _ _ _ _ _
    rw [wp_bind]
    unfold wp stepR
    simp only
    cases e : s.cx.setUses u i with
    | err => trivial
    | panic => trivial
    | ok c =>
      obtain ⟨h1, h2, h3⟩ := setUses_ok e
      refine wp_then (declareUses_nodup is _) ?_
      rintro es s' ⟨h4, h5⟩
      refine ⟨?_, ?_⟩
      · rw [List.map_cons, List.nodup_cons]
        refine ⟨fun h => ?_, h4⟩
        obtain ⟨x, hx, ex⟩ := List.mem_map.1 h
        exact h5 x hx (h2.lower ex.symm)
      · intro x hx
        rcases List.mem_cons.1 hx with rfl | hx
        · exact h1
        · exact fun h => h5 x hx (h3 _ h)

theorem identAndUses_nodup (n : Nat) (s : PS DS) : wpT (parseIdentAndUses u n) s
    (fun h _ => (h.2.map fun e => u.toLower e.ident.name).Nodup) := by
  unfold parseIdentAndUses
  refine wp_then (wp_any _ _) fun h s1 _ => ?_
  refine wp_then (Q1 := fun es _ => (es.map fun e => u.toLower e.ident.name).Nodup) ?_ fun es s2 h => h
  unfold parseIntfUses
  refine wp_then (wp_any _ _) fun _ s2 _ => ?_
  refine wp_then (wp_any _ _) fun _ s3 _ => ?_
  unfold parseOptUses
  refine wp_then (wp_any _ _) fun b s4 _ => ?_
  refine wp_ite (fun _ => ?_) (fun _ => List.nodup_nil)
  refine wp_then (Q1 := fun es _ => (es.map fun e => u.toLower e.ident.name).Nodup) ?_ fun es s5 h =>
    wp_then (wp_any _ _) fun _ _ _ => h
  unfold parseUses
  refine wp_then (wp_any _ _) fun _ s6 _ => ?_
  refine wp_then (wp_any _ _) fun _ s7 _ => ?_
  refine wp_then (wp_any _ _) fun is s8 _ => ?_
  exact wp_mono (declareUses_nodup is s8) (fun _ _ h => h.1) id id

variable (u) (files : Str → FileR)

/-- what has been read after the first loop: head and uses clause of the file -/
def Read0 (l : Loader) : Prop := ∃ ts tl b, files l.path = .tokens ts tl ∧ gHeadUses u ((l.head, b), l.uses) ts l.ts
/-- after the second loop: the interface too -/
def Read1 (l : Loader) : Prop := ∃ ts tl b z, files l.path = .tokens ts tl ∧ gHeadUses u ((l.head, b), l.uses) ts z ∧
  gIntfDecls u l.intf z l.ts
/-- after the third loop: everything -/
def Read2 (l : Loader) : Prop := ∃ ts tl, files l.path = .tokens ts tl ∧ gUsedUnit u l.tree ts l.ts

variable {u files}

/-- path, head and uses clause -/
def Loader.key (l : Loader) : Str × UnitHead × List UsesEntry := (l.path, l.head, l.uses)

theorem newLoaders_wp {sep : Char} {cp : Nat} : ∀ (es : List UsesEntry) (s : PS DS), wpT (newLoaders sep cp es) s
    (fun cs s' => Still s s' ∧ cs.map Prod.fst = (es.map fun e => UsesItem.effectivePath sep e.path).filter (· ≠ []))
  | [], s => ⟨.refl s, rfl⟩
  | e :: es, s => by
    unfold newLoaders
    refine wp_ite (fun c => ?_) (fun c => ?_)
    · refine wp_mono (newLoaders_wp es s) ?_ id id
      rintro cs s' ⟨h1, h2⟩
      exact ⟨h1, by rw [h2, List.map_cons, List.filter_cons_of_neg (by simpa using c)]⟩
    · refine wp_askP ?_
      refine wpT_stepR fun s1 h1 => ?_
      refine wp_then (newLoaders_wp es s1) ?_
      rintro cs s2 ⟨h2, h3⟩
      exact ⟨h1.trans h2, by rw [List.map_cons, h3, List.map_cons, List.filter_cons_of_pos (by simpa using c)]⟩

theorem loadUnit_wp {n : Nat} {path : Str} {c : Nat} (s : PS DS) : wpT (loadUnit u files n path c) s
    (fun l s' => Still s s' ∧ l.path = path ∧ Read0 u files l ∧ (l.uses.map fun e => u.toLower e.ident.name).Nodup) := by
  unfold loadUnit
  cases e : files path with
  | missing => trivial
  | unreadable => trivial
  | tokens ts tl =>
    refine wp_then (Q1 := fun r s' => Still s s' ∧ r.2.path = path ∧ gHeadUses u r.1 ts r.2.ts ∧
      (r.1.2.map fun e => u.toLower e.ident.name).Nodup) (wp_run ?_) ?_
    · refine (anyBase u (declEnv u) tl).cur? ⟨rfl, trivial, trivial⟩ ?_ fun t _ => ?_
      all_goals
        refine wp_mono (wp_and (identAndUses_sound (anyBase u (declEnv u) tl) (fun c _ i => anyUses u c i) (fun _ _ _ => trivial) n _
          ⟨rfl, trivial, trivial⟩ (fun _ => trivial)) (identAndUses_nodup n _)) ?_ id id
        rintro a s' ⟨⟨_, _, h⟩, h'⟩
        exact ⟨⟨rfl, rfl⟩, rfl, h, h'⟩
    · rintro r s' ⟨h1, h2, h3, h4⟩
      exact ⟨h1, h2, ⟨ts, tl, r.1.1.2, by rw [← e]; exact congrArg files h2, h3⟩, h4⟩

theorem loadAll_wp {cp n : Nat} : ∀ (cs : List (Str × Nat)) (s : PS DS), wpT (loadAll u files cp n cs) s
    (fun ls s' => Still s s' ∧ ls.map Loader.path = cs.map Prod.fst ∧
      ∀ l ∈ ls, Read0 u files l ∧ (l.uses.map fun e => u.toLower e.ident.name).Nodup)
  | [], s => ⟨.refl s, rfl, fun _ h => by cases h⟩
  | (path, c) :: cs, s => by
    unfold loadAll
    refine wp_then (loadUnit_wp s) ?_
    rintro l s1 ⟨h1, h2, h3⟩
    refine wpT_stepR fun s2 h4 => ?_
    refine wp_then (loadAll_wp cs s2) ?_
    rintro ls s3 ⟨h5, h6, h7⟩
    refine ⟨(h1.trans h4).trans h5, by rw [List.map_cons, h6, h2, List.map_cons], ?_⟩
    rintro l' h'
    rcases List.mem_cons.1 h' with rfl | h'
    · exact h3
    · exact h7 l' h'

/-- the loops over the parsers -/
theorem loop_wp {P0 P1 : Loader → Prop} {step : Loader → P DS Loader} {loop : List Nat → List Loader → P DS (List Loader)}
    (h0 : ∀ ls, loop [] ls = pure ls) (h1 : ∀ i is ls l, ls[i]? = some l →
      loop (i :: is) ls = (step l >>= fun l' => loop is (ls.set i l')))
    (h2 : ∀ i is ls, ls[i]? = none → loop (i :: is) ls = loop is ls)
    (hs : ∀ l s, P0 l → wpT (step l) s (fun l' s' => Still s s' ∧ l'.key = l.key ∧ P1 l')) :
    ∀ (is : List Nat) (ls : List Loader) (s : PS DS), (is.Nodup ∨ ∀ l, P1 l → P0 l) →
      (∀ i ∈ is, ∀ l, ls[i]? = some l → P0 l) →
      (∀ i l, i ∉ is → ls[i]? = some l → P1 l) → wpT (loop is ls) s
        (fun ls' s' => Still s s' ∧ ls'.map Loader.key = ls.map Loader.key ∧ ∀ l ∈ ls', P1 l)
  | [], ls, s, _, _, hp => by
    rw [h0]
    refine ⟨.refl s, rfl, fun l hl => ?_⟩
    obtain ⟨i, hi, rfl⟩ := List.mem_iff_getElem.1 hl
    exact hp i _ (by simp) (List.getElem?_eq_getElem hi)
  | i :: is, ls, s, hn, hp0, hp1 => by
    rw [List.nodup_cons] at hn
    have hn' : is.Nodup ∨ ∀ l, P1 l → P0 l := hn.imp And.right id
    cases e : ls[i]? with
    | none =>
      rw [h2 i is ls e]
      refine loop_wp h0 h1 h2 hs is ls s hn' (fun j hj => hp0 j (by simp [hj])) fun j l hj hl => ?_
      refine hp1 j l ?_ hl
      intro h
      rcases List.mem_cons.1 h with rfl | h
      · rw [e] at hl; cases hl
      · exact hj h
    | some l =>
      rw [h1 i is ls l e]
      refine wp_then (hs l s (hp0 i (by simp) l e)) ?_
      rintro l' s1 ⟨g1, g2, g3⟩
      have hi : i < ls.length := by
        by_contra h
        rw [List.getElem?_eq_none (by omega)] at e; cases e
      refine wp_mono (loop_wp h0 h1 h2 hs is (ls.set i l') s1 hn' ?_ ?_) ?_ id id
      · intro j hj l2 hl2
        by_cases c : i = j
        · subst c
          rw [List.getElem?_set_self hi] at hl2; cases hl2
          rcases hn with hn | hn
          · exact absurd hj hn.1
          · exact hn _ g3
        · rw [List.getElem?_set_ne c] at hl2
          exact hp0 j (by simp [hj]) l2 hl2
      · intro j l2 hj hl2
        by_cases c : i = j
        · subst c
          rw [List.getElem?_set_self hi] at hl2; cases hl2
          exact g3
        · rw [List.getElem?_set_ne c] at hl2
          exact hp1 j l2 (by simp [hj, Ne.symm c]) hl2
      · rintro ls' s2 ⟨g4, g5, g6⟩
        refine ⟨g1.trans g4, ?_, g6⟩
        rw [g5, List.map_set, g2]
        apply List.ext_getElem?
        intro j
        by_cases c : i = j
        · subst c
          rw [List.getElem?_set_self (by simpa using hi), List.getElem?_map, e]; rfl
        · rw [List.getElem?_set_ne c]

/-- the step of the second loop -/
def intfStep (u : Uni) (n : Nat) (l : Loader) : P DS Loader :=
  l.run (processIntf u l.cu l.head l.uses n) >>= fun r => pure { r.2 with intf := r.1 }
/-- the step of the third loop -/
def implStep (u : Uni) (n : Nat) (l : Loader) : P DS Loader :=
  l.run (processImpl u l.cu l.head.no n) >>= fun r => pure { r.2 with implUses := r.1.1, body := r.1.2 }

theorem intfAll_step {n i : Nat} {is : List Nat} {ls : List Loader} {l : Loader} (h : ls[i]? = some l) :
    intfAll u n (i :: is) ls = (intfStep u n l >>= fun l' => intfAll u n is (ls.set i l')) := by
  rw [intfAll, h]; unfold intfStep; rw [P.bind_assoc]; rfl
theorem implAll_step {n i : Nat} {is : List Nat} {ls : List Loader} {l : Loader} (h : ls[i]? = some l) :
    implAll u n (i :: is) ls = (implStep u n l >>= fun l' => implAll u n is (ls.set i l')) := by
  rw [implAll, h]; unfold implStep; rw [P.bind_assoc]; rfl

theorem intfStep_wp {n : Nat} (l : Loader) (s : PS DS) : wpT (intfStep u n l) s
    (fun l' s' => Still s s' ∧ l'.key = l.key ∧ (Read0 u files l → Read1 u files l')) := by
  refine wp_then (Q1 := fun r s' => Still s s' ∧ r.2.key = l.key ∧ gIntfDecls u r.1 l.ts r.2.ts) (wp_run ?_) ?_
  · unfold processIntf
    have B := anyBase u (declEnv u) l.tail
    refine wp_stepP (I := fun _ => True) (I' := fun _ => True) (Good := fun _ => True) (tl := l.tail) ⟨rfl, trivial, trivial⟩ ?_
      fun s1 h1 e1 => wp_stepR (I' := fun _ => True) h1 ?_ fun s2 h2 e2 => ?_
    · cases DS.importUnits _ _ _ _ <;> trivial
    · cases s1.cx.setUnit u l.cu l.head <;> trivial
    · refine wp_mono (intfBody_sound (I' := fun _ => True) B (fun _ _ _ => trivial) h2 (fun _ => trivial)) ?_ id id
      rintro ds s3 ⟨_, _, h3⟩
      rw [e2, e1] at h3
      exact ⟨⟨rfl, rfl⟩, rfl, h3⟩
  · rintro ⟨ds, l'⟩ s' ⟨g1, g2, g3⟩
    refine ⟨g1, g2, ?_⟩
    rintro ⟨ts, tl, b, h1, h2⟩
    refine ⟨ts, tl, b, l.ts, ?_, ?_, g3⟩
    · rw [← h1]; exact congrArg files (congrArg Prod.fst g2)
    · rw [show ({ l' with intf := ds } : Loader).head = l.head from congrArg (fun k => k.2.1) g2,
        show ({ l' with intf := ds } : Loader).uses = l.uses from congrArg (fun k => k.2.2) g2]
      exact h2

theorem implStep_wp {n : Nat} (l : Loader) (s : PS DS) : wpT (implStep u n l) s
    (fun l' s' => Still s s' ∧ l'.key = l.key ∧ (Read1 u files l → Read2 u files l')) := by
  refine wp_then (Q1 := fun r s' => Still s s' ∧ r.2.key = l.key ∧ r.2.intf = l.intf ∧
    (kwR u r!"IMPLEMENTATION" ▹ gOptUses u r.1.1 ▹ gUnitBody u r.1.2) l.ts r.2.ts) (wp_run ?_) ?_
  · unfold processImpl
    have B := anyBase u (declEnv u) l.tail
    refine (implUses_sound B (fun c _ i => anyUses u c i) (fun _ _ => trivial) n).bind ⟨rfl, trivial, trivial⟩ (fun _ => trivial)
      fun es s1 h1 _ g1 => ?_
    refine wp_then (Q1 := fun b s' => gUnitBody u b s1.ts s'.ts) ?_ ?_
    · refine wp_inImpl ?_
      cases s1.cx.openImpl u l.cu l.head.no es with
      | none => trivial
      | some k => exact wp_mono (implAndEnd_sound B n _ ⟨h1.tail, trivial, trivial⟩ (fun _ => trivial)) (fun _ _ h => h.2.2) id id
    · intro b s2 g2
      obtain ⟨x, ga, gb⟩ := g1
      exact ⟨⟨rfl, rfl⟩, rfl, rfl, x, ga, s1.ts, gb, g2⟩
  · rintro ⟨⟨es, bd⟩, l'⟩ s' ⟨g1, g2, g3, x, ga, gb⟩
    refine ⟨g1, g2, ?_⟩
    rintro ⟨ts, tl, b, z, h1, h2, h3⟩
    have hp : l'.path = l.path := congrArg Prod.fst g2
    have hh : l'.head = l.head := congrArg (fun k => k.2.1) g2
    have hu : l'.uses = l.uses := congrArg (fun k => k.2.2) g2
    refine ⟨ts, tl, by rw [← h1]; exact congrArg files hp, ?_⟩
    obtain ⟨z1, z2, gc, gd, z3, ge, gf⟩ := h2
    have gd' : optSemiR u z1 z2 := by
      cases b with
      | true => exact .inl gd
      | false => exact .inr gd.1
    show gUsedUnit u ⟨l'.head, l'.uses, l'.intf, es, bd⟩ ts l'.ts
    rw [hh, hu, show l'.intf = l.intf from g3]
    obtain ⟨y, gb1, gb2⟩ := gb
    exact ⟨z1, gc, z2, gd', z3, ge, z, gf, l.ts, h3, x, ga, y, gb1, gb2⟩

theorem intfAll_wp {n : Nat} {P0 P1 : Loader → Prop} (h01 : ∀ l l', (Read0 u files l → Read1 u files l') → P0 l → P1 l')
    (is : List Nat) (ls : List Loader) (s : PS DS) (hn : is.Nodup ∨ ∀ l, P1 l → P0 l)
    (h0 : ∀ i ∈ is, ∀ l, ls[i]? = some l → P0 l) (h1 : ∀ i l, i ∉ is → ls[i]? = some l → P1 l) :
    wpT (intfAll u n is ls) s
      (fun ls' s' => Still s s' ∧ ls'.map Loader.key = ls.map Loader.key ∧ ∀ l ∈ ls', P1 l) := by
  refine loop_wp (loop := intfAll u n) (step := intfStep u n) (fun ls => rfl) (fun i is ls l h => intfAll_step h)
    (fun i is ls h => by rw [intfAll, h]) (fun l s hl => ?_) is ls s hn h0 h1
  refine wp_mono (intfStep_wp (files := files) l s) ?_ id id
  rintro l' s' ⟨h1, h2, h3⟩
  exact ⟨h1, h2, h01 l l' h3 hl⟩

theorem implAll_wp {n : Nat} {P0 P1 : Loader → Prop} (h01 : ∀ l l', (Read1 u files l → Read2 u files l') → P0 l → P1 l')
    (is : List Nat) (ls : List Loader) (s : PS DS) (hn : is.Nodup ∨ ∀ l, P1 l → P0 l)
    (h0 : ∀ i ∈ is, ∀ l, ls[i]? = some l → P0 l) (h1 : ∀ i l, i ∉ is → ls[i]? = some l → P1 l) :
    wpT (implAll u n is ls) s
      (fun ls' s' => Still s s' ∧ ls'.map Loader.key = ls.map Loader.key ∧ ∀ l ∈ ls', P1 l) := by
  refine loop_wp (loop := implAll u n) (step := implStep u n) (fun ls => rfl) (fun i is ls l h => implAll_step h)
    (fun i is ls h => by rw [implAll, h]) (fun l s hl => ?_) is ls s hn h0 h1
  refine wp_mono (implStep_wp (files := files) l s) ?_ id id
  rintro l' s' ⟨h1, h2, h3⟩
  exact ⟨h1, h2, h01 l l' h3 hl⟩

theorem distinct_uparsers {ls : List Loader} (h : DistinctUnits u (ls.map Loader.head))
    (h' : ∀ l ∈ ls, (l.uses.map fun e => u.toLower e.ident.name).Nodup) : DistinctNames u (uparsers ls) := by
  refine ⟨?_, ?_⟩
  · have : (uparsers ls).map (fun p => u.toLower p.name) = (ls.map Loader.head).map fun h => u.toLower h.ident.name := by
      unfold uparsers
      rw [List.map_map, List.map_map]
      apply List.ext_getElem?
      intro i
      simp only [List.getElem?_map, List.getElem?_zipIdx, Nat.zero_add]
      cases ls[i]? <;> rfl
    rw [this]; exact h
  · intro p hp
    unfold uparsers at hp
    obtain ⟨⟨l, i⟩, hl, rfl⟩ := List.mem_map.1 hp
    have := h' l ((List.mem_zipIdx hl).2.2 ▸ List.getElem_mem _)
    simpa [List.map_map, Function.comp_def] using this

theorem uparsers_ids (ls : List Loader) : (uparsers ls).map UParser.id = List.range ls.length := by
  unfold uparsers
  rw [List.map_map]
  apply List.ext_getElem?
  intro i
  simp only [List.getElem?_map, List.getElem?_zipIdx, Nat.zero_add]
  by_cases h : i < ls.length
  · rw [List.getElem?_eq_getElem h, List.getElem?_range h]; rfl
  · rw [List.getElem?_eq_none (by omega), List.getElem?_eq_none (by simpa using h)]; rfl

theorem sorted_ids {lib : TopoLib} (hlib : TopoCorrect lib) {it : List UParser → List Str} (hit : IterOK u it)
    {ls : List Loader} (hd : DistinctUnits u (ls.map Loader.head))
    (hu : ∀ l ∈ ls, (l.uses.map fun e => u.toLower e.ident.name).Nodup) {sorted : List UParser}
    (h : UnitParsers.sort u lib (it (uparsers ls)) (uparsers ls) = some sorted) :
    (sorted.map UParser.id).Nodup ∧ ∀ i, i < ls.length → i ∈ sorted.map UParser.id := by
  have hp := ((C26_sort_partial u lib hlib _ (distinct_uparsers hd hu) _ (hit _)).1 sorted h).1
  have hp := hp.map UParser.id
  rw [uparsers_ids] at hp
  exact ⟨hp.nodup_iff.2 List.nodup_range, fun i hi => hp.mem_iff.2 (List.mem_range.2 hi)⟩

theorem uparsers_mem {ls : List Loader} {l : Loader} (h : l ∈ ls) :
    ∃ p ∈ uparsers ls, p.name = l.head.ident.name ∧ p.uses = l.uses.map fun e => e.ident.name := by
  obtain ⟨i, hi, rfl⟩ := List.mem_iff_getElem.1 h
  refine ⟨⟨i, ls[i].head.ident.name, ls[i].uses.map fun e => e.ident.name⟩, ?_, rfl, rfl⟩
  refine List.mem_map.2 ⟨(ls[i], i), ?_, rfl⟩
  rw [List.mem_zipIdx_iff_getElem?]
  simp

theorem sorted_acyclic {lib : TopoLib} (hlib : TopoCorrect lib) {it : List UParser → List Str} (hit : IterOK u it)
    {ls : List Loader} {sorted : List UParser}
    (h : UnitParsers.sort u lib (it (uparsers ls)) (uparsers ls) = some sorted) :
    ¬ Cyclic (UsesName u (ls.map fun l => (l.head, l.uses))) := by
  have := sort_acyclic u lib hlib _ _ (hit _) h
  rintro ⟨a, ha⟩
  refine this ⟨a, Relation.TransGen.mono ?_ _ _ ha⟩
  rintro a b ⟨p, hp, q, hq, e, he, rfl, h2, rfl⟩
  obtain ⟨lp, hlp, rfl⟩ := List.mem_map.1 hp
  obtain ⟨p', hp', hpn, hpu⟩ := uparsers_mem hlp
  exact ⟨p', hp', e.ident.name, hpu ▸ List.mem_map.2 ⟨e, he, rfl⟩, by rw [hpn], h2⟩

variable {sep : Char} {lib : TopoLib} {it : List UParser → List Str}

theorem enterP_wp {cp : Nat} {i : Ident} {es : List UsesEntry} {hs : List UnitHead} (s : PS DS) :
    wpT (enterP u cp i es hs) s (fun _ s' => Still s s') := by
  show wp _ _ _ _ _
  unfold wp enterP
  cases s.cx.usesMap u es hs [] with
  | none => trivial
  | some km =>
    obtain ⟨k, m⟩ := km
    simp only
    cases k.enterProgram u cp i hs m with
    | none => trivial
    | some c => exact ⟨rfl, rfl⟩

theorem loadUnits_wp (hlib : TopoCorrect lib) (hit : IterOK u it) {cp n : Nat} {i : Ident} {es : List UsesEntry} (s : PS DS) :
    wpT (loadUnits u sep files lib it cp i es n) s (fun ls s' => Still s s' ∧
      ls.map Loader.path = (es.map fun e => UsesItem.effectivePath sep e.path).filter (· ≠ []) ∧
      (DistinctUnits u (ls.map Loader.head) → ∀ l ∈ ls, Read2 u files l) ∧
      ¬ Cyclic (UsesName u (ls.map fun l => (l.head, l.uses)))) := by
  unfold loadUnits
  refine wp_then (newLoaders_wp es s) ?_
  rintro cs s1 ⟨h1, e1⟩
  refine wp_then (loadAll_wp cs s1) ?_
  rintro ls s2 ⟨h2, e2, g2⟩
  cases hsort : UnitParsers.sort u lib (it (uparsers ls)) (uparsers ls) with
  | none => trivial
  | some sorted =>
    show wp (intfAll u n _ _ >>= _) _ _ _ _
    have keys : ∀ ls' : List Loader, ls'.map Loader.key = ls.map Loader.key → ls'.map Loader.path = ls.map Loader.path ∧
        ls'.map Loader.head = ls.map Loader.head := by
      intro ls' h
      exact ⟨by simpa [List.map_map, Function.comp_def, Loader.key] using congrArg (List.map Prod.fst) h,
        by simpa [List.map_map, Function.comp_def, Loader.key] using congrArg (List.map fun k => k.2.1) h⟩
    have fin : ∀ (ls2 : List Loader) (s4 : PS DS), Still s2 s4 → ls2.map Loader.key = ls.map Loader.key →
        (DistinctUnits u (ls.map Loader.head) → ∀ l ∈ ls2, Read2 u files l) →
        wpT (enterP u cp i es (ls2.map Loader.head) >>= fun _ => pure ls2) s4 (fun ls s' => Still s s' ∧
          ls.map Loader.path = (es.map fun e => UsesItem.effectivePath sep e.path).filter (· ≠ []) ∧
          (DistinctUnits u (ls.map Loader.head) → ∀ l ∈ ls, Read2 u files l) ∧
      ¬ Cyclic (UsesName u (ls.map fun l => (l.head, l.uses)))) := by
      intro ls2 s4 h4 e4 g4
      refine wp_then (enterP_wp s4) fun _ s5 h5 => ?_
      obtain ⟨k1, k2⟩ := keys ls2 e4
      refine ⟨(h1.trans h2).trans (h4.trans h5), by rw [k1, e2, e1], fun hd => g4 (k2 ▸ hd), ?_⟩
      have : ls2.map (fun l => (l.head, l.uses)) = ls.map (fun l => (l.head, l.uses)) := by
        simpa [List.map_map, Function.comp_def, Loader.key] using congrArg (List.map Prod.snd) e4
      rw [this]
      exact sorted_acyclic hlib hit hsort
    by_cases hd : DistinctUnits u (ls.map Loader.head)
    · obtain ⟨hn, hall⟩ := sorted_ids hlib hit hd (fun l hl => (g2 l hl).2) hsort
      have lt : ∀ {ls' : List Loader} {i : Nat} {l : Loader}, ls'.map Loader.key = ls.map Loader.key → ls'[i]? = some l → i < ls.length := by
        intro ls' i l e hl
        have : ls'.length = ls.length := by simpa using congrArg List.length e
        by_contra h
        rw [List.getElem?_eq_none (by omega)] at hl; cases hl
      refine wp_then (intfAll_wp (files := files) (P0 := Read0 u files) (P1 := Read1 u files) (fun _ _ h => h)
        (sorted.map UParser.id) ls s2 (.inl hn) (fun i _ l hl => (g2 l (List.mem_of_getElem? hl)).1)
        (fun i l hi hl => absurd (hall i (lt rfl hl)) hi)) ?_
      rintro ls1 s3 ⟨h3, e3, g3⟩
      refine wp_then (implAll_wp (files := files) (P0 := Read1 u files) (P1 := Read2 u files) (fun _ _ h => h)
        (sorted.map UParser.id) ls1 s3 (.inl hn) (fun i _ l hl => g3 l (List.mem_of_getElem? hl))
        (fun i l hi hl => absurd (hall i (lt e3 hl)) hi)) ?_
      rintro ls2 s4 ⟨h4, e4, g4⟩
      refine fin ls2 s4 (h3.trans h4) (e4.trans e3) fun _ => g4
    · refine wp_then (intfAll_wp (files := files) (P0 := fun _ => True) (P1 := fun _ => True) (fun _ _ _ _ => trivial)
        (sorted.map UParser.id) ls s2 (.inr fun _ _ => trivial) (fun _ _ _ _ => trivial) (fun _ _ _ _ => trivial)) ?_
      rintro ls1 s3 ⟨h3, e3, -⟩
      refine wp_then (implAll_wp (files := files) (P0 := fun _ => True) (P1 := fun _ => True) (fun _ _ _ _ => trivial)
        (sorted.map UParser.id) ls1 s3 (.inr fun _ _ => trivial) (fun _ _ _ _ => trivial) (fun _ _ _ _ => trivial)) ?_
      rintro ls2 s4 ⟨h4, e4, -⟩
      exact fin ls2 s4 (h3.trans h4) (e4.trans e3) fun h => absurd h hd

theorem no_cycle : ¬ Cyclic (UsesName u []) := by
  rintro ⟨a, ha⟩
  have : ∀ b, ¬ Relation.TransGen (UsesName u []) a b := by
    intro b h
    induction h with
    | single h => obtain ⟨p, hp, _⟩ := h; cases hp
    | tail _ h _ => obtain ⟨p, hp, _⟩ := h; cases hp
  exact this a ha

theorem program_wp (hlib : TopoCorrect lib) (hit : IterOK u it) {cp n : Nat} (s : PS DS) :
    wpT (parseProgram u sep files lib it cp n) s (fun t s' => s'.tail = s.tail ∧ gProgram u t s.ts s'.ts ∧
      (t.units.length = ((t.uses.map fun e => UsesItem.effectivePath sep e.path).filter (· ≠ [])).length) ∧
      (DistinctUnits u (t.units.map UnitTree.head) →
        List.Forall₂ (fun p d => ∃ ts tl rest, files p = .tokens ts tl ∧ gUsedUnit u d ts rest)
          ((t.uses.map fun e => UsesItem.effectivePath sep e.path).filter (· ≠ [])) t.units) ∧
      ¬ Cyclic (UsesName u (t.units.map fun d => (d.head, d.intfUses)))) := by
  unfold parseProgram
  have B := anyBase u (declEnv u) s.tail
  have hs : In' (fun _ => True) (fun _ => True) s.tail s := ⟨rfl, trivial, trivial⟩
  refine B.current hs fun t ht c => ?_
  obtain ⟨ts, hts⟩ := tok_cons' notEof_kw ht c
  refine B.nextIs hs (fun t h => by rw [typ_iff.1 h]; decide) fun t0 t1 s1 ts1 c1 h1 e1 e1' => ?_
  have : t0 = t := by rw [hts] at e1; cases e1; rfl
  subst this
  refine B.nextIs h1 (fun t h => sym_ne_eof (symbol_iff.1 h)) fun t2 t3 s3 ts3 c3 h3 e3 e3' => ?_
  have : t2 = t1 := by rw [e1'] at e3; cases e3; rfl
  subst this
  refine B.next h3 e3' fun s4 h4 e4 => ?_
  refine wp_then (Q1 := fun us s' => s'.tail = s.tail ∧ gOptUses u us.1 s4.ts s'.ts ∧
      (us.2.length = ((us.1.map fun e => UsesItem.effectivePath sep e.path).filter (· ≠ [])).length) ∧
      (DistinctUnits u (us.2.map UnitTree.head) →
        List.Forall₂ (fun p d => ∃ ts tl rest, files p = .tokens ts tl ∧ gUsedUnit u d ts rest)
          ((us.1.map fun e => UsesItem.effectivePath sep e.path).filter (· ≠ [])) us.2) ∧
      ¬ Cyclic (UsesName u (us.2.map fun d => (d.head, d.intfUses)))) ?_ ?_
  · unfold parseProgramUses
    refine B.isL h4 notEof_kw (fun _ _ _ _ => ?_) (fun _ _ _ => ⟨h4.tail, rfl, rfl, fun _ => .nil, no_cycle⟩)
    refine (uses_sound B (fun c _ i => anyUses u c i) n).bind h4 (fun _ => trivial) fun es s5 h5 _ ⟨t6, z, e5, hne, g5⟩ => ?_
    refine B.next h5 e5 fun s6 h6 e6 => ?_
    refine wp_then (loadUnits_wp hlib hit s6) ?_
    rintro ls s7 ⟨h7, e7, g7, g8⟩
    refine ⟨h7.2.trans h6.tail, ?_, ?_, fun hd => ?_, by simpa [List.map_map, Function.comp_def, Loader.tree] using g8⟩
    · cases es with
      | nil => exact absurd rfl hne
      | cons e es => rw [h7.1, e6]; exact g5
    · rw [← e7]; simp
    · have hd' : DistinctUnits u (ls.map Loader.head) := by
        simpa [List.map_map, Function.comp_def, Loader.tree] using hd
      rw [← e7]
      show List.Forall₂ _ _ (ls.map Loader.tree)
      rw [List.forall₂_map_left_iff, List.forall₂_map_right_iff, List.forall₂_same]
      intro l hl
      obtain ⟨ts, tl, ha, hb⟩ := g7 hd' l hl
      exact ⟨ts, tl, _, ha, hb⟩
  rintro us s5 ⟨h5, g5, g6, g7, g7c⟩
  have hs5 : In' (fun _ => True) (fun _ => True) s.tail s5 := ⟨h5, trivial, trivial⟩
  refine (allDecls B n).block.bind hs5 (fun _ => trivial) fun b s6 h6 _ g8 => ?_
  refine B.current h6 fun t7 ht7 c7 => ?_
  obtain ⟨ts7, hts7⟩ := tok_cons' notEof_sym ht7 c7
  exact ⟨h6.tail, ⟨s1.ts, ⟨t0, e1, kw_iff.1 c⟩, s3.ts, ⟨t2, e3, typ_iff.1 c1, rfl⟩, s4.ts, ⟨t3, by rw [e3', e4], symbol_iff.1 c3⟩,
    s5.ts, g5, s6.ts, g8, rfl, t7, ts7, hts7, symbol_iff.1 c7⟩, g6, g7, g7c⟩

end TP
