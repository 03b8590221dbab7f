import Verif.Lemmas.AccLoad

/-!
# The loops over the units of a program
-/

namespace TP
open Maps Spec

variable {u : Uni} {Γ Γp : NameEnv} {k k' : DS} {cp N : Nat} {files : Str → FileR} {us : List UnitParts}

/-- the contexts of a loader -/
def Loader.seat (l : Loader) : Nat × Nat := (l.cu, l.cur)

/-- what a loader has in common with a unit, whatever has been read of it -/
structure Reads (l : Loader) (m : UnitParts) : Prop where
  name : l.head.ident.name = m.name
  uses : l.uses.map (fun e => e.ident.name) = usedNames m.uses

/-- the numbers of the items of the units -/
structure Numbered (k k' : DS) (ls : List Loader) : Prop where
  len : k.items.length ≤ k'.items.length
  nos : ∀ l ∈ ls, ∀ e ∈ l.uses, k.items.length ≤ e.no ∧ e.no < k'.items.length
  one : ∀ l ∈ ls, ∀ l' ∈ ls, ∀ e ∈ l.uses, ∀ e' ∈ l'.uses, e.no = e'.no → e = e'

theorem Headed.kept {l : Loader} {m : UnitParts} (h : Headed u us k l m) (hk : ∀ Γ, Agrees u Γ (k.on l.cur) → Agrees u Γ (k'.on l.cur)) :
    Headed u us k' l m := by
  obtain ⟨h1, ⟨Γ, h2, h3⟩, h4⟩ := h
  exact ⟨h1, ⟨Γ, hk Γ h2, h3⟩, h4⟩

/-- Loading the units succeeds. -/
theorem loadAll_rets (hok : ∀ m ∈ us, OkParts u us m) : ∀ (cs : List (Str × Nat)) (ms : List UnitParts) (s : PS DS) (dn : List (Nat × Nat)),
    UnitFiles u files (cs.map Prod.fst) ms → (∀ m ∈ ms, m ∈ us) → Seats cp N s.cx (dn ++ cs.map fun x => (x.2, x.2)) → Agrees u Γp (s.cx.on cp) →
    (∀ x ∈ cs, Agrees u NameEnv.empty (s.cx.on x.2)) → (∀ j, s.cx.w.unitDm j = none) →
    ∃ ls s', Rets (fun n => loadAll u files cp n cs) s ls s' ∧ Seats cp N s'.cx (dn ++ ls.map Loader.seat) ∧ Agrees u Γp (s'.cx.on cp) ∧
      (∀ j, s'.cx.w.unitDm j = none) ∧ Numbered s.cx s'.cx ls ∧ (∀ n : Nat, (s'.cx.items[n]?).join = (s.cx.items[n]?).join) ∧
      ls.length = ms.length ∧ (∀ (i : Nat) l m, ls[i]? = some l → ms[i]? = some m → Headed u us s'.cx l m ∧ Reads l m) ∧
      ∀ c ∈ dn, ∀ Γ, Agrees u Γ (s.cx.on c.2) → Agrees u Γ (s'.cx.on c.2)
  | [], ms, s, dn, hf, hm, S, A, AE, D => by
    cases hf
    exact ⟨[], s, .one rfl, S, A, D, ⟨Nat.le_refl _, fun _ h => (nomatch h), fun _ h => (nomatch h)⟩, fun _ => rfl, rfl,
      fun i l m h => by simp at h, fun _ _ _ h => h⟩
  | (path, c) :: cs, ms, s, dn, hf, hm, S, A, AE, D => by
    cases hf with
    | @cons _ m ts tl _ ms h1 h2 h3 =>
    obtain ⟨l, s1, R1, g1, g2, g3, g4, M, g5, g6, g7⟩ := loadUnit_rets (s := s) (c := c) h1 h2 (hok m (hm m List.mem_cons_self))
      (AE (path, c) List.mem_cons_self) (UnitMap s.cx)
    have hcur : l.cur = c := g2.cur.trans g1
    have hi : (dn ++ ((path, c) :: cs).map fun x => (x.2, x.2))[dn.length]? = some (c, c) := by simp
    have hr : Rooted (s1.cx.on c) := by
      obtain ⟨Γ, h, -⟩ := g2.names
      rw [hcur] at h; exact h.rooted
    have S1 := S.move (c := (c, c)) hi M hr (fun j m h => .inl (by rw [g5] at h; exact h))
    have e1 : (dn ++ ((path, c) :: cs).map fun x => (x.2, x.2)).set dn.length (c, c) = (dn ++ [l.seat]) ++ cs.map fun x => (x.2, x.2) := by
      simp [Loader.seat, g1, hcur]
    simp only [e1] at S1
    have A1 := S.agreesP (c := (c, c)) hi M A
    have hkeep : ∀ (j : Nat) (c' : Nat × Nat), (dn ++ ((path, c) :: cs).map fun x => (x.2, x.2))[j]? = some c' → j ≠ dn.length → ∀ Γ,
        Agrees u Γ (s.cx.on c'.2) → Agrees u Γ (s1.cx.on c'.2) := fun j c' hj hn Γ h => S.agrees (c := (c, c)) hi M hj hn h
    obtain ⟨ls, s2, R2, q1, q2, q3, q4, q5, q6, q7, q8⟩ := loadAll_rets hok cs ms { s1 with cx := s1.cx.addUnit cp l.head.no } (dn ++ [l.seat]) h3
      (fun m h => hm m (List.mem_cons_of_mem _ h)) (S1.addUnit cp l.head.no) (A1.addUnit cp l.head.no) (by
        intro x hx
        obtain ⟨j, hj⟩ := List.mem_iff_getElem?.1 hx
        refine Agrees.addUnit (hkeep (dn.length + (j + 1)) (x.2, x.2) ?_ (by omega) _ (AE x (List.mem_cons_of_mem _ hx))) cp l.head.no
        rw [List.getElem?_append_right (by omega), Nat.add_sub_cancel_left, List.map_cons, List.getElem?_cons_succ, List.getElem?_map, hj]; rfl)
      (fun j => (g5 j).trans (D j))
    have n1 : (s1.cx.addUnit cp l.head.no).items = s1.cx.items := rfl
    have q4l := q4.len
    have q4n := q4.nos
    simp only [n1] at q4l q4n q5
    have g6l : s.cx.items.length ≤ s1.cx.items.length := g6.len
    have g6n : ∀ e ∈ l.uses, s.cx.items.length ≤ e.no ∧ e.no < s1.cx.items.length := g6.nos
    refine ⟨l :: ls, s2, ?_, by simpa using q1, q2, q3, ⟨by omega, ?_, ?_⟩, fun n => (q5 n).trans (g7 n), by simp [q6], ?_, ?_⟩
    · unfold loadAll
      exact R1.bind (Rets.then (a := ()) rfl (R2.bind (.one rfl)))
    · intro l' hl' e he
      rcases List.mem_cons.1 hl' with rfl | hl'
      · have := g6n e he; omega
      · have := q4n l' hl' e he; omega
    · intro l1 hl1 l2 hl2 e he e' he' heq
      rcases List.mem_cons.1 hl1 with rfl | hl3 <;> rcases List.mem_cons.1 hl2 with rfl | hl4
      · exact g6.one e he e' he' heq
      · have := g6n e he; have := q4n l2 hl4 e' he'; omega
      · have := g6n e' he'; have := q4n l1 hl3 e he; omega
      · exact q4.one l1 hl3 l2 hl4 e he e' he' heq
    · intro i l' m' hl' hm'
      cases i with
      | zero =>
        simp only [List.getElem?_cons_zero, Option.some.injEq] at hl' hm'
        subst hl' hm'
        exact ⟨g2.kept fun Γ h => q8 l.seat (by simp) Γ (h.addUnit cp l.head.no), g3, g4⟩
      | succ i => exact q7 i l' m' hl' hm'
    · intro c' hc' Γ h
      obtain ⟨j, hj⟩ := List.mem_iff_getElem?.1 hc'
      have hlt : j < dn.length := by
        by_contra hh
        rw [List.getElem?_eq_none (by omega)] at hj; cases hj
      exact q8 c' (List.mem_append_left _ hc') Γ ((hkeep j c' (by rw [List.getElem?_append_left hlt]; exact hj) (by omega) Γ h).addUnit cp l.head.no)

/-! ## The interfaces and the implementations -/

/-- what is known while the units are read; `ls0` are the loaders at first -/
structure Loading (u : Uni) (files : Str → FileR) (us : List UnitParts) (cp N : Nat) (Γp : NameEnv) (ls0 : List Loader) (k : DS) (ls : List Loader) : Prop where
  keys : ls.map Loader.key = ls0.map Loader.key
  fine : Fine none k
  ready : ∀ l ∈ ls, Ready u files cp k l
  prog : IsProg k cp (numbers ls0)
  seats : Seats cp N k (ls.map Loader.seat)
  shows : UnitsShow u us k
  env : Agrees u Γp (k.on cp)

/-- the interface of the unit is read -/
structure Middle (u : Uni) (k : DS) (l : Loader) (m : UnitParts) : Prop where
  names : Agrees u m.names (k.on l.cur)
  ts : ImplText u m l.ts

theorem Loading.seat {ls0 ls : List Loader} (h : Loading u files us cp N Γp ls0 k ls) {i : Nat} {l : Loader} (hl : ls[i]? = some l) :
    (ls.map Loader.seat)[i]? = some (l.cu, l.cur) := by rw [List.getElem?_map, hl]; rfl

theorem getElem?_lt {α : Type} {ls : List α} {i : Nat} {l : α} (h : ls[i]? = some l) : i < ls.length := by
  by_contra c
  rw [List.getElem?_eq_none (by omega)] at h; cases h

theorem Headed.impl {l : Loader} {m : UnitParts} (h : Headed u us k l m) : ∃ Γ rest, Agrees u Γ (k.on l.cur) ∧
    OkIntf u ⟨[u.toLower m.name], (u.toLower m.name, .space) :: (imported u us m.uses ++ Γ.seen), []⟩ m.intf m.names ∧
    l.ts = m.intf ++ rest ∧ Nxt l.tail rest (IsKw u r!"IMPLEMENTATION") ∧ ImplText u m rest := by
  obtain ⟨-, ⟨Γ, h1, h2⟩, ts, h3, im, e, d, rest, g1, g2, g3, rfl⟩ := h
  exact ⟨Γ, _, h1, h2, h3, .cons g1, im, e, d, rest, g1, g2, g3, rfl⟩

theorem intfAll_rets {ls0 : List Loader} {all : List Nat} (hnd : all.Nodup)
    (order : ∀ pre i post j, all = pre ++ i :: post → ∀ l l' e, ls0[i]? = some l → e ∈ l.uses → ls0[j]? = some l' →
      u.toLower l'.head.ident.name = u.toLower e.ident.name → j ∈ pre)
    (hone : ∀ l ∈ ls0, ∀ l' ∈ ls0, ∀ e ∈ l.uses, ∀ e' ∈ l'.uses, e.no = e'.no → e = e')
    (hparts : ∀ (i : Nat) l, ls0[i]? = some l → ∃ m, us[i]? = some m ∧ Reads l m) :
    ∀ (is pre : List Nat) (ls : List Loader) (s : PS DS), all = pre ++ is → Loading u files us cp N Γp ls0 s.cx ls →
      (∀ l ∈ ls0, ItemsNamed u s.cx l.uses) → (∀ j ∈ pre, ∀ l, ls0[j]? = some l → s.cx.w.unitDm l.head.no ≠ none) →
      (∀ (i : Nat) l m, ls[i]? = some l → us[i]? = some m → (i ∈ pre → Middle u s.cx l m) ∧ (i ∉ pre → Headed u us s.cx l m)) →
      ∃ ls' s', Rets (fun n => intfAll u n is ls) s ls' s' ∧ Loading u files us cp N Γp ls0 s'.cx ls' ∧
        (∀ j ∈ all, ∀ l, ls0[j]? = some l → s'.cx.w.unitDm l.head.no ≠ none) ∧
        (∀ (i : Nat) l m, i ∈ all → ls'[i]? = some l → us[i]? = some m → Middle u s'.cx l m)
  | [], pre, ls, s, ha, L, I, D, H => by
    rw [List.append_nil] at ha
    subst ha
    exact ⟨ls, s, .one rfl, L, D, fun i l m hi hl hm => (H i l m hl hm).1 hi⟩
  | i :: is, pre, ls, s, ha, L, I, D, H => by
    have ha' : all = (pre ++ [i]) ++ is := by simpa using ha
    cases e : ls[i]? with
    | none =>
      obtain ⟨ls', s', h1, h2⟩ := intfAll_rets hnd order hone hparts is (pre ++ [i]) ls s ha' L I (by
        intro j hj l hl
        rcases List.mem_append.1 hj with hj | hj
        · exact D j hj l hl
        · rw [List.mem_singleton.1 hj] at hl
          obtain ⟨l0, h0, -⟩ := key_at L.keys.symm hl
          rw [e] at h0; cases h0) (by
        intro j l m hl hm
        have hji : j ≠ i := by rintro rfl; rw [e] at hl; cases hl
        refine ⟨fun h => (H j l m hl hm).1 ?_, fun h => (H j l m hl hm).2 fun h' => h (List.mem_append_left _ h')⟩
        rcases List.mem_append.1 h with h | h
        · exact h
        · exact absurd (List.mem_singleton.1 h) hji)
      refine ⟨ls', s', ?_, h2⟩
      have : (fun n => intfAll u n (i :: is) ls) = fun n => intfAll u n is ls := by funext n; rw [intfAll, e]
      rw [this]; exact h1
    | some l =>
      obtain ⟨l0, h0, k0⟩ := key_at L.keys e
      have hl := List.mem_of_getElem? e
      have hu0 : l0.uses = l.uses := congrArg (fun k => k.2.2) k0
      have hh0 : l0.head = l.head := congrArg (fun k => k.2.1) k0
      obtain ⟨m, hm, r1, r2⟩ := hparts i l0 h0
      rw [hh0] at r1
      rw [hu0] at r2
      have hpre : i ∉ pre := by
        intro h
        rw [ha] at hnd
        exact (List.nodup_append.1 hnd).2.2 i h i List.mem_cons_self rfl
      have Hd := (H i l m e hm).2 hpre
      obtain ⟨Γ, rest, A, hok, hts, hnx, him⟩ := Hd.impl
      have hbn : ∀ x ∈ l.uses, ∀ j, s.cx.w.byName u (numbers ls0) x.ident.name = some j → s.cx.w.unitDm j ≠ none := by
        intro x hx j hj
        obtain ⟨hm, o, ho, hon⟩ := Fine.byName_mem u _ hj
        obtain ⟨l2, hl2, rfl⟩ := List.mem_map.1 hm
        obtain ⟨i2, hi2⟩ := List.mem_iff_getElem?.1 hl2
        obtain ⟨l3, h3, k3⟩ := key_at L.keys.symm hi2
        have hh3 : l3.head = l2.head := congrArg (fun k => k.2.1) k3
        obtain ⟨o', ho', hn'⟩ := (L.ready l3 (List.mem_of_getElem? h3)).unit
        rw [hh3] at ho' hn'
        rw [ho] at ho'; cases ho'
        exact D i2 (order pre i is i2 ha l0 l2 x h0 (by rw [hu0]; exact hx) hi2 (by rw [← hn']; exact hon)) l2 hi2
      have I0 : ItemsNamed u s.cx l.uses := by rw [← hu0]; exact I l0 (List.mem_of_getElem? h0)
      obtain ⟨l', s1, R1, A1, M1, t1, -, c1, N1, J1⟩ := intfStep_rets (List.mem_of_getElem? hm) L.fine (L.ready l hl) L.prog Hd.cur A L.shows I0 hbn r1 r2 hok hts hnx
      obtain ⟨g1, g2, g3, g4, g5⟩ := R1.wp fun n => intfStep_fine (u := u) (files := files) (cp := cp) (Pp := True) (n := n) L.fine (L.ready l hl) L.prog
        ⟨fun _ => trivial, fun _ => trivial⟩ hbn
      have hseat := L.seat e
      have M1' : Moves (UnitMap s.cx) (l.cu, l.cur).1 (s.cx.on (l.cu, l.cur).2) (s1.cx.on l'.cur) := M1
      have S1 := L.seats.move hseat M1' A1.rooted (by
        intro j d hd
        rcases N1 j d hd with h | ⟨-, h1, h2, h3, -⟩
        · exact .inl h
        · exact .inr ⟨h1, h2, h3⟩)
      have eS : (ls.map Loader.seat).set i ((l.cu, l.cur).1, l'.cur) = (ls.set i l').map Loader.seat := by
        rw [List.map_set]; simp only [Loader.seat, c1]
      rw [eS] at S1
      have L1 : Loading u files us cp N Γp ls0 s1.cx (ls.set i l') := by
        refine ⟨(key_set e g4).trans L.keys, g1, ready_set L.ready g2.later g3, L.prog.later g2.later, S1, ?_, L.seats.agreesP (k' := s1.cx.on l'.cur) hseat M1' L.env⟩
        intro j d hd
        rcases N1 j d hd with h | ⟨rfl, -, -, -, tb, h1, h2⟩
        · obtain ⟨tb, o, h1, h2, h3⟩ := L.shows j d h
          obtain ⟨o', h4, h5⟩ := g2.later.names j o h2
          exact ⟨tb, o', (L.seats.unitObj hseat M1' ⟨j, h⟩).trans h1, h4, by rw [h5]; exact h3⟩
        · obtain ⟨o, h3, h4⟩ := (L.ready l hl).unit
          obtain ⟨o', h5, h6⟩ := g2.later.names _ o h3
          exact ⟨tb, o', h1, h5, by rw [h6, h4, r1]; exact h2⟩
      obtain ⟨ls', s', h1, h2⟩ := intfAll_rets hnd order hone hparts is (pre ++ [i]) (ls.set i l') s1 ha' L1 (by
        intro l2 hl2 x hx j hj
        rcases J1 _ _ hj with h | ⟨y, hy, hno, o, ho, hon⟩
        · obtain ⟨o, ho, hon⟩ := I l2 hl2 x hx j h
          obtain ⟨o', h4, h5⟩ := g2.later.names j o ho
          exact ⟨o', h4, by rw [h5]; exact hon⟩
        · have : y = x := hone l0 (List.mem_of_getElem? h0) l2 hl2 y (by rw [hu0]; exact hy) x hx hno
          subst this
          obtain ⟨o', h4, h5⟩ := g2.later.names j o ho
          exact ⟨o', h4, by rw [h5]; exact hon⟩) (by
        intro j hj l1 hl1
        rcases List.mem_append.1 hj with hj | hj
        · exact g2.later.dms _ (D j hj l1 hl1)
        · rw [List.mem_singleton.1 hj, h0] at hl1
          cases hl1
          rw [hh0]; exact g5) (by
        intro j l1 m1 hl1 hm1
        by_cases c : i = j
        · subst c
          rw [List.getElem?_set_self (getElem?_lt e)] at hl1
          cases hl1
          rw [hm] at hm1; cases hm1
          exact ⟨fun _ => ⟨A1, by rw [t1]; exact him⟩, fun h => absurd (by simp) h⟩
        · rw [List.getElem?_set_ne c] at hl1
          have hk : ∀ Γ, Agrees u Γ (s.cx.on l1.cur) → Agrees u Γ (s1.cx.on l1.cur) := fun Γ h =>
            L.seats.agrees hseat M1' (L.seat hl1) (Ne.symm c) h
          obtain ⟨H1, H2⟩ := H j l1 m1 hl1 hm1
          refine ⟨fun h => ?_, fun h => (H2 fun h' => h (List.mem_append_left _ h')).kept hk⟩
          rcases List.mem_append.1 h with h | h
          · exact ⟨hk _ (H1 h).names, (H1 h).ts⟩
          · exact absurd (List.mem_singleton.1 h).symm c)
      refine ⟨ls', s', ?_, h2⟩
      have : (fun n => intfAll u n (i :: is) ls) = fun n => (intfStep u n l >>= fun l' => intfAll u n is (ls.set i l')) := by
        funext n; rw [intfAll_step e]
      rw [this]; exact R1.bind h1

theorem implAll_rets {ls0 : List Loader} (hok : ∀ m ∈ us, OkParts u us m)
    (hparts : ∀ (i : Nat) l, ls0[i]? = some l → ∃ m, us[i]? = some m ∧ Reads l m) :
    ∀ (is : List Nat) (ls : List Loader) (s : PS DS), is.Nodup → Loading u files us cp N Γp ls0 s.cx ls →
      (∀ l ∈ ls0, s.cx.w.unitDm l.head.no ≠ none) → (∀ (i : Nat) l m, i ∈ is → ls[i]? = some l → us[i]? = some m → Middle u s.cx l m) →
      ∃ ls' s', Rets (fun n => implAll u n is ls) s ls' s' ∧ Loading u files us cp N Γp ls0 s'.cx ls' ∧ ∀ l ∈ ls0, s'.cx.w.unitDm l.head.no ≠ none
  | [], ls, s, hn, L, D, H => ⟨ls, s, .one rfl, L, D⟩
  | i :: is, ls, s, hn, L, D, H => by
    obtain ⟨hi, hn'⟩ := List.nodup_cons.1 hn
    cases e : ls[i]? with
    | none =>
      obtain ⟨ls', s', h1, h2⟩ := implAll_rets hok hparts is ls s hn' L D fun j l m hj => H j l m (List.mem_cons_of_mem _ hj)
      refine ⟨ls', s', ?_, h2⟩
      have : (fun n => implAll u n (i :: is) ls) = fun n => implAll u n is ls := by funext n; rw [implAll, e]
      rw [this]; exact h1
    | some l =>
      obtain ⟨l0, h0, k0⟩ := key_at L.keys e
      have hl := List.mem_of_getElem? e
      have hh0 : l0.head = l.head := congrArg (fun k => k.2.1) k0
      obtain ⟨m, hm, -, -⟩ := hparts i l0 h0
      obtain ⟨A, im, en, d, rest, h1, h5, h6, hts⟩ := H i l m List.mem_cons_self e hm
      obtain ⟨-, -, h2, h3, h4⟩ := hok m (List.mem_of_getElem? hm)
      have hd : s.cx.w.unitDm l.head.no ≠ none := by rw [← hh0]; exact D l0 (List.mem_of_getElem? h0)
      have hall : ∀ j ∈ numbers ls0, s.cx.w.unitDm j ≠ none := by
        intro j hj
        obtain ⟨l2, hl2, rfl⟩ := List.mem_map.1 hj
        exact D l2 hl2
      have hseat := L.seat e
      have ap : UnitsApart (s.cx.on l.cur) := fun j d hd => ⟨(L.seats.units j d hd).1, (L.seats.units j d hd).2 _ (List.mem_of_getElem? hseat)⟩
      obtain ⟨l', s1, R1, r1, M1, c1, d1⟩ := implStep_rets L.fine (L.ready l hl) L.prog A L.shows ap hall hd h1 h2 h3 h4 h5 h6 hts
      obtain ⟨g1, g2, g3, g4⟩ := R1.wp fun n => implStep_fine (u := u) (files := files) (cp := cp) (Pp := True) (n := n) L.fine (L.ready l hl) L.prog
        ⟨fun _ => trivial, fun _ => trivial⟩ hd hall
      have M1' : Moves (UnitMap s.cx) (l.cu, l.cur).1 (s.cx.on (l.cu, l.cur).2) (s1.cx.on l'.cur) := M1
      have S1 := L.seats.move hseat M1' r1 (fun j d hd => .inl (by rw [d1] at hd; exact hd))
      have eS : (ls.map Loader.seat).set i ((l.cu, l.cur).1, l'.cur) = (ls.set i l').map Loader.seat := by
        rw [List.map_set]; simp only [Loader.seat, c1]
      rw [eS] at S1
      have L1 : Loading u files us cp N Γp ls0 s1.cx (ls.set i l') := by
        refine ⟨(key_set e g4).trans L.keys, g1, ready_set L.ready g2.later g3, L.prog.later g2.later, S1, ?_, L.seats.agreesP (k' := s1.cx.on l'.cur) hseat M1' L.env⟩
        intro j d hd
        rw [d1] at hd
        obtain ⟨tb, o, h1, h2, h3⟩ := L.shows j d hd
        obtain ⟨o', h4, h5⟩ := g2.later.names j o h2
        exact ⟨tb, o', (L.seats.unitObj hseat M1' ⟨j, hd⟩).trans h1, h4, by rw [h5]; exact h3⟩
      obtain ⟨ls', s', q1, q2⟩ := implAll_rets hok hparts is (ls.set i l') s1 hn' L1 (fun l2 hl2 => by rw [d1]; exact D l2 hl2) (by
        intro j l1 m1 hj hl1 hm1
        have c : i ≠ j := by rintro rfl; exact hi hj
        rw [List.getElem?_set_ne c] at hl1
        have := H j l1 m1 (List.mem_cons_of_mem _ hj) hl1 hm1
        exact ⟨L.seats.agrees hseat M1' (L.seat hl1) (Ne.symm c) this.names, this.ts⟩)
      refine ⟨ls', s', ?_, q2⟩
      have : (fun n => implAll u n (i :: is) ls) = fun n => (implStep u n l >>= fun l' => implAll u n is (ls.set i l')) := by
        funext n; rw [implAll_step e]
      rw [this]; exact R1.bind q1

end TP
