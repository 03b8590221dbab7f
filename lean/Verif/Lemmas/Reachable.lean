import Verif.Lemmas.Apart
import Verif.Lemmas.AccLoad

/-!
# What the block of a program can refer to
-/

namespace TP
open Spec Maps

variable {u : Uni} {N : Nat → Prop} {o1 : MapObj Node} {sep : Char} {files : Str → FileR} {lib : TopoLib} {it : List UParser → List Str}

/-! ## What the interfaces offer -/

/-- the nodes of a section of an interface are what it offers -/
def Offers (T : List (PType (Decl Node))) (d : IntfDecl (Decl Node)) : Prop :=
  ∀ x ∈ (DS.declNodes d).flatten, Leads (· ∈ offered d) T x

theorem Offers.mono {T T' : List (PType (Decl Node))} (hT : T <+: T') {d : IntfDecl (Decl Node)} (h : Offers T d) : Offers T' d :=
  fun x hx => (h x hx).mono (fun _ h => h) hT

theorem intfDecl_offers {n : Nat} {t : Token} {s s' : PS DS} {o : Option (IntfDecl (Decl Node))} (e : parseIntfDecl u n t s = .ok o s') :
    ∀ d, o = some d → Offers s'.cx.types d := by
  unfold parseIntfDecl at e
  split at e
  · obtain ⟨first, s1, e1, e⟩ := ok_bind e
    cases e1
    obtain ⟨ds, s2, e2, e⟩ := ok_bind e
    cases e
    rintro d ⟨⟩ x hx
    obtain ⟨l, hl, hd⟩ := List.mem_flatten.1 hx
    obtain ⟨⟨d', j⟩, hj, rfl⟩ := List.mem_map.1 hl
    cases List.mem_singleton.1 hd
    have hj' := List.mem_zipIdx_iff_getElem?.1 hj
    simp only at hj'
    refine ⟨d'.type, ?_, List.mem_map.2 ⟨d', List.mem_of_getElem? hj', rfl⟩⟩
    show s'.cx.types[s.cx.types.length + j]? = _
    rw [typeSection_types e2, List.getElem?_append_right (Nat.le_add_right ..), Nat.add_sub_cancel_left, List.getElem?_map, hj']
    rfl
  split at e
  · obtain ⟨_, s1, e1, e⟩ := ok_bind e
    obtain ⟨ds, s2, e2, e⟩ := ok_bind e
    cases e
    rintro d ⟨⟩ x hx
    obtain ⟨l, hl, hd⟩ := List.mem_flatten.1 hx
    obtain ⟨v, hv, rfl⟩ := List.mem_map.1 hl
    obtain ⟨i, hi, rfl⟩ := List.mem_map.1 hd
    exact .inr (.inr ⟨rfl, List.mem_flatMap.2 ⟨v, hv, List.mem_map_of_mem hi⟩⟩)
  split at e
  · obtain ⟨_, s1, e1, e⟩ := ok_bind e
    obtain ⟨ds, s2, e2, e⟩ := ok_bind e
    cases e
    rintro d ⟨⟩ x hx
    obtain ⟨l, hl, hd⟩ := List.mem_flatten.1 hx
    obtain ⟨v, hv, rfl⟩ := List.mem_map.1 hl
    obtain ⟨i, hi, rfl⟩ := List.mem_map.1 hd
    exact .inr (.inr ⟨rfl, List.mem_flatMap.2 ⟨v, hv, List.mem_map_of_mem hi⟩⟩)
  split at e
  · obtain ⟨_, s1, e1, e⟩ := ok_bind e
    obtain ⟨ds, s2, e2, e⟩ := ok_bind e
    cases e
    rintro d ⟨⟩ x hx
    obtain ⟨l, hl, hd⟩ := List.mem_flatten.1 hx
    obtain ⟨v, hv, rfl⟩ := List.mem_map.1 hl
    cases List.mem_singleton.1 hd
    exact .inr (.inr ⟨rfl, List.mem_map.2 ⟨v, hv, rfl⟩⟩)
  split at e
  · obtain ⟨h, s2, e2, e⟩ := ok_bind e
    cases e
    rintro d ⟨⟩ x hx
    obtain ⟨l, hl, hd⟩ := List.mem_flatten.1 hx
    cases List.mem_singleton.1 hl
    cases List.mem_singleton.1 hd
    exact .inr (.inr ⟨rfl, List.mem_singleton.2 rfl⟩)
  · cases e
    rintro d ⟨⟩

theorem intfDecls_offers : ∀ {n : Nat} {s s' : PS DS} {ds : List (IntfDecl (Decl Node))}, Apart N o1 s.cx → s.cx.cur ≠ 0 →
    parseIntfDecls u n s = .ok ds s' → ∀ d ∈ ds, Offers s'.cx.types d
  | 0, _, _, _, _, _, e => by cases e
  | n + 1, s, s', ds, h, hc, e => by
    unfold parseIntfDecls at e
    obtain ⟨t, s1, e1, e⟩ := ok_bind e
    rw [← quiet_cur _ _ _ e1] at h hc
    split at e
    · cases e; exact fun _ h => by cases h
    split at e
    · cases e
    obtain ⟨o, s2, e2, e9⟩ := ok_bind e
    cases o with
    | none => cases e9; exact fun _ h => by cases h
    | some d =>
      obtain ⟨rest, s3, e3, e8⟩ := ok_bind e9
      cases e8
      obtain ⟨h1, h2, -⟩ := Ap.parseIntfDecl n t _ _ _ h hc e2
      intro x hx
      rcases List.mem_cons.1 hx with rfl | hx
      · exact (intfDecl_offers e2 x rfl).mono (Ap.parseIntfDecls n _ _ _ h1 h2 e3).2.2
      · exact intfDecls_offers h1 h2 e3 x hx

theorem processIntf_offers {cu : Nat} (hcu : cu ≠ 0) {hd : UnitHead} {es : List UsesEntry} {n : Nat} {s s' : PS DS} {ds : List (IntfDecl (Decl Node))}
    (h : Apart N o1 s.cx) (hc : s.cx.cur ≠ 0) (e : processIntf u cu hd es n s = .ok ds s') : ∀ d ∈ ds, Offers s'.cx.types d := by
  unfold processIntf parseIntfBody at e
  obtain ⟨_, s1, e1, e⟩ := ok_bind e
  obtain ⟨_, s2, e2, e⟩ := ok_bind e
  obtain ⟨ds', s3, e3, e⟩ := ok_bind e
  obtain ⟨_, s4, e4, e⟩ := ok_bind e
  cases e
  cases e4
  obtain ⟨h1, h2, -⟩ := Ap.stepP (fun k k' h _ e => h.importUnits (u := u) hcu e) _ _ _ h hc e1
  obtain ⟨h3, h4, -⟩ := Ap.stepR (fun k k' h _ e => ⟨h.setUnit (u := u) hcu e, by rw [setR_ok e], by rw [setR_ok e]⟩) _ _ _ h1 h2 e2
  have := intfDecls_offers h3 h4 e3
  exact this

/-! ## Loading the units -/

/-- the parser of a unit -/
structure LdOK (N : Nat → Prop) (T : List (PType (Decl Node))) (l : Loader) : Prop where
  cur : l.cur ≠ 0
  cu : l.cu ≠ 0
  no : N l.head.no
  intf : ∀ d ∈ l.intf, Offers T d

theorem LdOK.mono {T T' : List (PType (Decl Node))} (hT : T <+: T') {l : Loader} (h : LdOK N T l) : LdOK N T' l :=
  ⟨h.cur, h.cu, h.no, fun d hd => (h.intf d hd).mono hT⟩

theorem run_ap {α : Type} {p : P DS α} (hp : Ap N o1 p) {l : Loader} (hl : l.cur ≠ 0) {s s' : PS DS} {r : α × Loader} (h : Apart N o1 s.cx)
    (e : l.run p s = .ok r s') : Apart N o1 s'.cx ∧ s.cx.types <+: s'.cx.types ∧ r.2.cur ≠ 0 ∧ r.2.cu = l.cu ∧
      ∃ t t', Apart N o1 t.cx ∧ t.cx.cur ≠ 0 ∧ p t = .ok r.1 t' ∧ t'.cx.types = s'.cx.types := by
  unfold Loader.run at e
  cases hp' : p ⟨l.ts, l.tail, { s.cx with cur := l.cur, pending := l.pending }⟩ <;> rw [hp'] at e <;> simp only [TP.R.ok.injEq, reduceCtorEq] at e
  obtain ⟨rfl, rfl⟩ := e
  have h0 : Apart N o1 { s.cx with cur := l.cur, pending := l.pending } := h.same rfl
  obtain ⟨h1, h2, h3⟩ := hp _ _ _ h0 hl hp'
  exact ⟨h1.same rfl, h3, h2, rfl, _, _, h0, hl, hp', rfl⟩

theorem newLoaders_ap : ∀ {es : List UsesEntry} {s s' : PS DS} {cs : List (Str × Nat)}, Apart N o1 s.cx → newLoaders sep 0 es s = .ok cs s' →
    Apart N o1 s'.cx ∧ ∀ c ∈ cs, c.2 ≠ 0
  | [], s, s', cs, h, e => by cases e; exact ⟨h, fun _ h => by cases h⟩
  | x :: es, s, s', cs, h, e => by
    unfold newLoaders at e
    simp only at e
    split at e
    · exact newLoaders_ap h e
    · obtain ⟨c, s1, e1, e⟩ := ok_bind e
      cases e1
      obtain ⟨_, s2, e2, e⟩ := ok_bind e
      cases e2
      obtain ⟨rest, s3, e3, e⟩ := ok_bind e
      cases e
      obtain ⟨h1, h2⟩ := newLoaders_ap (h.newUnitContext _) e3
      refine ⟨h1, fun c hc => ?_⟩
      rcases List.mem_cons.1 hc with rfl | hc
      · obtain ⟨p, us, e⟩ := h.home
        exact Nat.ne_of_gt (Ctxs.obj_lt e)
      · exact h2 c hc

theorem loadUnit_ap {n : Nat} {path : Str} {c : Nat} (hc : c ≠ 0) {s s' : PS DS} {l : Loader} (h : Apart N o1 s.cx)
    (e : loadUnit u files n path c s = .ok l s') : Apart N o1 s'.cx ∧ l.cur ≠ 0 ∧ l.cu ≠ 0 ∧ l.intf = [] := by
  have hi := ((Fw.loadUnit n path c).2 _ _ _ e).1
  unfold loadUnit at e
  cases hf : files path <;> rw [hf] at e
  · cases e
  · cases e
  · obtain ⟨r, s1, e1, e⟩ := ok_bind e
    cases e
    obtain ⟨h1, -, h3, h4, -⟩ := run_ap (Ap.step quiet_cur? fun _ => Ap.parseIdentAndUses n) hc h e1
    exact ⟨h1, h3, by show r.2.cu ≠ 0; rw [h4]; exact hc, hi⟩

theorem loadAll_ap {n : Nat} : ∀ {cs : List (Str × Nat)} {s s' : PS DS} {ls : List Loader}, Apart N o1 s.cx → (∀ c ∈ cs, c.2 ≠ 0) →
    loadAll u files 0 n cs s = .ok ls s' → Apart N o1 s'.cx ∧ ∀ l ∈ ls, l.cur ≠ 0 ∧ l.cu ≠ 0 ∧ l.intf = []
  | [], s, s', ls, h, _, e => by cases e; exact ⟨h, fun _ h => by cases h⟩
  | (p, c) :: cs, s, s', ls, h, hc, e => by
    unfold loadAll at e
    obtain ⟨l, s1, e1, e⟩ := ok_bind e
    obtain ⟨_, s2, e2, e⟩ := ok_bind e
    cases e2
    obtain ⟨rest, s3, e3, e⟩ := ok_bind e
    cases e
    obtain ⟨h1, h2⟩ := loadUnit_ap (hc _ (List.mem_cons_self ..)) h e1
    obtain ⟨h3, h4⟩ := loadAll_ap (h1.addUnit _) (fun c h => hc c (List.mem_cons_of_mem _ h)) e3
    refine ⟨h3, fun x hx => ?_⟩
    rcases List.mem_cons.1 hx with rfl | hx
    · exact h2
    · exact h4 x hx

theorem loop_ap {stp : Loader → P DS Loader} {lp : List Nat → List Loader → P DS (List Loader)} (h0 : ∀ ls, lp [] ls = pure ls)
    (h1 : ∀ i is ls l, ls[i]? = some l → lp (i :: is) ls = (stp l >>= fun l' => lp is (ls.set i l')))
    (h2 : ∀ i is ls, ls[i]? = none → lp (i :: is) ls = lp is ls)
    (hs : ∀ l s l' s', Apart N o1 s.cx → LdOK N s.cx.types l → stp l s = .ok l' s' → Apart N o1 s'.cx ∧ LdOK N s'.cx.types l' ∧ l'.head = l.head ∧
      s.cx.types <+: s'.cx.types) : ∀ is ls s ls' s', Apart N o1 s.cx → (∀ l ∈ ls, LdOK N s.cx.types l) → lp is ls s = .ok ls' s' →
      Apart N o1 s'.cx ∧ (∀ l ∈ ls', LdOK N s'.cx.types l) ∧ ls'.map Loader.head = ls.map Loader.head := by
  intro is
  induction is with
  | nil =>
    intro ls s ls' s' h hl e
    rw [h0] at e
    cases e
    exact ⟨h, hl, rfl⟩
  | cons i is ih =>
    intro ls s ls' s' h hl e
    cases hi : ls[i]? with
    | none => rw [h2 i is ls hi] at e; exact ih ls s ls' s' h hl e
    | some l =>
      rw [h1 i is ls l hi] at e
      obtain ⟨l', s1, e1, e2⟩ := ok_bind e
      obtain ⟨g1, g2, g3, g4⟩ := hs l s l' s1 h (hl l (List.mem_of_getElem? hi)) e1
      obtain ⟨k1, k2, k3⟩ := ih (ls.set i l') s1 ls' s' g1 (fun x hx => by
        rcases List.mem_or_eq_of_mem_set hx with hx | rfl
        · exact (hl x hx).mono g4
        · exact g2) e2
      refine ⟨k1, k2, k3.trans ?_⟩
      exact head_set hi g3

theorem intfStep_ap {n : Nat} {l l' : Loader} {s s' : PS DS} (h : Apart N o1 s.cx) (hl : LdOK N s.cx.types l) (e : intfStep u n l s = .ok l' s') :
    Apart N o1 s'.cx ∧ LdOK N s'.cx.types l' ∧ l'.head = l.head ∧ s.cx.types <+: s'.cx.types := by
  unfold intfStep at e
  obtain ⟨r, s1, e1, e⟩ := ok_bind e
  cases e
  have ht := congrArg UnitTree.head (Fw.run_loader e1)
  obtain ⟨h1, h2, h3, h4, t, t', h5, h6, h7, h8⟩ := run_ap (Ap.processIntf hl.cu hl.no l.uses n) hl.cur h e1
  refine ⟨h1, ⟨h3, by show r.2.cu ≠ 0; rw [h4]; exact hl.cu, ?_, ?_⟩, ht, h2⟩
  · show N r.2.head.no
    rw [show r.2.head = l.head from ht]
    exact hl.no
  · rw [← h8]
    exact processIntf_offers hl.cu h5 h6 h7

theorem implStep_ap {n : Nat} {l l' : Loader} {s s' : PS DS} (h : Apart N o1 s.cx) (hl : LdOK N s.cx.types l) (e : implStep u n l s = .ok l' s') :
    Apart N o1 s'.cx ∧ LdOK N s'.cx.types l' ∧ l'.head = l.head ∧ s.cx.types <+: s'.cx.types := by
  unfold implStep at e
  obtain ⟨r, s1, e1, e⟩ := ok_bind e
  cases e
  have ht := Fw.run_loader e1
  unfold Loader.tree at ht
  injection ht with t1 t2 t3 t4 t5
  obtain ⟨h1, h2, h3, h4, -⟩ := run_ap (Ap.processImpl hl.cu hl.no n) hl.cur h e1
  refine ⟨h1, ⟨h3, by show r.2.cu ≠ 0; rw [h4]; exact hl.cu, ?_, ?_⟩, t1, h2⟩
  · show N r.2.head.no
    rw [t1]
    exact hl.no
  · show ∀ d ∈ r.2.intf, _
    rw [t3]
    exact (hl.mono h2).intf

theorem Apart.mono {N' : Nat → Prop} {k : DS} (h : Apart N o1 k) (hN : ∀ j, N j → N' j) : Apart N' o1 k :=
  ⟨h.own, h.ctxs, h.home, h.root, h.here, fun j m e => hN j (h.dms j m e)⟩

/-- up to the end of the loops -/
theorem loadUnits_ap {n : Nat} {i : Ident} {es : List UsesEntry} {s s' : PS DS} {ls : List Loader} (h : Apart (fun _ => False) o1 s.cx)
    (e : loadUnits u sep files lib it 0 i es n s = .ok ls s') :
    ∃ s4, Apart (· ∈ ls.map fun l => l.head.no) o1 s4.cx ∧ (∀ l ∈ ls, ∀ d ∈ l.intf, Offers s4.cx.types d) ∧
      enterP u 0 i es (ls.map Loader.head) s4 = .ok () s' := by
  unfold loadUnits at e
  obtain ⟨cs, s1, e1, e⟩ := ok_bind e
  obtain ⟨ls0, s2, e2, e⟩ := ok_bind e
  cases hsort : UnitParsers.sort u lib (it (uparsers ls0)) (uparsers ls0) with
  | none => rw [hsort] at e; cases e
  | some sorted =>
    rw [hsort] at e
    obtain ⟨ls1, s3, e3, e⟩ := ok_bind e
    obtain ⟨ls2, s4, e4, e⟩ := ok_bind e
    obtain ⟨_, s5, e5, e⟩ := ok_bind e
    cases e
    obtain ⟨h1, c1⟩ := newLoaders_ap h e1
    obtain ⟨h2, c2⟩ := loadAll_ap h1 c1 e2
    have h2' := h2.mono (N' := (· ∈ ls0.map fun l => l.head.no)) fun _ h => h.elim
    obtain ⟨h3, c3, g3⟩ := loop_ap (lp := intfAll u n) (stp := intfStep u n) (fun ls => rfl) (fun i is ls l h => intfAll_step h)
      (fun i is ls h => by rw [intfAll, h]) (fun l s l' s' h hl e => intfStep_ap h hl e) _ _ _ _ _ h2'
      (fun l hl => ⟨(c2 l hl).1, (c2 l hl).2.1, List.mem_map.2 ⟨l, hl, rfl⟩, by rw [(c2 l hl).2.2]; exact fun _ h => by cases h⟩) e3
    obtain ⟨h4, c4, g4⟩ := loop_ap (lp := implAll u n) (stp := implStep u n) (fun ls => rfl) (fun i is ls l h => implAll_step h)
      (fun i is ls h => by rw [implAll, h]) (fun l s l' s' h hl e => implStep_ap h hl e) _ _ _ _ _ h3 c3 e4
    refine ⟨s4, ?_, fun l hl => (c4 l hl).intf, e5⟩
    have : (ls.map fun l => l.head.no) = ls0.map fun l => l.head.no := by
      simpa [List.map_map, Function.comp_def] using congrArg (List.map UnitHead.no) (g4.trans g3)
    rw [this]
    exact h4

/-! ## The context of the block -/

theorem layers_src {h : Maps Node} {x i : Nat} (hi : i ∈ layers h x) : x < h.length := by
  induction h with
  | nil => cases hi
  | cons o h ih =>
    by_cases c : x = h.length
    · rw [c]; exact Nat.lt_succ_self _
    · unfold layers at hi
      rw [if_neg c] at hi
      exact Nat.lt_succ_of_lt (ih hi)

theorem layers_chained0 {h : Maps Node} {i : Nat} {m : Tbl Node} (hi : i ≠ 0) (h0 : h.obj 0 = some .embedded) (e : h.obj i = some (.chained 0 m)) :
    ∀ j ∈ layers h i, j = i ∨ j = 0 := by
  induction h with
  | nil => cases e
  | cons o h ih =>
    intro j hj
    unfold layers at hj
    unfold Maps.obj at h0 e
    by_cases c : i = h.length
    · rw [if_pos c] at hj e
      cases e
      rw [if_neg (by omega)] at h0
      simp only at hj
      rcases List.mem_cons.1 hj with rfl | hj
      · exact .inl rfl
      · rw [layers_embedded h0] at hj
        exact .inr (List.mem_singleton.1 hj)
    · rw [if_neg c] at hj e
      have := obj_lt e
      rw [if_neg (by omega)] at h0
      exact ih h0 e j hj

theorem usesMap_same {es : List UsesEntry} : ∀ {hs : List UnitHead} {k : DS} {m : Tbl Node} {r : DS × Tbl Node}, k.usesMap u es hs m = some r →
    r.1.w = k.w ∧ r.1.types = k.types ∧ r.1.cur = k.cur ∧ ∀ p ∈ r.2, p ∈ m ∨ ∃ e ∈ es, p.2 = ⟨e.ident.name, .uses e.no⟩
  | [], k, m, r, e => by cases e; exact ⟨rfl, rfl, rfl, fun p h => .inl h⟩
  | x :: hs, k, m, r, e => by
    unfold DS.usesMap at e
    split at e
    · cases e
    · rename_i en hf
      obtain ⟨h1, h2, h3, h4⟩ := usesMap_same e
      refine ⟨h1, h2, h3, fun p hp => ?_⟩
      rcases h4 p hp with hp | hp
      · rcases tblSet_mem u _ _ p hp with hp | ⟨hp, -⟩
        · exact .inl hp
        · exact .inr ⟨en, List.mem_of_find?_eq_some hf, List.mem_singleton.1 hp⟩
      · exact .inr hp

/-- the division for the block of a program: `a` is the map of its declarations, `b` that of the uses clause -/
def blockZone (k : DS) (hs : List UnitHead) (n : Nat) (H : List (Dcl (Decl Node))) : Zone where
  far j := j < k.w.maps.length ∧ j ≠ n + 2 ∧ j ≠ n + 1 ∧ j ≠ n ∧ j ≠ 1 ∧ j ≠ 0 ∧ ∀ h ∈ hs, k.w.unitDm h.no ≠ some j
  fixed j := j < k.w.maps.length ∧ j ≠ n + 2 ∧ j ≠ n + 1
  away c := c ≠ 0 ∧ c < k.w.ctxs.length
  old := Leads (· ∈ H) k.types

/-- what the program and the units of `ls` declare for the block -/
def headDcls (i : Ident) (es : List UsesEntry) (ls : List Loader) : List (Dcl (Decl Node)) :=
  .program i.name :: dclUses es ++ ls.flatMap fun l => l.intf.flatMap offered

theorem block_inside {K : DS} {n : Nat} {h0 : Maps Node} {ms : List Nat} {L m m1 : Tbl Node} {i : Ident} {es : List UsesEntry} {ls : List Loader} {pp : Str}
    {us : List Nat} {X : Nat → Prop} (hm : K.w.maps = .composite ((n + 1) :: n :: ms ++ [1]) :: .impl L :: .impl m :: h0) (hn : h0.length = n)
    (hc : K.w.ctxs.obj 0 = some (.program pp us (n + 2))) (hpr : K.program = some (n + 1)) (hcur : K.cur = 0) (root : h0.obj 0 = some .embedded)
    (here : h0.obj 1 = some (.chained 0 m1)) (dms : ∀ j m, K.w.unitDm j = some m → j ∈ ls.map fun l => l.head.no)
    (hms : ∀ m ∈ ms, ∃ j, K.w.unitDm j = some m) (hx : ∀ l ∈ ls, HasIntf u X K l.head.no l.intf)
    (ho : ∀ l ∈ ls, ∀ d ∈ l.intf, Offers K.types d) (h1 : ∀ p ∈ m1, ∃ e ∈ es, p.2 = ⟨e.ident.name, .uses e.no⟩)
    (h2 : ∀ p ∈ m, ∃ e ∈ es, p.2 = ⟨e.ident.name, .uses e.no⟩) (h3 : ∀ p ∈ L, p.2 = ⟨i.name, .program⟩) :
    Inside (blockZone K (ls.map Loader.head) n (headDcls i es ls)) K (· ∈ []) K.types K := by
  have hl1 := obj_lt here
  have len : K.w.maps.length = n + 3 := by rw [hm]; simp only [List.length_cons, hn]
  have o0 : K.w.maps.obj 0 = some .embedded := by
    rw [hm, obj_cons_lt' _ _ (by simp only [List.length_cons]; omega), obj_cons_lt' _ _ (by simp only [List.length_cons]; omega),
      obj_cons_lt' _ _ (by omega)]
    exact root
  have o1 : K.w.maps.obj 1 = some (.chained 0 m1) := by
    rw [hm, obj_cons_lt' _ _ (by simp only [List.length_cons]; omega), obj_cons_lt' _ _ (by simp only [List.length_cons]; omega),
      obj_cons_lt' _ _ (by omega)]
    exact here
  have ob : K.w.maps.obj n = some (.impl m) := by
    rw [hm, obj_cons_lt' _ _ (by simp only [List.length_cons]; omega), obj_cons_lt' _ _ (by simp only [List.length_cons]; omega)]
    unfold Maps.obj
    rw [if_pos hn.symm]
  have oa : K.w.maps.obj (n + 1) = some (.impl L) := by
    rw [hm, obj_cons_lt' _ _ (by simp only [List.length_cons]; omega)]
    unfold Maps.obj
    rw [if_pos (by simp only [List.length_cons]; omega)]
  have or : K.w.maps.obj (n + 2) = some (.composite ((n + 1) :: n :: ms ++ [1])) := by
    rw [hm]
    unfold Maps.obj
    rw [if_pos (by simp only [List.length_cons]; omega)]
  have unit : ∀ j mm, K.w.unitDm j = some mm → ∃ l ∈ ls, j = l.head.no ∧ K.w.unitDm l.head.no = some mm ∧
      K.w.maps.obj mm = some (.impl (World.intfTable u (l.intf.flatMap DS.declNodes) [])) := by
    intro j mm e
    obtain ⟨l, hl, rfl⟩ := List.mem_map.1 (dms j mm e)
    obtain ⟨x, -, g1, g2⟩ := hx l hl
    rw [e] at g1
    cases g1
    exact ⟨l, hl, rfl, e, g2⟩
  -- the maps that can be reached
  have cases' : ∀ j, ¬ (blockZone K (ls.map Loader.head) n (headDcls i es ls)).far j → K.w.maps.length ≤ j ∨ j = n + 2 ∨ j = n + 1 ∨ j = n ∨ j = 1 ∨
      j = 0 ∨ ∃ l ∈ ls, K.w.unitDm l.head.no = some j ∧ K.w.maps.obj j = some (.impl (World.intfTable u (l.intf.flatMap DS.declNodes) [])) := by
    intro j hj
    by_contra hcon
    simp only [not_or] at hcon
    obtain ⟨c1, c2, c3, c4, c5, c6, c7⟩ := hcon
    refine hj ⟨by omega, c2, c3, c4, c5, c6, fun h hh e => c7 ?_⟩
    obtain ⟨l, hl, -, g1, g2⟩ := unit _ _ e
    exact ⟨l, hl, g1, g2⟩
  have funit : ∀ j mm, K.w.unitDm j = some mm → ¬ (blockZone K (ls.map Loader.head) n (headDcls i es ls)).far mm := by
    intro j mm e hf
    obtain ⟨l, hl, -, g, -⟩ := unit j mm e
    exact hf.2.2.2.2.2.2 _ (List.mem_map_of_mem hl) g
  have hdU : ∀ p : Str × Decl Node, (∃ e ∈ es, p.2 = ⟨e.ident.name, .uses e.no⟩) → Leads (· ∈ headDcls i es ls) K.types p.2 := by
    rintro p ⟨e, he, hp⟩
    rw [hp]
    exact List.mem_append_left _ (List.mem_cons_of_mem _ (List.mem_map.2 ⟨e, he, rfl⟩))
  have inner : ∀ j, j ≠ n + 2 → ¬ (blockZone K (ls.map Loader.head) n (headDcls i es ls)).far j → ∀ x ∈ layers K.w.maps j,
      ¬ (blockZone K (ls.map Loader.head) n (headDcls i es ls)).far x := by
    intro j hj2 hj x hxl
    rcases cases' j hj with c | rfl | rfl | rfl | rfl | rfl | ⟨l, hl, c1, c2⟩
    · exact absurd (layers_src hxl) (by omega)
    · exact absurd rfl hj2
    · rw [layers_impl oa] at hxl; rw [List.mem_singleton.1 hxl]; exact hj
    · rw [layers_impl ob] at hxl; rw [List.mem_singleton.1 hxl]; exact hj
    · rcases layers_chained0 (by omega) o0 o1 x hxl with rfl | rfl
      · exact hj
      · exact fun hf => hf.2.2.2.2.2.1 rfl
    · rw [layers_embedded o0] at hxl; rw [List.mem_singleton.1 hxl]; exact hj
    · rw [layers_impl c2] at hxl; rw [List.mem_singleton.1 hxl]; exact hj
  refine ⟨fun j hj p hp => .inl ?_, fun j hj x hxl => ?_, fun j hj t ht => ?_, fun j hj => ⟨hj.1, hj.2.1, hj.2.2.1⟩, fun c o hcc e => ?_, ?_, List.prefix_rfl,
    fun j hj => hj.1, fun c hc => hc.2, fun d mm _ e => ?_, fun _ _ => rfl, fun _ _ => rfl, rfl, rfl, rfl, fun i d hi e => ?_⟩
  · rcases cases' j hj with c | rfl | rfl | rfl | rfl | rfl | ⟨l, hl, c1, c2⟩
    · rw [tbl_none c] at hp; cases hp
    · rw [tbl_obj or] at hp; cases hp
    · rw [tbl_obj oa] at hp
      rw [h3 p hp]
      exact List.mem_append_left _ (List.mem_cons_self ..)
    · rw [tbl_obj ob] at hp; exact hdU p (h2 p hp)
    · rw [tbl_obj o1] at hp; exact hdU p (h1 p hp)
    · rw [tbl_obj o0] at hp; cases hp
    · rw [tbl_obj c2] at hp
      rcases intfTable_mem u _ [] p hp with hp | ⟨hp, -⟩
      · cases hp
      · obtain ⟨nd, hnd, hp⟩ := List.mem_flatten.1 hp
        obtain ⟨d, hd, hnd⟩ := List.mem_flatMap.1 hnd
        have hin : ∀ x ∈ offered d, x ∈ headDcls i es ls := fun x hx =>
          List.mem_append_right _ (List.mem_flatMap.2 ⟨l, hl, List.mem_flatMap.2 ⟨d, hd, hx⟩⟩)
        exact (ho l hl d hd p.2 (List.mem_flatten.2 ⟨nd, hnd, hp⟩)).mono hin List.prefix_rfl
  · by_cases c : j = n + 2
    · subst c
      rw [hm] at hxl
      unfold layers at hxl
      rw [if_pos (by simp only [List.length_cons]; omega)] at hxl
      simp only at hxl
      obtain ⟨y, hy, hxl⟩ := List.mem_flatMap.1 hxl
      have hyl := layers_src hxl
      rw [← layers_cons_lt (.composite ((n + 1) :: n :: ms ++ [1])) _ hyl, ← hm] at hxl
      simp only [List.length_cons, hn] at hyl
      refine inner y (by omega) ?_ x hxl
      simp only [List.cons_append, List.mem_cons, List.mem_append, List.not_mem_nil, or_false] at hy
      rcases hy with rfl | rfl | hy | rfl
      · exact fun hf => hf.2.2.1 rfl
      · exact fun hf => hf.2.2.2.1 rfl
      · obtain ⟨j, hj⟩ := hms y hy
        exact funit j y hj
      · exact fun hf => hf.2.2.2.2.1 rfl
    · exact inner j c hj x hxl
  · have hjl := target_lt' ht
    have : j = n + 2 ∨ j = n + 1 := by
      by_contra hcon
      simp only [not_or] at hcon
      exact hj ⟨hjl, hcon.1, hcon.2⟩
    have ta : target K.w.maps (n + 1) = some (n + 1) := target_impl oa
    have : t = n + 1 := by
      rcases this with rfl | rfl
      · rw [hm] at ht
        unfold target at ht
        rw [if_pos (by simp only [List.length_cons]; omega)] at ht
        simp only [List.cons_append] at ht
        rw [← target_cons_lt (.composite ((n + 1) :: n :: ms ++ [1])) _ (by simp only [List.length_cons]; omega), ← hm, ta] at ht
        cases ht; rfl
      · rw [ta] at ht; cases ht; rfl
    rw [this]
    exact fun hf => hf.2.2 rfl
  · have hcl := Ctxs.obj_lt e
    have : c = 0 := by
      by_contra hcon
      exact hcc ⟨hcon, hcl⟩
    subst this
    rw [hc] at e
    cases e
    exact ⟨trivial, fun hf => hf.2.1 rfl⟩
  · rw [hcur]; exact fun hf => hf.1 rfl
  · unfold DS.nsMap at e
    split at e
    · obtain ⟨j, -, e⟩ := Option.bind_eq_some_iff.1 e
      exact funit j mm e
    · exact funit _ mm e
    · rw [hpr] at e
      cases e
      exact fun hf => hf.2.2.1 rfl
    · cases e
  · have := (List.getElem?_eq_some_iff.1 e).1
    omega

theorem enterP_inside {i : Ident} {es : List UsesEntry} {ls : List Loader} {s s' : PS DS} {m1 : Tbl Node}
    (h : Apart (· ∈ ls.map fun l => l.head.no) (.chained 0 m1) s.cx) (h1 : ∀ p ∈ m1, ∃ e ∈ es, p.2 = ⟨e.ident.name, .uses e.no⟩)
    (ho : ∀ l ∈ ls, ∀ d ∈ l.intf, Offers s.cx.types d) (e : enterP u 0 i es (ls.map Loader.head) s = .ok () s') {X : Nat → Prop}
    (hx : ∀ l ∈ ls, HasIntf u X s'.cx l.head.no l.intf) (hc : s'.cx.cur = 0) :
    ∃ n, Inside (blockZone s'.cx (ls.map Loader.head) n (headDcls i es ls)) s'.cx (· ∈ []) s'.cx.types s'.cx := by
  unfold enterP at e
  cases e1 : s.cx.usesMap u es (ls.map Loader.head) [] with
  | none => rw [e1] at e; cases e
  | some km =>
    obtain ⟨k, m⟩ := km
    rw [e1] at e
    simp only at e
    obtain ⟨q1, q2, q3, q4⟩ := usesMap_same e1
    simp only at q1 q2 q3 q4
    cases e2 : k.enterProgram u 0 i (ls.map Loader.head) m with
    | none => rw [e2] at e; cases e
    | some k5 =>
      rw [e2] at e
      cases e
      have hk : Apart (· ∈ ls.map fun l => l.head.no) (.chained 0 m1) k := h.same q1
      clear h
      rw [← q2] at ho
      clear q1 q2 q3 e1
      obtain ⟨pp, us, home⟩ := hk.home
      unfold DS.enterProgram at e2
      have hdm : k.w.dm 0 = some 1 := by unfold World.dm; rw [home]; rfl
      rw [hdm] at e2
      cases e3 : k.w.usedMaps ((ls.map Loader.head).map fun h => some h.no) with
      | none => rw [e3] at e2; cases e2
      | some ms =>
        rw [e3] at e2
        simp only [Option.some.injEq] at e2
        subst e2
        have hn := obj_lt hk.here
        refine ⟨k.w.maps.length, block_inside (pp := pp) (us := us) rfl rfl ?_ rfl hc hk.root hk.here (fun j m e => hk.dms j m e) (fun m hm => ?_) hx ho h1
          (fun p hp => (q4 p hp).resolve_left (by exact fun h => by cases h)) (fun p hp => ?_)⟩
        · show Ctxs.obj (k.w.ctxs.modify _ 0) 0 = _
          rw [Ctxs.obj_modify, if_pos rfl, home]
          rfl
        · obtain ⟨j, -, hj⟩ := usedMaps_mem e3 hm
          exact ⟨j, hj⟩
        · rcases tblSet_mem u _ _ p hp with hp | ⟨hp, -⟩
          · cases hp
          · exact List.mem_singleton.1 hp

/-! ## The uses clause of a program -/

/-- the context of a program before its units are loaded: its map has the items of its uses clause -/
structure Opened (path : Str) (m : Tbl Node) (k : DS) : Prop where
  w : k.w = ⟨[.chained 0 m, .embedded], [], [.program path [] 1]⟩
  cur : k.cur = 0

theorem opened_init (path : Str) : Opened path [] (DS.init path) := ⟨rfl, rfl⟩

theorem Opened.apart {path : Str} {m : Tbl Node} {k : DS} (h : Opened path m k) : Apart (fun _ => False) (.chained 0 m) k := by
  refine ⟨fun j hj t ht => ?_, fun c o hc e => ?_, ⟨path, [], ?_⟩, ?_, ?_, fun j m e => ?_⟩
  · have := target_lt' ht
    rw [h.w] at this
    simp only [List.length_cons, List.length_nil] at this
    omega
  · have := Ctxs.obj_lt e
    rw [h.w] at this
    simp only [List.length_cons, List.length_nil] at this
    omega
  · rw [h.w]; rfl
  · rw [h.w]; rfl
  · rw [h.w]; rfl
  · rw [h.w] at e
    simp [World.unitDm] at e

theorem Opened.seal {path : Str} {m : Tbl Node} {k : DS} (h : Opened path m k) : Seal (fun _ => False) k where
  owns i o ho _ := by
    rw [h.w] at ho ⊢
    simp only [Ctxs.obj] at ho ⊢
    split at ho
    · cases ho; exact ⟨1, by simp [Spec.target, CtxObj.dm], fun h => h⟩
    · cases ho
  old _ h := h.elim

theorem declareUses_opened {path : Str} : ∀ {is : List (Ident × Option Str)} {m : Tbl Node} {s s' : PS DS} {es : List UsesEntry}, Opened path m s.cx →
    declareUses u is s = .ok es s' → ∃ m', Opened path m' s'.cx ∧ ∀ p ∈ m', p ∈ m ∨ ∃ e ∈ es, p.2 = ⟨e.ident.name, .uses e.no⟩
  | [], m, s, s', es, h, e => by cases e; exact ⟨m, h, fun p hp => .inl hp⟩
  | (i, q) :: is, m, s, s', es, h, e => by
    unfold declareUses at e
    obtain ⟨no, s1, e1, e⟩ := ok_bind e
    cases e1
    obtain ⟨_, s2, e2, e⟩ := ok_bind e
    obtain ⟨rest, s3, e3, e4⟩ := ok_bind e
    cases e4
    have : ∃ m2, Opened path m2 s2.cx ∧ ∀ p ∈ m2, p ∈ m ∨ p.2 = ⟨i.name, .uses s.cx.items.length⟩ := by
      have key : ∀ ds, s.cx.w.set u s.cx.cur ds =
          (⟨[.chained 0 (Tbl.set u m ds).1, .embedded], [], [.program path [] 1]⟩, if (Tbl.set u m ds).2 then .ok else .err) := by
        intro ds
        rw [h.w, h.cur]
        rfl
      unfold stepR DS.setUses DS.setR at e2
      simp only at e2
      rw [key] at e2
      simp only at e2
      split at e2
      · rename_i c e5
        cases e2
        split at e5
        · cases e5
          refine ⟨_, ⟨rfl, h.cur⟩, fun p hp => ?_⟩
          rcases tblSet_mem u _ _ p hp with hp | ⟨hp, -⟩
          · exact .inl hp
          · exact .inr (List.mem_singleton.1 hp)
        · cases e5
        · cases e5
      · cases e2
      · cases e2
    obtain ⟨m2, h2, g2⟩ := this
    obtain ⟨m3, h3, g3⟩ := declareUses_opened h2 e3
    refine ⟨m3, h3, fun p hp => ?_⟩
    rcases g3 p hp with hp | ⟨x, hx, hp⟩
    · rcases g2 p hp with hp | hp
      · exact .inl hp
      · exact .inr ⟨_, List.mem_cons_self .., hp⟩
    · exact .inr ⟨x, List.mem_cons_of_mem _ hx, hp⟩

theorem parseUses_opened {path : Str} {n : Nat} {m : Tbl Node} {s s' : PS DS} {es : List UsesEntry} (h : Opened path m s.cx) (e : parseUses u n s = .ok es s') :
    ∃ m', Opened path m' s'.cx ∧ ∀ p ∈ m', p ∈ m ∨ ∃ e ∈ es, p.2 = ⟨e.ident.name, .uses e.no⟩ := by
  unfold parseUses at e
  obtain ⟨_, s1, e1, e⟩ := ok_bind e
  obtain ⟨_, s2, e2, e⟩ := ok_bind e
  obtain ⟨is, s3, e3, e⟩ := ok_bind e
  refine declareUses_opened ?_ e
  rw [Fw.quiet_usesItems _ _ _ _ e3, quiet_next _ _ _ e2, quiet_current _ _ _ _ e1]
  exact h

end TP
