import Verif.Lemmas.AccUses

/-! Rets put together from runs of the parts: units and programs with uses clauses. -/

namespace TP
open Maps Spec

variable {u : Uni} {tl : Tail} {α β : Type} {Γ Γ1 Γ' : NameEnv} {k : DS}

/-- with enough fuel, `p` returns `a` -/
def Rets (p : Nat → P DS α) (s : PS DS) (a : α) (s' : PS DS) : Prop := ∃ N, ∀ n, N ≤ n → p n s = .ok a s'

theorem Rets.one {p : P DS α} {s s' : PS DS} {a : α} (h : p s = .ok a s') : Rets (fun _ => p) s a s' := ⟨0, fun _ _ => h⟩

theorem Rets.bind {p : Nat → P DS α} {f : Nat → α → P DS β} {s s1 s' : PS DS} {a : α} {b : β} (h : Rets p s a s1)
    (h' : Rets (fun n => f n a) s1 b s') : Rets (fun n => p n >>= f n) s b s' := by
  obtain ⟨N, h⟩ := h
  obtain ⟨M, h'⟩ := h'
  exact ⟨max N M, fun n hn => (bind_ok (h n (by omega))).trans (h' n (by omega))⟩

theorem Rets.then {p : P DS α} {f : Nat → α → P DS β} {s s1 s' : PS DS} {a : α} {b : β} (h : p s = .ok a s1)
    (h' : Rets (fun n => f n a) s1 b s') : Rets (fun n => p >>= f n) s b s' := Rets.bind (.one h) h'

theorem Acc.runs {p : Nat → P DS α} {ts ts' : List Token} {Q : α → DS → Prop} (h : Acc u tl p Γ ts Q Γ' ts') {k : DS} (A : Agrees u Γ k) :
    ∃ a k', Agrees u Γ' k' ∧ Own k k' ∧ Q a k' ∧ Rets p ⟨ts, tl, k⟩ a ⟨ts', tl, k'⟩ := by
  obtain ⟨a, ⟨ts1, tl1, k'⟩, h1, h2, h3, h4, h5, h6⟩ := h ⟨ts, tl, k⟩ rfl A rfl
  simp only at h1 h3
  subst h1 h3
  exact ⟨a, k', h2, h4, h5, h6⟩

/-! ## The names in a state with more maps -/

/-- the names of `Γ` can be those of `Γ'` -/
structure NameEnv.Le (Γ Γ' : NameEnv) : Prop where
  inner : ∀ x ∈ Γ.inner, x ∈ Γ'.inner
  seen : ∀ x ∈ Γ.seen, x ∈ Γ'.seen
  sure : ∀ x ∈ Γ'.sure, x ∈ Γ.sure

theorem Agrees.le (A : Agrees u Γ k) (h : NameEnv.Le Γ Γ') : Agrees u Γ' k where
  rooted := A.rooted
  shown name := by
    rcases A.shown name with e | ⟨d, w, h1, h2, h3⟩
    · exact .inl e
    · exact .inr ⟨d, w, h1, h.seen _ h2, h3⟩
  inner t ht key d hf := h.inner _ (A.inner t ht key d hf)
  sure name o ho := A.sure name o (h.sure _ ho)

theorem Agrees.grown (A : Agrees u Γ k) {k' : DS} (f : Frame (fun t => k.w.maps.length ≤ t) k.w.maps k'.w.maps) {o o' : CtxObj}
    (h1 : k.w.ctxs.obj k.cur = some o) (h1' : k'.w.ctxs.obj k'.cur = some o') (hd : o'.dm = o.dm) (hp : ∀ p q d, o' ≠ .stackable p q d)
    (ht : k.types <+: k'.types) : Agrees u Γ k' := by
  obtain ⟨o1, t, g1, g2, g3⟩ := A.rooted
  rw [h1] at g1; cases g1
  have hlt : t < k.w.maps.length := target_lt g3
  have hget : ∀ name, k'.get u name = k.get u name := by
    intro name
    rw [rooted_get u h1' hp, rooted_get u h1 g2, hd]
    exact f.get u (target_lt' g3) (fun i hi => by have := layers_lt hi; omega) name
  refine ⟨⟨o', t, h1', hp, by rw [hd, f.tgt _ (target_lt' g3)]; exact g3⟩, fun name => ?_, fun t' ht' key d hf => ?_, fun name b hb => ?_⟩
  · rw [hget]; exact A.shown name
  · obtain ⟨o2, e1, e2⟩ := ht'
    rw [h1'] at e1; cases e1
    rw [hd, f.tgt _ (target_lt' g3), g3] at e2; cases e2
    have htb : tbl k'.w.maps t = tbl k.w.maps t := by
      have := f.obj t hlt (by omega)
      rcases target_obj g3 with e1 | ⟨p, e1⟩ <;> rw [e1] at this <;> rw [tbl_obj this] <;> rfl
    rw [htb] at hf
    exact A.inner t ⟨o, h1, g3⟩ _ _ hf
  · obtain ⟨d, e1, e2⟩ := A.sure name b hb
    exact ⟨d, by rw [hget]; exact e1, e2.mono ht⟩

theorem setUnitDm_maps (w : World Node) (i : Nat) (d : Option Nat) : (w.setUnitDm i d).maps = w.maps ∧ (w.setUnitDm i d).ctxs = w.ctxs := by
  unfold World.setUnitDm
  split <;> exact ⟨rfl, rfl⟩

theorem Agrees.finishIntf (A : Agrees u Γ k) (i : Nat) (ds : List (IntfDecl (Decl Node))) : Agrees u Γ (k.finishIntf u i ds) := by
  obtain ⟨o, t, g1, g2, g3⟩ := id A.rooted
  unfold DS.finishIntf World.finishIntf
  obtain ⟨e1, e2⟩ := setUnitDm_maps (k.w.newMap (.impl (World.intfTable u (ds.flatMap DS.declNodes) []))).1 i (some (k.w.newMap (.impl (World.intfTable u (ds.flatMap DS.declNodes) []))).2)
  refine A.grown (o := o) (o' := o) ?_ g1 ?_ rfl g2 List.prefix_rfl
  · simp only [e1]
    exact .cons _ _ _
  · simp only [e2]
    exact g1

/-- a scope opened in some context -/
theorem Agrees.stackAt (A : Agrees u Γ k) (cu : Nat) : Agrees u Γ (k.stackAt cu) := by
  by_cases c : cu = k.cur
  · subst c
    exact A.opened.le ⟨fun x hx => (nomatch hx), fun _ h => h, fun _ h => h⟩
  · obtain ⟨o, t, g1, g2, g3⟩ := id A.rooted
    unfold DS.stackAt World.stack
    cases e : k.w.dm cu with
    | none => exact A
    | some d =>
      refine A.grown (o := o) (o' := o) (.cons _ _ _) g1 ?_ rfl g2 List.prefix_rfl
      simp only [World.setDm, Ctxs.obj_modify, World.newMap]
      rw [if_neg (Ne.symm c)]
      exact g1

/-! ## Units -/

theorem current_ok {pred : Pred} {s : PS DS} {t : Token} (h : tokOf s.tail s.ts = some t) (hp : pred t = true) : P.current pred s = .ok t s :=
  current_run (by obtain ⟨x, y, z⟩ := s; exact h) hp
theorem next_ok {t : Token} {ts : List Token} (h : Nxt tl ts fun _ => True) : P.next (κ := DS) ⟨t :: ts, tl, k⟩ = .ok () ⟨ts, tl, k⟩ := by
  obtain ⟨t', g, -⟩ := h
  exact next_run (s := ⟨t :: ts, tl, k⟩) rfl ⟨t', g, trivial⟩

theorem agrees_unit (program path : Str) : Agrees u NameEnv.empty { ((DS.init program).newUnitContext 0 path).1 with cur := 1 } where
  rooted := ⟨.unit 0 path 2, 2, rfl, (fun _ _ _ => by simp), rfl⟩
  shown name := by
    left
    show World.get u ((DS.init program).newUnitContext 0 path).1.w 1 name = _
    rfl
  inner := by
    rintro t ⟨o, h1, h2⟩ key d hf
    cases h1
    cases h2
    cases hf
  sure _ _ h := by cases h

theorem unit_rets {w t s i m e d : Token} {x y z v q rest : List Token} {Γ2 Γ3 Γ4 : NameEnv} (h1 : IsKw u r!"UNIT" w) (h2 : t.typ = .ident)
    (h3 : IsSym r!";" s) (h4 : IsKw u r!"INTERFACE" i) (h5 : OkOptUses u Γ x Γ1) (h6 : OkIntf u Γ1 y Γ2) (h7 : IsKw u r!"IMPLEMENTATION" m)
    (h8 : OkOptUses u Γ2 z Γ3) (h9 : OkImpl u Γ3 v Γ4) (h10 : OkInitPart u Γ4 q) (h11 : IsKw u r!"END" e) (h12 : IsSym r!"." d)
    (A : Agrees u Γ k) (cu : Nat) :
    ∃ a k', a.head.ident = Ident.ofTok t ∧ Rets (parseUnit u cu) ⟨w :: t :: s :: i :: (x ++ (y ++ m :: (z ++ (v ++ (q ++ e :: d :: rest))))), tl, k⟩
      (some a) ⟨d :: rest, tl, k'⟩ := by
  have hb : Nxt tl (q ++ e :: d :: rest) (BodyWord u) := bodyWord_of h10 h11
  have hs : Nxt tl (v ++ (q ++ e :: d :: rest)) (BlockWord u) := impl_head h9 hb
  have hu : ∀ t, BlockWord u t → ¬ IsKw u r!"USES" t := by
    rintro t ⟨c, hc, h⟩
    exact kw_ne h (by rintro rfl; revert hc; decide)
  have hm : Nxt tl (m :: (z ++ (v ++ (q ++ e :: d :: rest)))) (IsKw u r!"IMPLEMENTATION") := .cons h7
  have hi : Nxt tl (y ++ m :: (z ++ (v ++ (q ++ e :: d :: rest)))) (BlockWord u) := intf_head h6 (.cons ⟨_, by decide, h7⟩)
  obtain ⟨a1, k1, A1, O1, ⟨q1, q1'⟩, R1⟩ := (acc_unitIdent (tl := tl) h1 h2 h3 (.cons trivial)).runs A
  obtain ⟨a2, k2, A2, O2, q2, R2⟩ := (acc_intfUses (tl := tl) h4 h5 (hi.mono hu)).runs A1
  obtain ⟨a3, k3, A3, O3, q3, R3⟩ := (acc_intf (tl := tl) h6 hm).runs A2
  have A4 := (A3.finishIntf a1.1.no a3).stackAt cu
  obtain ⟨a5, k5, A5, O5, q5, R5⟩ := (acc_optUses (tl := tl) h8 (hs.mono hu)).runs A4
  obtain ⟨Γ5, h13⟩ := acc_implAndEnd (tl := tl) (rest := rest) h9 h10 h11 h12
  obtain ⟨a6, k6, A6, O6, q6, R6⟩ := h13.runs A5
  refine ⟨⟨a1.1, a2, a3, a5, a6⟩, k6, q1, ?_⟩
  have hc : P.current (kw u r!"IMPLEMENTATION") ⟨m :: (z ++ (v ++ (q ++ e :: d :: rest))), tl, k3.finishIntf u a1.1.no a3⟩ =
      .ok m ⟨m :: (z ++ (v ++ (q ++ e :: d :: rest))), tl, k3.finishIntf u a1.1.no a3⟩ := current_ok rfl (kw_iff.2 h7)
  have hn : P.next ⟨m :: (z ++ (v ++ (q ++ e :: d :: rest))), tl, k3.finishIntf u a1.1.no a3⟩ =
      .ok () ⟨z ++ (v ++ (q ++ e :: d :: rest)), tl, k3.finishIntf u a1.1.no a3⟩ := next_ok (nxt_append hs.live)
  unfold parseUnit parseIdentAndUses parseIntfBody parseImplUses
  refine Rets.bind (a := (a1, a2)) (R1.bind (R2.bind (.one rfl))) (Rets.bind (a := a3) (R3.bind (Rets.then (a := ()) rfl (.one rfl))) (Rets.bind
    (Rets.then hc (Rets.then hn (Rets.then (a := ()) rfl R5))) (R6.bind (.one ?_))))
  simp only [q1', if_true]
  rfl

/-! ## Programs with uses clauses that name no file -/

theorem nextIs_ok {pred : Pred} {t t' : Token} {ts : List Token} (hp : pred t' = true) :
    P.nextIs (κ := DS) pred ⟨t :: t' :: ts, tl, k⟩ = .ok t' ⟨t' :: ts, tl, k⟩ := by
  unfold P.nextIs
  rw [bind_ok (next_ok (.cons trivial))]
  exact current_ok rfl hp

theorem Agrees.enterProgram (A : Agrees u Γ k) (i : Ident) :
    ∃ k', k.enterProgram u k.cur i [] [] = some k' ∧ Agrees u (Γ.opened.declareSpace u i.name) k' := by
  obtain ⟨o, t, g1, g2, g3⟩ := id A.rooted
  have hd : k.w.dm k.cur = some o.dm := World.dm_eq.2 ⟨o, g1, rfl⟩
  obtain ⟨m, hm, hf⟩ := tblSet_ok (u := u) (m := ([] : Tbl Node)) (ds := [⟨i.name, .program⟩]) (by simp) (by simp [Tbl.find])
  have hm1 : (Tbl.set u [] [⟨i.name, (.program : Node)⟩]).1 = m := by rw [hm]
  have hlt : o.dm < k.w.maps.length := target_lt' g3
  let o' := CtxObj.withDm (k.w.maps.length + 2) o
  let ms : Maps Node := .composite [k.w.maps.length + 1, k.w.maps.length, o.dm] :: .impl m :: .impl [] :: k.w.maps
  refine ⟨{ k with w := { k.w with maps := ms, ctxs := k.w.ctxs.modify (CtxObj.withDm (k.w.maps.length + 2)) k.cur }, program := some (k.w.maps.length + 1) }, ?_, ?_⟩
  · unfold DS.enterProgram
    rw [hd, hm1]
    rfl
  · have ho' : (k.w.ctxs.modify (CtxObj.withDm (k.w.maps.length + 2)) k.cur).obj k.cur = some o' := by
      rw [Ctxs.obj_modify, if_pos rfl, g1]; rfl
    have hp : ∀ p q d, o' ≠ .stackable p q d := withDm_plain _ g2
    have hdm : o'.dm = k.w.maps.length + 2 := Heap.withDm_dm _ _
    have htg : target ms (k.w.maps.length + 2) = some (k.w.maps.length + 1) := by simp [ms, target]
    have hget : ∀ name, ms.get u (k.w.maps.length + 2) name = (m.get u name).or (k.w.maps.get u o.dm name) := by
      intro name
      have e1 : ¬ o.dm = (k.w.maps : List (MapObj Node)).length + 1 := by omega
      have e2 : ¬ o.dm = (k.w.maps : List (MapObj Node)).length := by omega
      have e3 : (k.w.maps : List (MapObj Node)).length ≠ (k.w.maps : List (MapObj Node)).length + 1 := by omega
      simp only [ms, Maps.get, List.length_cons, if_true, List.findSome?_cons, List.findSome?_nil, e1, e2, e3, if_false]
      cases m.get u name with
      | some d => rfl
      | none =>
        simp only [Tbl.get, Tbl.find, Option.none_or]
        cases Maps.get u k.w.maps o.dm name <;> rfl
    have hold : ∀ name, k.get u name = k.w.maps.get u o.dm name := rooted_get u g1 g2
    have hnew : ∀ name, DS.get u { k with w := { k.w with maps := ms, ctxs := k.w.ctxs.modify (CtxObj.withDm (k.w.maps.length + 2)) k.cur }, program := some (k.w.maps.length + 1) } name =
        if u.toLower i.name = u.toLower name then some ⟨i.name, .program⟩ else k.get u name := by
      intro name
      rw [rooted_get u ho' hp, hdm, hold]
      show Maps.get u ms _ _ = _
      rw [hget, show m.get u name = _ from hf _]
      simp only [List.find?_cons, List.find?_nil, Tbl.find, Option.or_none]
      by_cases c : u.toLower i.name = u.toLower name
      · rw [if_pos c, show (u.toLower i.name == Tbl.regularize u name) = true from beq_iff_eq.2 c]; rfl
      · rw [if_neg c, show (u.toLower i.name == Tbl.regularize u name) = false from beq_eq_false_iff_ne.2 c]; rfl
    refine ⟨⟨o', _, ho', hp, by rw [hdm]; exact htg⟩, fun name => ?_, fun t' ht' key d hf' => ?_, fun name b hb => ?_⟩
    · rw [hnew]
      by_cases c : u.toLower i.name = u.toLower name
      · rw [if_pos c]
        exact .inr ⟨_, .space, rfl, by rw [← c]; exact List.mem_cons_self, .inr (.inr rfl)⟩
      · rw [if_neg c]
        rcases A.shown name with e | ⟨d, w, h1, h2, h3⟩
        · exact .inl e
        · exact .inr ⟨d, w, h1, List.mem_cons_of_mem _ h2, h3⟩
    · obtain ⟨o2, e1, e2⟩ := ht'
      have := ho'.symm.trans e1
      injection this with this
      subst this
      rw [hdm] at e2
      have := htg.symm.trans e2
      injection this with this
      subst this
      have htb : tbl ms (k.w.maps.length + 1) = m := by simp [ms, tbl]
      rw [show tbl _ (k.w.maps.length + 1) = m from htb, hf] at hf'
      simp only [List.find?_cons, List.find?_nil, Tbl.find, Option.or_none] at hf'
      by_cases c : u.toLower i.name = key
      · rw [← c]; exact List.mem_cons_self
      · rw [show (u.toLower i.name == key) = false from beq_eq_false_iff_ne.2 c] at hf'
        cases hf'
    · obtain ⟨h1, h2⟩ := List.mem_filter.1 hb
      obtain ⟨d, f1, f2⟩ := A.sure name b h1
      refine ⟨d, ?_, f2⟩
      rw [hnew, if_neg (fun c => of_decide_eq_true h2 c.symm)]
      exact f1

/-- a parser that stays in its context -/
def InCtx {α : Type} (p : P DS α) : Prop := ∀ s a s', p s = .ok a s' → s'.cx.cur = s.cx.cur

theorem InCtx.bind {p : P DS α} {f : α → P DS β} (h : InCtx p) (hf : ∀ a, InCtx (f a)) : InCtx (p >>= f) := by
  intro s b s' e
  change P.bind p f s = _ at e
  unfold P.bind at e
  split at e
  · rename_i a s1 e1
    rw [hf a s1 b s' e, h s a s1 e1]
  all_goals cases e

theorem InCtx.pure {a : α} : InCtx (Pure.pure a : P DS α) := by
  intro s b s' e
  cases e
  rfl

theorem InCtx.fail : InCtx (P.fail : P DS α) := fun _ _ _ e => by cases e
theorem InCtx.wait : InCtx (P.wait : P DS α) := fun _ _ _ e => by cases e

theorem InCtx.ofWp {p : P DS α} (h : ∀ s, wp p s (fun _ s' => s'.cx.cur = s.cx.cur) True True) : InCtx p := by
  intro s a s' e
  have := h s
  unfold wp at this
  rw [e] at this
  exact this

theorem InCtx.cur? : InCtx P.cur? := .ofWp fun _ => wp_cur? (fun _ _ => rfl) (fun _ _ => rfl) (fun _ => trivial)
theorem InCtx.cur : InCtx P.cur := .ofWp fun _ => wp_cur (fun _ _ => rfl) (fun _ => trivial) (fun _ => trivial)
theorem InCtx.next : InCtx P.next := .ofWp fun _ => wp_next rfl (fun _ => trivial)
theorem InCtx.is {pred : Pred} : InCtx (P.is pred) := InCtx.cur.bind fun _ => .pure
theorem InCtx.current {pred : Pred} : InCtx (P.current pred) := .ofWp fun _ => wp_current (fun _ _ _ => rfl) (fun _ => trivial)

theorem InCtx.usesItem : InCtx (parseUsesItem u) := by
  unfold parseUsesItem
  refine .bind .current fun _ => .bind .next fun _ => .bind .is fun b => ?_
  cases b
  · exact .pure
  · refine .bind .next fun _ => .bind ?_ fun _ => .pure
    unfold stringFactor
    refine .bind .cur fun t => ?_
    by_cases c : t.typ = .charString
    · simp only [c, if_true]; exact .bind .next fun _ => .pure
    · simp only [c, if_false]; exact .fail

theorem InCtx.usesItems : ∀ n, InCtx (parseUsesItems u n)
  | 0 => .wait
  | n + 1 => by
    rw [parseUsesItems]
    refine .bind .usesItem fun i => .bind .cur? fun t => ?_
    cases t with
    | none => exact .fail
    | some t =>
      by_cases c : sym r!";" t = true
      · simp only [c, if_true]; exact .pure
      · by_cases c' : sym r!"," t = true
        · simp only [c, c', if_true]; exact .bind .next fun _ => .bind (InCtx.usesItems n) fun _ => .pure
        · simp only [c, c']; exact .fail

theorem InCtx.declareUses : ∀ is, InCtx (TP.declareUses u is)
  | [] => .pure
  | (i, p) :: is => by
    rw [TP.declareUses]
    refine .bind (fun s a s' e => by cases e; rfl) fun no => .bind (fun s a s' e => ?_) fun _ => .bind (InCtx.declareUses is) fun _ => .pure
    unfold stepR DS.setUses DS.setR at e
    split at e
    · rename_i c e1
      cases e
      simp only at e1
      split at e1
      · cases e1; rfl
      all_goals cases e1
    all_goals cases e

theorem InCtx.uses (n : Nat) : InCtx (parseUses u n) := by
  unfold parseUses
  exact .bind .current fun _ => .bind .next fun _ => .bind (.usesItems n) fun _ => .declareUses _

theorem newLoaders_none {sep : Char} {cp : Nat} {s : PS DS} : ∀ {es : List UsesEntry}, (∀ e ∈ es, e.path = none) → newLoaders sep cp es s = .ok [] s
  | [], _ => rfl
  | e :: es, h => by
    rw [newLoaders]
    have : UsesItem.effectivePath sep e.path = [] := by rw [h e List.mem_cons_self]; rfl
    simp only [this, if_true]
    exact newLoaders_none fun e he => h e (List.mem_cons_of_mem _ he)

theorem using_rets {p t s w e d : Token} {x y rest : List Token} {sep : Char} {files : Str → FileR} {lib : TopoLib} {it : List UParser → List Str}
    (hlib : TopoCorrect lib) (hit : Props.IterOK u it) (h1 : IsKw u r!"PROGRAM" p) (h2 : t.typ = .ident) (h3 : IsSym r!";" s)
    (h4 : IsKw u r!"USES" w) (h5 : OkUses u Γ x Γ1) (h6 : IsSym r!";" e) (h7 : OkBlock u (Γ1.opened.declareSpace u t.raw) y Γ')
    (h8 : IsSym r!"." d) (A : Agrees u Γ k) :
    ∃ a k', a.ident = Ident.ofTok t ∧ a.units = [] ∧
      Rets (parseProgram u sep files lib it k.cur) ⟨p :: t :: s :: w :: (x ++ e :: (y ++ d :: rest)), tl, k⟩ a ⟨d :: rest, tl, k'⟩ := by
  have hh := block_head (tl := tl) (rest := d :: rest) h7
  obtain ⟨es, k1, A1, O1, q1, R1⟩ := (acc_uses (tl := tl) h4 h5 h6 (rest := y ++ d :: rest)).runs A
  have hc : k1.cur = k.cur := by
    obtain ⟨N, h⟩ := R1
    exact InCtx.uses N _ _ _ (h N (Nat.le_refl _))
  obtain ⟨k2, e2, A2⟩ := A1.enterProgram (Ident.ofTok t)
  obtain ⟨b, k3, A3, O3, q3, R3⟩ := (acc_block (tl := tl) h7 (rest := d :: rest) (.cons (sym_not_kw h8))).runs A2
  have hsort : UnitParsers.sort u lib (it []) [] = some [] := by
    obtain ⟨f1, f2⟩ := Props.C26_sort_partial u lib hlib [] (by unfold DistinctNames; simp) (it []) (hit [])
    cases e : UnitParsers.sort u lib (it []) [] with
    | none =>
      obtain ⟨a, ha⟩ := f2.1 e
      have : ∀ b, Relation.TransGen (Uses u []) a b → False := by
        intro b hb
        cases hb with
        | single h => exact absurd h.2.1 List.not_mem_nil
        | tail _ h => exact absurd h.2.1 List.not_mem_nil
      exact (this _ ha).elim
    | some r =>
      have := (f1 r e).1
      rw [List.perm_nil] at this
      rw [this]
  refine ⟨⟨Ident.ofTok t, es, [], b⟩, k3, rfl, rfl, ?_⟩
  unfold parseProgram parseProgramUses loadUnits
  refine Rets.then (current_ok rfl (kw_iff.2 h1)) (Rets.then (nextIs_ok (typT h2)) (Rets.then (nextIs_ok (symbol_iff.2 h3)) (Rets.then
    (next_ok (.cons trivial)) (Rets.bind (a := (es, [])) (Rets.then (a := true) ?_ (R1.bind (Rets.then (next_ok hh.live)
      (Rets.bind (a := []) (Rets.then (a := []) (newLoaders_none (noFiles_path q1)) (Rets.then (a := []) rfl ?_)) (.one rfl)))))
      (R3.bind (Rets.then (current_ok rfl (symbol_iff.2 h8)) (.one rfl)))))))
  · rw [is_run (t := w) rfl, kw_iff.2 h4]
  · have e0 : uparsers ([] : List Loader) = [] := rfl
    simp only [e0, hsort]
    refine Rets.then (a := []) rfl (Rets.then (a := []) rfl (Rets.then (a := ()) ?_ (.one rfl)))
    unfold enterP
    simp only [List.map_nil, DS.usesMap]
    rw [← hc, e2]

end TP
