import Verif.Lemmas.AccDecl
import Verif.Spec.AcceptUnits
import Verif.Props.C26
import Verif.Props.C27

/-!
# Programs with a uses clause are accepted
-/

namespace TP
open Spec
open Maps hiding get set

variable {u : Uni} {tl : Tail} {α β : Type} {Γ Γ' : NameEnv} {k : DS}

/-! ## Declarations of units -/

theorem new_one {name : Str} (h : Γ.New u [name]) : u.toLower name ∉ Γ.inner := h.2 _ List.mem_cons_self

theorem Agrees.declareSpace (h : Agrees u Γ k) {name : Str} {node : Node} (hw : HasWhat .space node) (hn : Γ.New u [name]) :
    ∃ w, k.w.set u k.cur [⟨name, node⟩] = (w, .ok) ∧ Agrees u (Γ.declareSpace u name) { k with w := w } ∧
      ∃ t m, Innermost k t ∧ w = { k.w with maps := upd k.w.maps t m } := by
  obtain ⟨o, t, h1, h2, h3, h4⟩ := h.table
  have hd : k.w.dm k.cur = some o.dm := World.dm_eq.2 ⟨o, h1, rfl⟩
  have hset := set_eq u k.w.maps o.dm [⟨name, node⟩]
  rw [h3] at hset
  simp only at hset
  obtain ⟨m, g1, g2⟩ := tblSet_ok (u := u) (m := tbl k.w.maps t) (ds := [⟨name, node⟩]) (by simp)
    (by
      intro d hd
      rw [List.mem_singleton] at hd
      subst hd
      exact h4 _ (new_one hn))
  rw [g1] at hset
  have ht : Innermost k t := ⟨o, h1, h3⟩
  refine ⟨{ k.w with maps := upd k.w.maps t m }, ?_, ?_, t, m, ht, rfl⟩
  · unfold World.set
    rw [hd]
    simp only
    rw [hset]
    rfl
  · obtain ⟨hr, hg⟩ := get_declared (ts := k.types) (ac := k.actual) h.rooted ht g2
    have found : ∀ key d, ([⟨name, node⟩] : List (Decl Node)).find? (fun d => u.toLower d.name == key) = some d →
        d = ⟨name, node⟩ ∧ key = u.toLower name := by
      intro key d hf
      have h1 := List.mem_of_find?_eq_some hf
      have h2 := List.find?_some hf
      rw [List.mem_singleton] at h1
      subst h1
      exact ⟨rfl, (beq_iff_eq.1 h2).symm⟩
    refine ⟨hr, fun nm => ?_, fun t' ht' key d hf => ?_, fun nm o ho => ?_⟩
    · rw [hg]
      cases c : ([⟨name, node⟩] : List (Decl Node)).find? fun d => u.toLower d.name == u.toLower nm with
      | some d =>
        obtain ⟨rfl, he⟩ := found _ _ c
        exact .inr ⟨_, .space, rfl, by rw [he]; exact List.mem_cons_self, hw⟩
      | none =>
        rw [Option.none_or]
        rcases h.shown nm with e | ⟨d, w, h1, h2, h3⟩
        · exact .inl e
        · exact .inr ⟨d, w, h1, List.mem_cons_of_mem _ h2, h3⟩
    · have := innermost_upd ht ht'
      subst this
      rw [show tbl _ t' = m from tbl_upd_inner ht m, g2] at hf
      cases c : ([⟨name, node⟩] : List (Decl Node)).find? fun d => u.toLower d.name == key with
      | some d' =>
        obtain ⟨-, rfl⟩ := found _ _ c
        exact List.mem_cons_self
      | none =>
        rw [c, Option.none_or] at hf
        exact List.mem_cons_of_mem _ (h.inner _ ht _ _ hf)
    · obtain ⟨h1, h2⟩ := List.mem_filter.1 ho
      obtain ⟨d, g1, g2⟩ := h.sure nm o h1
      refine ⟨d, ?_, g2.mono List.prefix_rfl⟩
      rw [hg]
      cases c : ([⟨name, node⟩] : List (Decl Node)).find? fun d => u.toLower d.name == u.toLower nm with
      | some d' =>
        obtain ⟨-, he⟩ := found _ _ c
        exact absurd he (of_decide_eq_true h2)
      | none => exact g1

/-! ## Uses clauses -/

theorem Acc.stepR {g : DS → SetR DS} {f : Nat → Unit → P DS β} {Γ1 : NameEnv} {ts ts' : List Token} {Q : β → DS → Prop}
    (h : ∀ k, Agrees u Γ k → ∃ k', g k = .ok k' ∧ Agrees u Γ1 k' ∧ Own k k')
    (hf : Acc u tl (fun n => f n ()) Γ1 ts Q Γ' ts') : Acc u tl (fun n => TP.stepR g >>= f n) Γ ts Q Γ' ts' := by
  refine Acc.op (fun s A => ?_) fun _ => hf
  obtain ⟨k', h1, h2, h3⟩ := h _ A
  refine ⟨(), k', ?_, h2, h3⟩
  unfold TP.stepR
  rw [h1]

theorem Acc.askP {γ : Type} {g : DS → γ} {f : Nat → γ → P DS β} {ts ts' : List Token} {Q : β → DS → Prop}
    (hf : ∀ a, Acc u tl (fun n => f n a) Γ ts Q Γ' ts') : Acc u tl (fun n => TP.askP g >>= f n) Γ ts Q Γ' ts' :=
  Acc.op (fun s A => ⟨_, s.cx, rfl, A, A.rooted.own⟩) hf

theorem Agrees.setUses (h : Agrees u Γ k) {i : Ident} (hn : Γ.New u [i.name]) :
    ∃ k', k.setUses u i = .ok k' ∧ Agrees u (Γ.declareSpace u i.name) k' ∧ Own k k' := by
  obtain ⟨w, h1, h2, -⟩ := h.declareSpace (node := .uses k.items.length) (.inl ⟨_, rfl⟩) hn
  have e : k.setUses u i = .ok { k with w := w, items := k.items ++ [none] } := by
    unfold DS.setUses DS.setR
    rw [h1]
  refine ⟨_, e, h2.same rfl rfl rfl, ?_⟩
  have := h.rooted.own.setUses u (fun _ _ => trivial) i
  rw [e] at this
  exact this

theorem value_string {s : Token} (h : s.typ = .charString) : s.value u = s.raw := by
  unfold Token.value
  rw [h]

/-- an item and what follows it -/
theorem acc_item {x : List Token} {nm : Str} {p : Option Str} (h : OkItem u x nm p) {c : Token} {cs' : Str} {rest ts' : List Token}
    {f : Nat → Ident × Option Str → P DS β} {Q : β → DS → Prop} (hs : IsSym cs' c)
    (hf : ∀ a : Ident × Option Str, (a.1.name, a.2) = (nm, p) → Acc u tl (fun n => f n a) Γ (c :: rest) Q Γ' ts') :
    Acc u tl (fun n => parseUsesItem u >>= f n) Γ (x ++ c :: rest) Q Γ' ts' := by
  cases h with
  | plain h1 =>
    simp only [parseUsesItem, P.bind_assoc, List.cons_append, List.nil_append]
    refine Acc.eat (typT h1) (.cons trivial) (Acc.isF (.cons (kwF (sym_not_kw hs))) ?_)
    simp only [Bool.false_eq_true, if_false]
    exact hf _ rfl
  | file h1 h2 h3 =>
    simp only [parseUsesItem, P.bind_assoc, List.cons_append, List.nil_append]
    refine Acc.eat (typT h1) (.cons trivial) (Acc.isT (.cons (kw_iff.2 h2)) ?_)
    simp only [if_true, P.bind_assoc]
    refine Acc.next (.cons trivial) ?_
    unfold stringFactor
    simp only [P.bind_assoc]
    refine Acc.cur rfl ?_
    simp only [h3, if_true, P.bind_assoc]
    exact Acc.next (.cons trivial) (hf _ (by rw [value_string h3]; rfl))

theorem acc_items {x : List Token} {is : List (Str × Option Str)} {s : Token} (h : OkItems u Γ x is Γ') (hs : IsSym r!";" s) {rest : List Token}
    (Γ0 : NameEnv) :
    Acc u tl (parseUsesItems u) Γ0 (x ++ s :: rest) (fun a _ => a.map (fun p => (p.1.name, p.2)) = is ∧ ∀ (tl : Tail) (ts : List Token),
      Acc u tl (fun _ => declareUses u a) Γ ts (fun es _ => es.map (fun e => (e.ident, e.path)) = a) Γ' ts) Γ0 (s :: rest) := by
  induction h with
  | @one Γ x nm p h1 h2 =>
    refine Acc.succ ?_
    simp only [parseUsesItems]
    refine acc_item h1 hs fun a ha => Acc.cur? rfl ?_
    simp only [symbol_iff.2 hs, if_true]
    refine Acc.pure fun _ => ⟨by simp only [List.map_cons, List.map_nil, ha], fun tl ts => ?_⟩
    obtain ⟨i, p'⟩ := a
    injection ha with ha1 ha2
    simp only [declareUses]
    refine Acc.askP fun no => Acc.stepR (fun k A => ?_) (Acc.pure fun _ => rfl)
    have := A.setUses (i := i) (by rw [show i.name = nm from ha1]; exact h2)
    rw [show i.name = nm from ha1] at this
    exact this
  | @cons Γ x nm p c y is Γ' h1 h2 h3 h4 ih =>
    refine Acc.succ ?_
    simp only [parseUsesItems, List.append_assoc, List.cons_append]
    refine acc_item h1 h3 fun a ha => Acc.cur? rfl ?_
    have hc : ¬ sym r!";" c = true := fun h => by
      have := (symbol_iff.1 h).2
      rw [h3.2] at this
      revert this; decide
    simp only [hc, symbol_iff.2 h3, if_true]
    refine Acc.next (nxt_snoc) (Acc.bind ih fun as has => ?_)
    obtain ⟨_, ha1, has⟩ := has
    refine Acc.pure fun _ => ⟨by simp only [List.map_cons, ha1, ha], fun tl ts => ?_⟩
    obtain ⟨i, p'⟩ := a
    injection ha with ha1 ha2
    simp only [declareUses]
    refine Acc.askP fun no => Acc.stepR (Γ1 := Γ.declareSpace u nm) (fun k A => ?_) (Acc.bind (has tl ts) fun es he => ?_)
    · have := A.setUses (i := i) (by rw [show i.name = nm from ha1]; exact h2)
      rw [show i.name = nm from ha1] at this
      exact this
    · obtain ⟨_, he⟩ := he
      exact Acc.pure fun _ => by rw [List.map_cons, he]

/-- names without files -/
abbrev noFiles (ns : List Str) : List (Str × Option Str) := ns.map fun n => (n, none)

theorem sym_not_ident {c : Str} {t : Token} (h : IsSym c t) : t.typ ≠ .ident := by rw [h.1]; decide

theorem okItems_of {x : List Token} (h : OkUses u Γ x Γ') : OkItems u Γ x (noFiles (usedNames x)) Γ' := by
  induction h with
  | @one Γ t h1 h2 =>
    have : usedNames [t] = [t.raw] := by simp [usedNames, h1]
    rw [this]
    exact .one (.plain h1) h2
  | @cons Γ t c ts Γ' h1 h2 h3 h4 ih =>
    have : usedNames (t :: c :: ts) = t.raw :: usedNames ts := by simp [usedNames, h1, sym_not_ident h3]
    rw [this]
    exact .cons (x := [t]) (.plain h1) h2 h3 ih

/-- The semicolon stays current. -/
theorem acc_usesOf {w s : Token} {x : List Token} {is : List (Str × Option Str)} (h1 : IsKw u r!"USES" w) (h2 : OkItems u Γ x is Γ')
    (hs : IsSym r!";" s) {rest : List Token} :
    Acc u tl (parseUses u) Γ (w :: (x ++ s :: rest)) (fun es _ => es.map (fun e => (e.ident.name, e.path)) = is) Γ' (s :: rest) := by
  unfold parseUses
  refine Acc.eatKw h1 nxt_snoc (Acc.bind (acc_items h2 hs Γ) fun a ha => ?_)
  obtain ⟨_, ha1, ha⟩ := ha
  refine (ha tl _).mono fun es _ he => ?_
  rw [← ha1, ← he, List.map_map]
  rfl

theorem acc_uses {w s : Token} {x : List Token} (h1 : IsKw u r!"USES" w) (h2 : OkUses u Γ x Γ') (hs : IsSym r!";" s) {rest : List Token} :
    Acc u tl (parseUses u) Γ (w :: (x ++ s :: rest)) (fun es _ => es.map (fun e => (e.ident.name, e.path)) = noFiles (usedNames x)) Γ'
      (s :: rest) := acc_usesOf h1 (okItems_of h2) hs

theorem noFiles_path {es : List UsesEntry} {ns : List Str} (h : es.map (fun e => (e.ident.name, e.path)) = noFiles ns) :
    ∀ e ∈ es, e.path = none := by
  intro e he
  have : (e.ident.name, e.path) ∈ noFiles ns := by rw [← h]; exact List.mem_map.2 ⟨e, he, rfl⟩
  obtain ⟨n, -, hn⟩ := List.mem_map.1 this
  injection hn with _ hn
  exact hn.symm

theorem noFiles_names {es : List UsesEntry} {ns : List Str} (h : es.map (fun e => (e.ident.name, e.path)) = noFiles ns) :
    es.map (fun e => e.ident.name) = ns := by
  have := congrArg (List.map Prod.fst) h
  rw [List.map_map, List.map_map] at this
  exact this.trans (List.map_id ns)

theorem acc_optUses {x : List Token} (h : OkOptUses u Γ x Γ') {rest : List Token} (hr : Nxt tl rest fun t => ¬ IsKw u r!"USES" t) :
    Acc u tl (parseOptUses u) Γ (x ++ rest) (fun es _ => es.map (fun e => (e.ident.name, e.path)) = noFiles (usedNames x)) Γ' rest := by
  unfold parseOptUses
  cases h with
  | none => exact Acc.isF (hr.mono fun _ h => kwF h) (Acc.pure fun _ => rfl)
  | @some w x e _ h1 h2 h3 =>
    have hn : usedNames (w :: (x ++ [e])) = usedNames x := by
      have : w.typ ≠ .ident := by rw [h1.1]; decide
      simp [usedNames, this, sym_not_ident h3]
    rw [hn]
    simp only [List.cons_append, List.append_assoc, List.nil_append]
    refine Acc.isT (.cons (kw_iff.2 h1)) (Acc.bind (acc_uses h1 h2 h3) fun es he => Acc.next hr.live (Acc.pure fun _ => he.choose_spec))

/-! ## Units -/

theorem Agrees.same' (h : Agrees u Γ k) {k' : DS} (hm : k'.w.maps = k.w.maps) (hx : k'.w.ctxs = k.w.ctxs) (hc : k'.cur = k.cur)
    (ht : k'.types = k.types) : Agrees u Γ k' where
  rooted := by unfold Rooted; rw [hm, hx, hc]; exact h.rooted
  shown name := by unfold DS.get World.get; rw [hm, hx, hc]; exact h.shown name
  inner t hi := by
    rw [hm]
    exact h.inner t (by unfold Innermost at hi ⊢; rw [hm, hx, hc] at hi; exact hi)
  sure name o ho := by
    obtain ⟨d, h1, h2⟩ := h.sure name o ho
    exact ⟨d, by unfold DS.get World.get; rw [hm, hx, hc]; exact h1, h2.mono (by rw [ht]; exact List.prefix_rfl)⟩

theorem unitDm_append (us : List UnitObj) (name : Str) (w : World Node) (j : Nat) (hu : w.units = us) :
    World.unitDm { w with units := us ++ [⟨name, none⟩] } j = w.unitDm j := by
  unfold World.unitDm
  rw [hu]
  simp only
  by_cases c : j < us.length
  · rw [List.getElem?_append_left c]
  · rw [List.getElem?_append_right (by omega), List.getElem?_eq_none (l := us) (by omega)]
    cases e : ([⟨name, none⟩] : List UnitObj)[j - us.length]? with
    | none => rfl
    | some o =>
      have := List.mem_of_getElem? e
      rw [List.mem_singleton] at this
      subst this
      rfl

theorem Agrees.newUnit (h : Agrees u Γ k) (i : Ident) : Agrees u Γ (k.newUnit i) ∧ Own k (k.newUnit i) := by
  refine ⟨h.same' rfl rfl rfl rfl, ?_⟩
  have o := h.rooted.own
  exact ⟨o.owns, o.cur, o.here, o.newS, o.newM, o.stored, o.frame, o.len, o.ctx, List.prefix_append _ _,
    fun j => unitDm_append _ _ _ _ rfl, o.items, o.program, o.types⟩

theorem acc_unitIdent {w t s : Token} {rest : List Token} (h1 : IsKw u r!"UNIT" w) (h2 : t.typ = .ident) (h3 : IsSym r!";" s)
    (hr : Nxt tl rest fun _ => True) :
    Acc u tl (fun _ => parseUnitIdent u) Γ (w :: t :: s :: rest) (fun a _ => a.1.ident = Ident.ofTok t ∧ a.2 = true) Γ rest := by
  unfold parseUnitIdent
  refine Acc.current rfl (kw_iff.2 h1) (Acc.nextIs (typT h2) (Acc.askP fun no => Acc.stepR (fun k A => ⟨_, rfl, A.newUnit _⟩)
    (Acc.next (.cons trivial) ?_)))
  have hd : Pred.directive u portabilityNames s = false := by
    unfold Pred.directive
    rw [h3.2, toUpper_asc (by decide)]
    decide
  simp only [P.bind_assoc]
  refine Acc.cur rfl ?_
  simp only [hd, Bool.false_eq_true, if_false]
  exact Acc.isT (.cons (symbol_iff.2 h3)) (Acc.next hr (Acc.pure fun _ => ⟨rfl, rfl⟩))

theorem acc_intfUses {i : Token} {x rest : List Token} (h1 : IsKw u r!"INTERFACE" i) (h2 : OkOptUses u Γ x Γ')
    (hr : Nxt tl rest fun t => ¬ IsKw u r!"USES" t) :
    Acc u tl (parseIntfUses u) Γ (i :: (x ++ rest)) (fun es _ => es.map (fun e => (e.ident.name, e.path)) = noFiles (usedNames x)) Γ' rest := by
  unfold parseIntfUses
  exact Acc.eatKw h1 (nxt_append hr) (acc_optUses h2 hr)

theorem intfSect_head {x : List Token} (h : OkIntfSect u Γ x Γ') : ∃ t y, x = t :: y ∧ BlockWord u t := by
  cases h with
  | const h => exact ⟨_, _, rfl, _, by decide, h⟩
  | type h => exact ⟨_, _, rfl, _, by decide, h⟩
  | var h => exact ⟨_, _, rfl, _, by decide, h⟩
  | threadVar h => exact ⟨_, _, rfl, _, by decide, h⟩
  | heading h =>
    obtain ⟨t, y, rfl, ht⟩ := heading_word h
    refine ⟨_, _, rfl, ?_⟩
    cases h with
    | @mk fn w _ _ _ _ h1 =>
      unfold IsRoutineWord at h1
      refine ⟨_, ?_, h1⟩
      cases fn <;> decide

theorem intf_head {x rest : List Token} (h : OkIntf u Γ x Γ') (hr : Nxt tl rest (BlockWord u)) : Nxt tl (x ++ rest) (BlockWord u) := by
  cases h with
  | nil => exact hr
  | cons h =>
    obtain ⟨t, y, rfl, ht⟩ := intfSect_head h
    exact .cons ht

theorem acc_intfWord {c : Str} {w : Token} {ts ts' : List Token} {Q : Option (IntfDecl (Decl Node)) → DS → Prop} (h : IsKw u c w)
    (hf : Acc u tl (fun n =>
      if c = r!"TYPE" then askP (fun k => k.types.length) >>= fun first => parseTypeSection u (declEnv u) n >>= fun ds =>
        pure (some (.type first ds))
      else if c = r!"VAR" then P.next >>= fun _ => parseVarDecls u (declEnv u) n >>= fun ds => pure (some (.var ds))
      else if c = r!"THREADVAR" then P.next >>= fun _ => parseThreadVarDecls u (declEnv u) n >>= fun ds => pure (some (.threadVar ds))
      else if c = r!"CONST" then P.next >>= fun _ => parseConstDecls u (declEnv u) n >>= fun ds => pure (some (.const ds))
      else if c = r!"FUNCTION" ∨ c = r!"PROCEDURE" then parseExportedHeading u (declEnv u) n >>= fun h =>
        pure (some (.heading h.1 h.2))
      else pure none) Γ ts Q Γ' ts') :
    Acc u tl (fun n => parseIntfDecl u n w) Γ ts Q Γ' ts' := by
  unfold parseIntfDecl
  rw [kw_value h]
  exact hf

/-- what a declaration of an interface makes visible elsewhere -/
def ShowsDecl (u : Uni) (Γ : NameEnv) (d : IntfDecl (Decl Node)) : Prop := ∀ l ∈ DS.declNodes d, ∀ x ∈ l,
  ∃ w, HasWhat w x.node ∧ u.toLower x.name ∈ Γ.inner ∧ (u.toLower x.name, w) ∈ Γ.seen

theorem ShowsDecl.larger {d : IntfDecl (Decl Node)} (h : ShowsDecl u Γ d) (g : Larger Γ Γ') : ShowsDecl u Γ' d := by
  intro l hl x hx
  obtain ⟨w, h1, h2, h3⟩ := h l hl x hx
  exact ⟨w, h1, g.inner _ h2, g.seen _ h3⟩

theorem showsDecl_const {ds : List (ConstDecl (Decl Node))} (h : ∀ d ∈ ds, Shows u Γ .other [d.ident.name]) : ShowsDecl u Γ (.const ds) := by
  intro l hl x hx
  obtain ⟨d, hd, rfl⟩ := List.mem_map.1 hl
  rw [List.mem_singleton] at hx
  subst hx
  exact ⟨.other, ⟨_, _, rfl, by decide⟩, h d hd _ List.mem_cons_self⟩

theorem showsDecl_type {first : Nat} {ds : List (TypeDecl (Decl Node))} (h : ∀ d ∈ ds, Shows u Γ .type [d.ident.name]) :
    ShowsDecl u Γ (.type first ds) := by
  intro l hl x hx
  obtain ⟨⟨d, j⟩, hd, rfl⟩ := List.mem_map.1 hl
  simp only [List.mem_singleton] at hx
  subst hx
  exact ⟨.type, ⟨_, rfl⟩, h d (List.fst_mem_of_mem_zipIdx hd) _ List.mem_cons_self⟩

theorem showsDecl_var {ds : List (VarDecl (Decl Node))} (h : ∀ d ∈ ds, Shows u Γ .other (d.idents.map Ident.name)) : ShowsDecl u Γ (.var ds) := by
  intro l hl x hx
  obtain ⟨d, hd, rfl⟩ := List.mem_map.1 hl
  obtain ⟨i, hi, rfl⟩ := List.mem_map.1 hx
  exact ⟨.other, ⟨_, _, rfl, by decide⟩, h d hd _ (List.mem_map_of_mem hi)⟩

theorem showsDecl_threadVar {ds : List (ThreadVarDecl (Decl Node))} (h : ∀ d ∈ ds, Shows u Γ .other (d.idents.map Ident.name)) :
    ShowsDecl u Γ (.threadVar ds) := by
  intro l hl x hx
  obtain ⟨d, hd, rfl⟩ := List.mem_map.1 hl
  obtain ⟨i, hi, rfl⟩ := List.mem_map.1 hx
  exact ⟨.other, ⟨_, _, rfl, by decide⟩, h d hd _ (List.mem_map_of_mem hi)⟩

theorem showsDecl_heading {h : Heading (Decl Node)} {o : RoutineOpts} (g : Shows u Γ .other [h.ident.name]) : ShowsDecl u Γ (.heading h o) := by
  intro l hl x hx
  simp only [DS.declNodes, List.mem_singleton] at hl
  subst hl
  rw [List.mem_singleton] at hx
  subst hx
  exact ⟨.other, ⟨_, _, rfl, by decide⟩, g _ List.mem_cons_self⟩

theorem acc_intfSect {t : Token} {y rest : List Token} (h : OkIntfSect u Γ (t :: y) Γ') (hr : Nxt tl rest (BlockWord u)) :
    Acc u tl (fun n => parseIntfDecl u n t) Γ (t :: y ++ rest) (fun a _ => ∃ d, a = some d ∧ ShowsDecl u Γ' d) Γ' rest := by
  have key : ∀ {x : List Token}, OkIntfSect u Γ x Γ' → x = t :: y →
      Acc u tl (fun n => parseIntfDecl u n t) Γ (x ++ rest) (fun a _ => ∃ d, a = some d ∧ ShowsDecl u Γ' d) Γ' rest := by
    intro x h ex
    cases h with
    | const h1 h2 =>
      injection ex with e1 e2
      subst e1 e2
      refine acc_intfWord h1 ?_
      exact Acc.next (nxt_append hr) (Acc.bind (acc_consts h2 hr) fun _ h => Acc.pure fun _ => ⟨_, rfl, showsDecl_const h.choose_spec⟩)
    | type h1 h2 =>
      injection ex with e1 e2
      subst e1 e2
      refine acc_intfWord h1 ?_
      refine Acc.askP fun first => ?_
      refine Acc.bind (Acc.withSection' (Acc.next (nxt_append hr) (acc_types h2 hr))) fun _ h => Acc.pure fun _ => ⟨_, rfl, ?_⟩
      exact showsDecl_type h.choose_spec.choose_spec
    | var h1 h2 =>
      injection ex with e1 e2
      subst e1 e2
      refine acc_intfWord h1 ?_
      exact Acc.next (nxt_append hr) (Acc.bind (acc_vars h2 hr) fun _ h => Acc.pure fun _ => ⟨_, rfl, showsDecl_var h.choose_spec⟩)
    | threadVar h1 h2 =>
      injection ex with e1 e2
      subst e1 e2
      refine acc_intfWord h1 ?_
      exact Acc.next (nxt_append hr) (Acc.bind (acc_threadVars h2 hr) fun _ h => Acc.pure fun _ => ⟨_, rfl, showsDecl_threadVar h.choose_spec⟩)
    | @heading x name Γ1 s d h1 h2 h3 h4 =>
      have hx : IsKw u r!"PROCEDURE" t ∨ IsKw u r!"FUNCTION" t := by
        cases h1 with
        | @mk fn w _ _ _ _ g =>
          injection ex with e1 e2
          subst e1
          unfold IsRoutineWord at g
          cases fn
          · exact .inl g
          · exact .inr g
      have hh := acc_funcHeading (tl := tl) (rest := s :: (d ++ rest)) h1 (.cons h2)
      have he : Acc u tl (parseExportedHeading u (declEnv u)) Γ (x ++ s :: (d ++ rest))
          (fun h _ => Shows u (Γ.closed (Γ1.declare u [name])) .other [h.1.ident.name]) (Γ.closed (Γ1.declare u [name])) rest := by
        unfold parseExportedHeading
        refine Acc.mono (Acc.stacked' (Q := fun h _ => Shows u (Γ.closed (Γ1.declare u [name])) .other [h.1.ident.name]) (Γ' := Γ1.declare u [name]) (ts' := rest)
          ?_) fun _ _ h => h.choose_spec
        refine (Acc.bind hh fun a ha => ?_)
        obtain ⟨_, fn, t, ps, r, rfl, rfl⟩ := ha
        refine Acc.current rfl (symbol_iff.2 h2) (Acc.setDecl (is := [Ident.ofTok t]) trivial h3 (Acc.next (nxt_append hr) ?_))
        exact Acc.bind (acc_routineOpts h4 hr) fun _ _ => Acc.pure fun _ => (Shows.declare _ _).closed
      have he' := Acc.bind (f := fun _ (h : Heading (Decl Node) × RoutineOpts) => pure (some (IntfDecl.heading h.1 h.2))) he fun _ h =>
        Acc.pure (Q := fun a _ => ∃ d', a = some d' ∧ ShowsDecl u (Γ.closed (Γ1.declare u [name])) d') fun _ => ⟨_, rfl, showsDecl_heading h.choose_spec⟩
      rw [List.append_assoc, List.cons_append]
      rcases hx with hw | hw
      · exact acc_intfWord hw he'
      · exact acc_intfWord hw he'
  exact key h rfl

theorem acc_intf {x rest : List Token} (h : OkIntf u Γ x Γ') (hr : Nxt tl rest (IsKw u r!"IMPLEMENTATION")) :
    Acc u tl (parseIntfDecls u) Γ (x ++ rest) (fun ds _ => ∀ d ∈ ds, ShowsDecl u Γ' d) Γ' rest := by
  have hw : Nxt tl rest (BlockWord u) := hr.mono fun _ h => ⟨_, by decide, h⟩
  induction h with
  | @nil Γ =>
    obtain ⟨t, e, ht⟩ := hr
    refine Acc.succ ?_
    simp only [parseIntfDecls]
    refine Acc.cur e ?_
    simp only [ht.1, reduceCtorEq, if_false, ne_eq, not_true]
    refine Acc.bind (Q := fun a _ => a = none) (Γ1 := Γ) (ts1 := rest) ?_ fun a ha => ?_
    · refine acc_intfWord ht ?_
      exact Acc.pure (Q := fun a _ => a = none) fun _ => rfl
    · obtain ⟨_, rfl⟩ := ha
      exact Acc.pure fun _ d hd => by cases hd
  | cons h1 h2 ih =>
    obtain ⟨t, y, rfl, c, hc, ht⟩ := intfSect_head h1
    refine Acc.succ ?_
    simp only [parseIntfDecls, List.append_assoc]
    refine Acc.cur rfl ?_
    simp only [ht.1, reduceCtorEq, if_false, ne_eq, not_true]
    refine Acc.bind (acc_intfSect h1 (intf_head h2 hw)) fun a ha => ?_
    obtain ⟨_, a, rfl, ha⟩ := ha
    refine Acc.bind ih fun ds hds => Acc.pure fun _ d hd => ?_
    obtain ⟨_, hds⟩ := hds
    rcases List.mem_cons.1 hd with rfl | hd
    · exact ha.larger (OkIntf.grows h2)
    · exact hds d hd

theorem term_init : Ends u (Pred.some [kw u r!"FINALIZATION", kw u r!"END"]) := by
  have h1 := term_kw (u := u) (c := r!"FINALIZATION") (by decide)
  have h2 := term_kw (u := u) (c := r!"END") (by decide)
  exact ⟨fun t h => (some_two.1 h).elim (h1.plain t) (h2.plain t), fun t h => (some_two.1 h).elim (h1.els t) (h2.els t),
    fun t h h' => (some_two.1 h').elim (h1.semi t h) (h2.semi t h), fun t h h' => (some_two.1 h').elim (h1.head t h) (h2.head t h)⟩

theorem acc_stmts {term : Pred} (T : Ends u term) {x rest : List Token} (h : OkStmts u Γ x Γ') (hr : Nxt tl rest fun t => term t = true) :
    Acc u tl (parseStmts u (SD u) term) Γ (x ++ rest) Any Γ' rest := by
  obtain ⟨hl, l, h⟩ := h
  refine Acc.go (lab := (declEnv u).isLabel) (fun _ hk => noLabels hl hk) fun k hk => ?_
  obtain ⟨l', k', g1, g2⟩ := elabStmts (W := x) l ⟨hk, hl.1⟩ (fun _ ht => ht) h
  exact ⟨l', k', g2.1, stmts_go (simBase u (lab := (declEnv u).isLabel) (fun _ _ => rfl) k tl) l' T g1 hr⟩

theorem initEnd_iff {t : Token} : Pred.some [kw u r!"FINALIZATION", kw u r!"END"] t = true ↔ IsKw u r!"FINALIZATION" t ∨ IsKw u r!"END" t := by
  rw [some_two, kw_iff, kw_iff]

theorem acc_unitEnd {x rest : List Token} {e d : Token} (h : OkInitPart u Γ x) (h1 : IsKw u r!"END" e) (h2 : IsSym r!"." d) :
    ∃ Γ', Acc u tl (parseUnitEnd u) Γ (x ++ e :: d :: rest) Any Γ' (d :: rest) := by
  have hend : ∀ {Γ : NameEnv} {a : Option (InitSection (Decl Node))},
      Acc u tl (fun _ => P.current (kw u r!"END") >>= fun _ => P.nextIs (sym r!".") >>= fun _ => pure a) Γ (e :: d :: rest) Any Γ (d :: rest) :=
    Acc.current rfl (kw_iff.2 h1) (Acc.nextIs (symbol_iff.2 h2) (Acc.pure fun _ => trivial))
  unfold parseUnitEnd
  cases h with
  | none =>
    refine ⟨Γ, ?_⟩
    simp only [P.bind_assoc]
    refine Acc.isF (.cons (kwF (kw_ne h1 (by decide)))) ?_
    simp only [Bool.false_eq_true, if_false]
    exact hend
  | @init w x Γ1 g1 g2 =>
    refine ⟨Γ1, ?_⟩
    simp only [P.bind_assoc, List.cons_append]
    refine Acc.isT (.cons (kw_iff.2 g1)) ?_
    simp only [if_true, P.bind_assoc]
    unfold parseInit
    simp only [P.bind_assoc]
    refine Acc.eatKw g1 nxt_snoc (Acc.bind (acc_stmts term_init g2 (.cons (initEnd_iff.2 (.inr h1)))) fun a _ => ?_)
    refine Acc.isF (.cons (kwF (kw_ne h1 (by decide)))) ?_
    simp only [Bool.false_eq_true, if_false]
    exact hend
  | @both w x Γ1 f y Γ2 g1 g2 g3 g4 =>
    refine ⟨Γ2, ?_⟩
    simp only [P.bind_assoc, List.cons_append, List.append_assoc]
    refine Acc.isT (.cons (kw_iff.2 g1)) ?_
    simp only [if_true, P.bind_assoc]
    unfold parseInit
    simp only [P.bind_assoc]
    refine Acc.eatKw g1 nxt_snoc (Acc.bind (acc_stmts term_init g2 (.cons (initEnd_iff.2 (.inl g3)))) fun a _ => ?_)
    refine Acc.isT (.cons (kw_iff.2 g3)) ?_
    simp only [if_true, P.bind_assoc]
    refine Acc.next nxt_snoc ?_
    refine Acc.bind (acc_stmts (term_kw (by decide)) g4 (.cons (kw_iff.2 h1))) fun a _ => ?_
    exact hend

theorem impl_head {x rest : List Token} (h : OkImpl u Γ x Γ') (hr : Nxt tl rest (BodyWord u)) : Nxt tl (x ++ rest) (BlockWord u) := by
  obtain ⟨h, h'⟩ := h
  rw [List.append_assoc]
  exact sects_head h ((exports_head h' (fun _ h => ⟨_, by decide, h⟩) hr).mono fun _ h => h.block)

theorem bodyWord_of {x rest : List Token} {e : Token} (h : OkInitPart u Γ x) (h1 : IsKw u r!"END" e) : Nxt tl (x ++ e :: rest) (BodyWord u) := by
  cases h with
  | none => exact .cons ⟨_, by decide, h1⟩
  | init g => exact .cons ⟨_, by decide, g⟩
  | both g => exact .cons ⟨_, by decide, g⟩

theorem acc_implAndEnd {v q rest : List Token} {e d : Token} (h : OkImpl u Γ v Γ1) (hq : OkInitPart u Γ1 q) (h1 : IsKw u r!"END" e)
    (h2 : IsSym r!"." d) : ∃ Γ', Acc u tl (parseImplAndEnd u) Γ (v ++ (q ++ e :: d :: rest)) Any Γ' (d :: rest) := by
  obtain ⟨Γ', hend⟩ := acc_unitEnd (tl := tl) (rest := rest) hq h1 h2
  refine ⟨Γ', ?_⟩
  have hb : Nxt tl (q ++ e :: d :: rest) (BodyWord u) := bodyWord_of hq h1
  have hx : Nxt tl (q ++ e :: d :: rest) fun t => ¬ IsKw u r!"EXPORTS" t := by
    cases hq with
    | none => exact .cons (kw_ne h1 (by decide))
    | init g => exact .cons (kw_ne g (by decide))
    | both g => exact .cons (kw_ne g (by decide))
  have hs : Nxt tl (q ++ e :: d :: rest) fun t => ¬ sym r!";" t = true := hb.mono fun t h => symF h.block.notSym
  unfold parseImplAndEnd parseImplBody
  simp only [P.bind_assoc]
  obtain ⟨h, h'⟩ := h
  rename_i v1 v2
  have hb' : Nxt tl (v2 ++ (q ++ e :: d :: rest)) (BodyWord u) := exports_head h' (fun _ h => ⟨_, by decide, h⟩) hb
  rw [List.append_assoc]
  refine Acc.bind (acc_sects h (hb'.mono fun _ h => h.block) hb') fun a _ => Acc.bind (acc_exports h' hx) fun _ _ => ?_
  unfold optSemi
  simp only [P.bind_assoc]
  refine Acc.isF hs ?_
  simp only [Bool.false_eq_true, if_false]
  exact Acc.bind (f := fun _ i => pure (UnitBody.mk a _ i)) hend fun _ _ => Acc.pure fun _ => trivial

end TP
