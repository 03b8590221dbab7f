import Verif.Lemmas.LedGoal
import Verif.Lemmas.TraceGoal
import Verif.Lemmas.PScope

/-!
# What a parser can reach

The maps and contexts of a state are divided: some maps can not be reached from the context of the parser, some are reached
but not written, some contexts belong to other parsers.  A parser leaves such a division as it is, and what it finds was in a
table that can be reached, or has been declared since.
-/

namespace TP
open Spec Maps

variable {u : Uni} {S : Dcl (Decl Node) → Prop} {T : List (PType (Decl Node))}

/-- a division of the maps and contexts -/
structure Zone where
  /-- maps that can not be reached -/
  far : Nat → Prop
  /-- maps that are not written -/
  fixed : Nat → Prop
  /-- contexts of other parsers -/
  away : Nat → Prop
  /-- the declarations that can be reached -/
  old : Decl Node → Prop

/-- the map of a namespace, `parser/unit.go:69-84` -/
def DS.nsMap (k : DS) (d : Decl Node) : Option Nat :=
  match d.node with
  | .uses i => (k.items[i]?).join.bind k.w.unitDm
  | .unit j => k.w.unitDm j
  | .program => k.program
  | _ => none

/-- no unit, program or item of a uses clause -/
def Node.single : Node → Prop
  | .uses _ => False
  | .unit _ => False
  | .program => False
  | _ => True

/-- what can be found: an old declaration, or a new one -/
def Zone.Sees (z : Zone) (S : Dcl (Decl Node) → Prop) (T : List (PType (Decl Node))) (d : Decl Node) : Prop := z.old d ∨ Leads S T d ∧ d.node.single

def CtxObj.plain : CtxObj → Prop
  | .stackable _ _ _ => False
  | _ => True

/-- the state `k` respects the division that was made in the state `k0` -/
structure Inside (z : Zone) (k0 : DS) (S : Dcl (Decl Node) → Prop) (T : List (PType (Decl Node))) (k : DS) : Prop where
  maps : ∀ j, ¬ z.far j → ∀ p ∈ tbl k.w.maps j, z.Sees S T p.2
  near : ∀ j, ¬ z.far j → ∀ i ∈ layers k.w.maps j, ¬ z.far i
  own : ∀ j, ¬ z.fixed j → ∀ t, target k.w.maps j = some t → ¬ z.fixed t
  sub : ∀ j, z.far j → z.fixed j
  ctxs : ∀ c o, ¬ z.away c → k.w.ctxs.obj c = some o → o.plain ∧ ¬ z.fixed o.dm
  cur : ¬ z.away k.cur
  types : k.types <+: T
  lenM : ∀ j, z.fixed j → j < k.w.maps.length
  lenC : ∀ c, z.away c → c < k.w.ctxs.length
  ns : ∀ d m, z.old d → k.nsMap d = some m → ¬ z.far m
  sameM : ∀ j, z.fixed j → k.w.maps.obj j = k0.w.maps.obj j
  sameC : ∀ c, z.away c → k.w.ctxs.obj c = k0.w.ctxs.obj c
  sameU : k.w.units = k0.w.units
  sameI : k.items = k0.items
  sameP : k.program = k0.program
  refs : ∀ i d, k0.refs.length ≤ i → k.refs[i]? = some (some d) → z.Sees S T d

namespace Zone.Sees
variable {z : Zone}

theorem mono {S' : Dcl (Decl Node) → Prop} {T' : List (PType (Decl Node))} (hS : ∀ x, S x → S' x) (hT : T <+: T') {d : Decl Node}
    (h : z.Sees S T d) : z.Sees S' T' d := h.imp_right fun h => ⟨h.1.mono hS hT, h.2⟩

theorem member {ms : Sects (Decl Node)} {d : Decl Node} (h : d ∈ everyMember (classMembers ms)) : d.node.single := by
  have : Leads (fun _ => False) [] d := leads_member h
  unfold Leads at this
  cases e : d.node <;> rw [e] at this <;> trivial

end Zone.Sees

theorem single_of_leads {d : Decl Node} (h : ∀ S T, Leads S T d) : d.node.single := by
  have := h (fun _ => False) []
  unfold Leads at this
  cases e : d.node <;> rw [e] at this <;> trivial

namespace Inside
variable {z : Zone} {k0 k : DS}

theorem mono {S' : Dcl (Decl Node) → Prop} {T' : List (PType (Decl Node))} (hS : ∀ x, S x → S' x) (hT : T <+: T') (h : Inside z k0 S T k) :
    Inside z k0 S' T' k :=
  { h with maps := fun j hj p hp => (h.maps j hj p hp).mono hS hT, types := h.types.trans hT, refs := fun i d hi e => (h.refs i d hi e).mono hS hT }

/-- nothing but the types and references changed -/
theorem same (h : Inside z k0 S T k) {k' : DS} (e1 : k'.w = k.w) (e2 : k'.cur = k.cur) (e3 : k'.types <+: T) (e4 : k'.items = k.items)
    (e5 : k'.program = k.program) (e6 : k'.refs = k.refs) : Inside z k0 S T k' where
  maps := by rw [e1]; exact h.maps
  near := by rw [e1]; exact h.near
  own := by rw [e1]; exact h.own
  sub := h.sub
  ctxs := by rw [e1]; exact h.ctxs
  cur := by rw [e2]; exact h.cur
  types := e3
  lenM := by rw [e1]; exact h.lenM
  lenC := by rw [e1]; exact h.lenC
  ns := by
    intro d m hd hm
    refine h.ns d m hd ?_
    unfold DS.nsMap at hm ⊢
    rw [e1, e4, e5] at hm
    exact hm
  sameM := by rw [e1]; exact h.sameM
  sameC := by rw [e1]; exact h.sameC
  sameU := by rw [e1]; exact h.sameU
  sameI := by rw [e4]; exact h.sameI
  sameP := by rw [e5]; exact h.sameP
  refs := by rw [e6]; exact h.refs

theorem mget (h : Inside z k0 S T k) {i : Nat} (hi : ¬ z.far i) {name : Str} {d : Decl Node} (e : k.w.maps.get u i name = some d) : z.Sees S T d := by
  rw [get_layers] at e
  obtain ⟨j, hl, hj⟩ := List.exists_of_findSome?_eq_some e
  unfold Spec.own at hj
  cases ho : k.w.maps.obj j with
  | none => rw [ho] at hj; cases hj
  | some o =>
    rw [ho] at hj
    have ht := tbl_obj ho
    have hj' := h.maps j (h.near i hi j hl)
    rw [ht] at hj'
    cases o with
    | impl m => exact hj' _ (find_mem hj)
    | chained p m => exact hj' _ (find_mem hj)
    | composite ms => cases hj
    | embedded =>
      have := find_mem (show (embTable u Node).find (u.toUpper name) = some d from hj)
      unfold embTable at this
      obtain ⟨kn, hk, he⟩ := List.mem_map.1 this
      injection he with h1 h2
      subst h2
      exact .inr ⟨⟨rfl, hk⟩, trivial⟩

theorem ctx_get {m : Maps Node} {name : Str} : ∀ {cs : Ctxs} {c : Nat} {o : CtxObj}, cs.obj c = some o → o.plain →
    Ctxs.get u m cs c name = m.get u o.dm name
  | [], _, _, e, _ => by cases e
  | a :: cs, c, o, e, hp => by
    unfold Ctxs.obj at e
    unfold Ctxs.get
    split at e
    · rename_i hc
      cases e
      rw [if_pos hc]
      cases a <;> first | rfl | exact hp.elim
    · rename_i hc
      rw [if_neg hc]
      exact ctx_get e hp

theorem ctx_none {m : Maps Node} {name : Str} : ∀ {cs : Ctxs} {c : Nat}, cs.obj c = none → Ctxs.get u m cs c name = none
  | [], _, _ => rfl
  | a :: cs, c, e => by
    unfold Ctxs.obj at e
    unfold Ctxs.get
    split at e
    · cases e
    · rename_i hc
      rw [if_neg hc]
      exact ctx_none e

theorem get (h : Inside z k0 S T k) {name : Str} {d : Decl Node} (e : k.get u name = some d) : z.Sees S T d := by
  unfold DS.get World.get at e
  cases ho : k.w.ctxs.obj k.cur with
  | none => rw [ctx_none ho] at e; cases e
  | some o =>
    obtain ⟨h1, h2⟩ := h.ctxs _ _ h.cur ho
    rw [ctx_get ho h1] at e
    exact h.mget (fun c => h2 (h.sub _ c)) e

theorem member (h : Inside z k0 S T k) {ns : Decl Node} {name : Str} {d : Decl Node} (hn : z.Sees S T ns) (e : k.member u ns name = .found d) :
    z.Sees S T d := by
  have key : ∀ dm, k.nsMap ns = dm → DS.inMap u k dm name = .found d → z.Sees S T d := by
    intro dm hd e
    unfold DS.inMap at e
    split at e
    · cases e
    · rename_i m
      split at e
      · rename_i h1
        cases e
        refine h.mget ?_ h1
        rcases hn with hn | hn
        · exact h.ns _ _ hn hd
        · unfold DS.nsMap at hd
          have := hn.2
          cases hx : ns.node <;> rw [hx] at this hd <;> first | exact this.elim | cases hd
      · cases e
  unfold DS.member at e
  unfold DS.nsMap at key
  split at e
  · rename_i i hi
    rw [hi] at key
    split at e
    · cases e
    · rename_i j hj
      refine key _ ?_ e
      simp only [hj]; rfl
  · rename_i j hj
    rw [hj] at key
    exact key _ rfl e
  · rename_i hj
    rw [hj] at key
    exact key _ rfl e
  · cases e

/-- a table that may be written changes -/
theorem upd (h : Inside z k0 S T k) {t : Nat} {m : Tbl Node} (ht : ¬ z.fixed t) (hm : ∀ p ∈ m, z.Sees S T p.2) {k' : DS}
    (e1 : k'.w = { k.w with maps := Maps.upd k.w.maps t m }) (e2 : k'.cur = k.cur) (e3 : k'.types <+: T) (e4 : k'.items = k.items)
    (e5 : k'.program = k.program) (e6 : k'.refs = k.refs) : Inside z k0 S T k' where
  maps := by
    rw [e1]
    intro j hj p hp
    change p ∈ tbl (Maps.upd k.w.maps t m) j at hp
    rw [tbl_upd] at hp
    split at hp
    · split at hp
      · exact hm p hp
      · exact hm p hp
      · cases hp
    · exact h.maps j hj p hp
  near := by
    rw [e1]
    intro j hj i hi
    change i ∈ layers (Maps.upd k.w.maps t m) j at hi
    rw [layers_upd] at hi
    exact h.near j hj i hi
  own := by
    rw [e1]
    intro j hj i hi
    change target (Maps.upd k.w.maps t m) j = some i at hi
    rw [target_upd] at hi
    exact h.own j hj i hi
  sub := h.sub
  ctxs := by rw [e1]; exact h.ctxs
  cur := by rw [e2]; exact h.cur
  types := e3
  lenM := by
    rw [e1]
    intro j hj
    show j < (Maps.upd k.w.maps t m).length
    rw [upd_length]
    exact h.lenM j hj
  lenC := by rw [e1]; exact h.lenC
  ns := by
    intro d m hd hm
    refine h.ns d m hd ?_
    unfold DS.nsMap at hm ⊢
    rw [e1, e4, e5] at hm
    exact hm
  sameM := by
    rw [e1]
    intro j hj
    show (Maps.upd k.w.maps t m).obj j = _
    rw [obj_upd, if_neg (fun c => ht (by rw [← c]; exact hj))]
    exact h.sameM j hj
  sameC := by rw [e1]; exact h.sameC
  sameU := by rw [e1]; exact h.sameU
  sameI := by rw [e4]; exact h.sameI
  sameP := by rw [e5]; exact h.sameP
  refs := by rw [e6]; exact h.refs

theorem rollback (h : Inside z k0 S T k) : Inside z k0 S T k.rollback := by
  unfold DS.rollback World.clone
  split
  · rename_i w c e
    split at e
    · cases e
    · rename_i o ho
      cases e
      have hc := h.ctxs _ _ h.cur ho
      refine { h with ctxs := ?_, cur := ?_, lenC := ?_, sameC := ?_ }
      · intro c o' hc' e
        change Ctxs.obj (o.clone :: k.w.ctxs) c = some o' at e
        unfold Ctxs.obj at e
        split at e
        · cases e
          cases o <;> first | exact hc.1.elim | exact ⟨trivial, hc.2⟩
        · exact h.ctxs c o' hc' e
      · exact fun hc => absurd (h.lenC _ hc) (Nat.lt_irrefl _)
      · exact fun c hc => Nat.lt_succ_of_lt (h.lenC c hc)
      · intro c hc
        show Ctxs.obj (o.clone :: k.w.ctxs) c = _
        rw [Ctxs.obj_cons_lt _ (h.lenC c hc)]
        exact h.sameC c hc
  · exact h

/-- the map of a context of this parser changes -/
theorem setDm (h : Inside z k0 S T k) {c d : Nat} (hc : ¬ z.away c) (hd : ¬ z.fixed d) : Inside z k0 S T { k with w := k.w.setDm c d } := by
  refine { h with ctxs := ?_, lenC := ?_, sameC := ?_ }
  · intro c' o' hc' e
    change Ctxs.obj (k.w.ctxs.modify _ c) c' = some o' at e
    rw [Ctxs.obj_modify] at e
    split at e
    · obtain ⟨o, ho, rfl⟩ := Option.map_eq_some_iff.1 e
      have := (h.ctxs _ _ hc' ho).1
      cases o <;> first | exact this.elim | exact ⟨trivial, hd⟩
    · exact h.ctxs _ _ hc' e
  · intro c' hc'
    show c' < (k.w.ctxs.modify _ c).length
    rw [Ctxs.length_modify]
    exact h.lenC c' hc'
  · intro c' hc'
    show Ctxs.obj (k.w.ctxs.modify _ c) c' = _
    rw [Ctxs.obj_modify, if_neg (fun e => hc (by rw [← e]; exact hc'))]
    exact h.sameC c' hc'

/-- a new map -/
theorem newMap (h : Inside z k0 S T k) {o : MapObj Node} (ho : ∀ p ∈ objTbl o, z.Sees S T p.2)
    (hl : ∀ i ∈ layers (o :: k.w.maps) k.w.maps.length, ¬ z.far i)
    (ht : ∀ t, target (o :: k.w.maps) k.w.maps.length = some t → ¬ z.fixed t) : Inside z k0 S T { k with w := (k.w.newMap o).1 } := by
  refine { h with maps := ?_, near := ?_, own := ?_, lenM := ?_, sameM := ?_ }
  · intro j hj p hp
    change p ∈ tbl (o :: k.w.maps) j at hp
    rw [tbl_cons] at hp
    split at hp
    · exact ho p hp
    · exact h.maps j hj p hp
  · intro j hj i hi
    change i ∈ layers (o :: k.w.maps) j at hi
    by_cases c : j = k.w.maps.length
    · subst c; exact hl i hi
    · unfold layers at hi
      rw [if_neg c] at hi
      exact h.near j hj i hi
  · intro j hj t e
    change target (o :: k.w.maps) j = some t at e
    by_cases c : j = k.w.maps.length
    · subst c; exact ht t e
    · unfold target at e
      rw [if_neg c] at e
      exact h.own j hj t e
  · exact fun j hj => Nat.lt_succ_of_lt (h.lenM j hj)
  · intro j hj
    show Maps.obj (o :: k.w.maps) j = _
    rw [obj_cons_lt' _ _ (h.lenM j hj)]
    exact h.sameM j hj

theorem last_free (h : Inside z k0 S T k) : ¬ z.fixed k.w.maps.length := fun hc => absurd (h.lenM _ hc) (Nat.lt_irrefl _)

theorem stack (h : Inside z k0 S T k) : Inside z k0 S T k.stack := by
  unfold DS.stack World.stack
  split
  · rename_i w c e
    split at e
    · cases e
    · rename_i d hd
      cases e
      unfold World.dm at hd
      obtain ⟨o, ho, rfl⟩ := Option.map_eq_some_iff.1 hd
      have hc := (h.ctxs _ _ h.cur ho).2
      refine (h.newMap (o := .chained o.dm []) (fun p hp => by cases hp) (fun i hi => ?_) (fun t e => ?_)).setDm h.cur h.last_free
      · unfold layers at hi
        rw [if_pos rfl] at hi
        rcases List.mem_cons.1 hi with rfl | hi
        · exact fun c => h.last_free (h.sub _ c)
        · exact h.near _ (fun c => hc (h.sub _ c)) i hi
      · unfold target at e
        rw [if_pos rfl] at e
        cases e
        exact h.last_free
  · exact h

theorem restore {k1 : DS} (h1 : Inside z k0 S T k1) (h : Inside z k0 S T k) : Inside z k0 S T (k1.restore k) := by
  unfold DS.restore
  split
  · rename_i d hd
    unfold World.dm at hd
    obtain ⟨o, ho, rfl⟩ := Option.map_eq_some_iff.1 hd
    exact h.setDm h1.cur (h1.ctxs _ _ h1.cur ho).2
  · exact h

/-- a declaration in the context of this parser -/
theorem setW (h : Inside z k0 S T k) {k1 k' : DS} {c : Nat} (hc : ¬ z.away c) {ds : List (Decl Node)} (hd : ∀ d ∈ ds, z.Sees S T d)
    (h1 : k1.types <+: T) (h2 : k1.cur = k.cur) (h3 : k1.items = k.items) (h4 : k1.program = k.program) (h5 : k1.refs = k.refs)
    (e : k1.setR (k.w.set u c ds) = .ok k') : Inside z k0 S T k' := by
  rw [setR_ok e]
  unfold World.set
  split
  · exact h.same rfl h2 h1 h3 h4 h5
  · rename_i d hd'
    unfold World.dm at hd'
    obtain ⟨o, ho, rfl⟩ := Option.map_eq_some_iff.1 hd'
    have hn := (h.ctxs _ _ hc ho).2
    have := set_eq u k.w.maps o.dm ds
    cases et : target k.w.maps o.dm with
    | none => rw [et] at this; exact h.same (by simp only [this.1]) h2 h1 h3 h4 h5
    | some t =>
      rw [et] at this
      have htf := h.own _ hn t et
      refine h.upd htf (m := ((tbl k.w.maps t).set u ds).1) (fun p hp => ?_) (by simp only [this]) h2 h1 h3 h4 h5
      rcases tblSet_mem u _ _ p hp with hp | ⟨hp, -⟩
      · exact h.maps t (fun c => htf (h.sub _ c)) p hp
      · exact hd _ hp

theorem set (h : Inside z k0 S T k) {is : List Ident} {kind : DKind (Decl Node)} {k' : DS} (ok : Led.okS S T k is kind) (e : k.set u is kind = .ok k') :
    Inside z k0 S T k' := by
  refine h.setW h.cur (fun d hd => .inr ?_) ok.2 (by cases kind <;> rfl) (by cases kind <;> rfl) (by cases kind <;> rfl) (by cases kind <;> rfl) e
  obtain ⟨i, hi, rfl⟩ := List.mem_map.1 hd
  have ok1 := ok.1
  cases kind with
  | type t => exact ⟨⟨t, Led.last ok.2, ok1 _ (List.mem_map.2 ⟨i, hi, rfl⟩)⟩, trivial⟩
  | _ => exact ⟨.inr (.inr ⟨rfl, ok1 _ (List.mem_map.2 ⟨i, hi, rfl⟩)⟩), trivial⟩

theorem complete (h : Inside z k0 S T k) {old : Decl Node} {i : Ident} {ty : PType (Decl Node)} {k' : DS} (ok : Led.okC S T k i ty)
    (e : k.complete u old i ty = .ok k') : Inside z k0 S T k' := by
  unfold DS.complete at e
  split at e
  · split at e
    · rw [setR_ok e]
      unfold World.overwrite
      split
      · exact h.same rfl rfl ok.2 rfl rfl rfl
      · rename_i d hd'
        unfold World.dm at hd'
        obtain ⟨o, ho, rfl⟩ := Option.map_eq_some_iff.1 hd'
        have hn := (h.ctxs _ _ h.cur ho).2
        have := overwrite_eq u k.w.maps o.dm i.name ⟨i.name, .type k.types.length⟩
        cases et : target k.w.maps o.dm with
        | none => rw [et] at this; exact h.same (by simp only [this]) rfl ok.2 rfl rfl rfl
        | some t =>
          rw [et] at this
          have htf := h.own _ hn t et
          refine h.upd htf (m := (tbl k.w.maps t).overwrite u i.name ⟨i.name, .type k.types.length⟩) (fun p hp => ?_) (by simp only [this]) rfl ok.2 rfl rfl rfl
          rcases List.mem_cons.1 hp with rfl | hp
          · exact .inr ⟨⟨_, Led.last ok.2, ok.1⟩, trivial⟩
          · exact h.maps t (fun c => htf (h.sub _ c)) p hp
    · cases e
  · cases e

theorem runRef (h : Inside z k0 S T k) (r : Nat × Str) : Inside z k0 S T (k.runRef u r) := by
  unfold DS.runRef
  split
  · rename_i d hd
    refine { h with refs := fun i d' hi e => ?_ }
    rw [List.getElem?_set] at e
    split at e
    · split at e
      · cases e; exact h.get hd
      · cases e
    · exact h.refs i d' hi e
  · exact h

theorem newRef (h : Inside z k0 S T k) (name : Str) : Inside z k0 S T (k.newRef name).1 := by
  refine { h with refs := fun i d hi e => ?_ }
  change (k.refs ++ [none])[i]? = _ at e
  rw [List.getElem?_append] at e
  split at e
  · exact h.refs i d hi e
  · rw [List.getElem?_singleton] at e
    split at e <;> cases e

theorem runSection (h : Inside z k0 S T k) : Inside z k0 S T (k.runSection u) := by
  unfold DS.runSection
  have : ∀ (l : List (Nat × Str)) (k : DS), Inside z k0 S T k → Inside z k0 S T (l.foldl (DS.runRef u) k) := by
    intro l
    induction l with
    | nil => exact fun k h => h
    | cons r l ih => exact fun k h => ih _ (h.runRef r)
  exact this _ _ h

end Inside

/-! ## The restricted parser against itself -/

/-- the replacement that marks whether the declaration can be found -/
def markSeen (z : Zone) (S : Dcl (Decl Node) → Prop) (T : List (PType (Decl Node))) : Spec.Tr (Decl Node) (Decl Node × Prop) :=
  ⟨fun _ d => (d, z.Sees S T d), id, id, id⟩

theorem markSeen_unmark {z : Zone} : (markSeen z S T).then unmark = Spec.Tr.one := rfl

def BothInside (z : Zone) (k0 : DS) (S : Dcl (Decl Node) → Prop) (T : List (PType (Decl Node))) (k l : DS) : Prop := k = l ∧ Inside z k0 S T k

theorem markedSeen {z : Zone} {f : Spec.Tr (Decl Node) (Decl Node × Prop) → Refs (Decl Node × Prop)} {l : Refs (Decl Node)}
    (h : ∀ m, f m = l.map m.pair) (e : f markAll = f (markSeen z S T)) : ∀ p ∈ l, z.Sees S T p.2 := by
  rw [h, h] at e
  intro p hp
  have := List.map_inj_left.1 e p hp
  have : True = z.Sees S T p.2 := congrArg (fun x => x.2.2) this
  exact this ▸ trivial

namespace SeenSim
variable {z : Zone} {k0 : DS}
local notation "m₁" => markAll
local notation "m₂" => markSeen z S T

theorem sameD_eq {d e : Decl Node} (h : SameD m₁ m₂ d e) : d = e ∧ z.Sees S T e := by
  obtain ⟨i, j, h⟩ := h
  refine ⟨congrArg Prod.fst h, ?_⟩
  have : True = z.Sees S T e := congrArg Prod.snd h
  exact this ▸ trivial

theorem ptype_unmark {x y : PType (Decl Node)} (h : x.tr m₁ = y.tr m₂) : x = y := by
  have := congrArg (PType.tr unmark) h
  rwa [PType.tr_tr, PType.tr_tr, markAll_unmark, markSeen_unmark, PType.tr_one, PType.tr_one] at this

theorem sects_unmark {x y : Sects (Decl Node)} (h : x.tr m₁ = y.tr m₂) : x = y := by
  have := congrArg (Sects.tr unmark) h
  rwa [Sects.tr_tr, Sects.tr_tr, markAll_unmark, markSeen_unmark, Sects.tr_one, Sects.tr_one] at this

theorem prop_unmark {x y : ClassProp (Decl Node)} (h : x.tr m₁ = y.tr m₂) : x = y := by
  have := congrArg (ClassProp.tr unmark) h
  rwa [ClassProp.tr_tr, ClassProp.tr_tr, markAll_unmark, markSeen_unmark, ClassProp.tr_one, ClassProp.tr_one] at this

theorem kind_unmark {x y : DKind (Decl Node)} (h : x.tr m₁ = y.tr m₂) : x = y := by
  have := congrArg (DKind.tr unmark) h
  rwa [DKind.tr_tr, DKind.tr_tr, markAll_unmark, markSeen_unmark, DKind.tr_one, DKind.tr_one] at this

theorem heritage_unmark {x y : List (TypeId (Decl Node))} (h : x.map (TypeId.tr m₁) = y.map (TypeId.tr m₂)) : x = y := by
  have := congrArg (List.map (TypeId.tr unmark)) h
  rwa [map_then TypeId.tr_tr, map_then TypeId.tr_tr, markAll_unmark, markSeen_unmark, map_fun_id TypeId.tr_one, map_fun_id TypeId.tr_one] at this

theorem declR_self {a : Str} {d : Decl Node} (h : z.Sees S T d) : DeclR u Eq m₁ m₂ a a d d := by
  have : True = z.Sees S T d := propext ⟨fun _ => h, fun _ => trivial⟩
  refine ⟨⟨⟨d.name, ⟨0, 0, 0⟩, ⟨0, 0, 0⟩⟩, ⟨d.name, ⟨0, 0, 0⟩, ⟨0, 0, 0⟩⟩, ?_⟩, fun t t' _ h1 h2 => ?_⟩
  · exact congrArg (Prod.mk d) this
  · exact congrArg (Prod.mk d) this

theorem opt_self {a : Str} {r : Option (Decl Node)} (h : ∀ d, r = some d → z.Sees S T d) :
    Option.Rel (DeclR u Eq m₁ m₂ a a) r r := by
  cases r with
  | none => exact .none
  | some d => exact .some (declR_self (h d rfl))

theorem find_self {a : Str} {r : FindR (Decl Node)} (h : ∀ d, r = .found d → ∀ S T, Leads S T d) :
    FindRR u Eq m₁ m₂ a a r r := by
  cases r with
  | found d => exact declR_self (.inr ⟨h d rfl S T, single_of_leads (h d rfl)⟩)
  | none => trivial
  | hang => trivial

theorem setRR_self {r : SetR DS} (h : ∀ k, r = .ok k → Inside z k0 S T k) : SetRR (BothInside z k0 S T) r r := by
  cases r with
  | ok k => exact ⟨rfl, h k rfl⟩
  | err => trivial
  | panic => trivial

theorem sim (u : Uni) (z : Zone) (k0 : DS) (S : Dcl (Decl Node) → Prop) (T : List (PType (Decl Node))) :
    DSim u Eq markAll (markSeen z S T) (BothInside z k0 S T) (ledEnv u S T) (ledEnv u S T) where
  get := by
    rintro k _ a _ ⟨rfl, h⟩ rfl
    exact opt_self fun d e => h.get e
  isType h := by rw [(sameD_eq h).1]
  isNamespace h := by rw [(sameD_eq h).1]
  isUses h := by rw [(sameD_eq h).1]
  member := by
    rintro k _ d e a _ ⟨rfl, h⟩ hd rfl
    obtain ⟨rfl, hd⟩ := sameD_eq hd
    cases e : (ledEnv u S T).member k d a with
    | found x => exact declR_self (h.member hd e)
    | error => trivial
    | panic => trivial
  rollback := by
    rintro k _ ⟨rfl, h⟩
    exact ⟨rfl, h.rollback⟩
  refl _ := rfl
  name := by rintro i j h; exact congrArg Ident.name h
  str := rfl
  isLabel h := by rw [(sameD_eq h).1]
  emb := by
    rintro k a _ rfl
    exact opt_self fun d e => .inr ⟨leads_emb e, single_of_leads fun _ _ => leads_emb e⟩
  set := by
    rintro k _ is js a b ⟨rfl, h⟩ h1 h2
    cases kind_unmark h2
    cases (by simpa [markAll, markSeen] using h1 : is = js)
    refine setRR_self fun k' e => ?_
    unfold ledEnv DEnv.restrict at e
    simp only at e
    split at e
    · rename_i c; exact h.set c e
    · cases e
  complete := by
    rintro k _ d e i j x y ⟨rfl, h⟩ h1 h2 h3
    cases (sameD_eq h1).1
    cases ptype_unmark h3
    cases (show i = j from h2)
    refine setRR_self fun k' e => ?_
    unfold ledEnv DEnv.restrict at e
    simp only at e
    split at e
    · rename_i c; exact h.complete c e
    · cases e
  stack := by
    rintro k _ ⟨rfl, h⟩
    exact ⟨rfl, h.stack⟩
  restore := by
    rintro k1 _ k _ ⟨rfl, h1⟩ ⟨rfl, h⟩
    exact ⟨rfl, h1.restore h⟩
  newRef := by
    rintro k _ a _ ⟨rfl, h⟩ rfl
    exact ⟨⟨rfl, h.newRef a⟩, rfl⟩
  openSection := by
    rintro k _ ⟨rfl, h⟩
    exact ⟨rfl, h.same rfl rfl h.types rfl rfl rfl⟩
  runSection := by
    rintro k _ ⟨rfl, h⟩
    exact ⟨rfl, h.runSection⟩
  closeSection := by
    rintro k0 _ k _ ⟨rfl, _⟩ ⟨rfl, h⟩
    exact ⟨rfl, h.same rfl rfl h.types rfl rfl rfl⟩
  ordinal := by
    rintro k _ x y ⟨rfl, h⟩ h1
    rw [ptype_unmark h1]
  findMember := by
    rintro k _ h h' x y a _ ⟨rfl, _⟩ h1 h2 rfl
    cases heritage_unmark h1
    cases sects_unmark h2
    exact find_self fun d e _ _ => leads_findMember e
  findProp := by
    rintro k _ h h' x y a _ ⟨rfl, _⟩ h1 h2 rfl
    cases heritage_unmark h1
    cases sects_unmark h2
    exact find_self fun d e _ _ => leads_findProp e
  inherits := by
    rintro k _ p q d e ⟨rfl, _⟩ h1 h2
    cases (sameD_eq h2).1
    cases prop_unmark h1
    rfl

theorem tokR_self (t : Token) : TokR u Eq m₁ m₂ t t := ⟨rfl, fun _ _ => .rfl, rfl, rfl, fun _ => rfl, fun _ => rfl, rfl, rfl, rfl, rfl⟩

theorem strR_self (tl : Tail) : ∀ ts : List Token, StrR u Eq m₁ m₂ False ts tl ts tl
  | [] => .nil (by cases tl <;> first | trivial | exact tokR_self _)
  | _ :: ts => .cons (tokR_self _) (strR_self tl ts)

/-- what a run returns, if it returns -/
theorem out {α : Type} {A : α → α → Prop} {p : P DS α} (h : PR u Eq markAll (markSeen z S T) False (BothInside z k0 S T) A p p) {s s' : PS DS} {a : α}
    (hs : Inside z k0 S T s.cx) (e : p s = .ok a s') : A a a ∧ Inside z k0 S T s'.cx := by
  have := h s s ⟨strR_self _ _, rfl, hs⟩
  rw [e] at this
  exact ⟨this.1, this.2.cx.2⟩

end SeenSim

/-! ## Parsers below units and programs -/

theorem inside_self {α : Type} {f : α → List (Dcl (Decl Node))} {p : P DS α} {q : (Dcl (Decl Node) → Prop) → List (PType (Decl Node)) → P DS α}
    {A : Zone → (Dcl (Decl Node) → Prop) → List (PType (Decl Node)) → α → α → Prop}
    (hr : ∀ S T, Re S (fun k : DS => k.types <+: T) [] p (q S T) f)
    (hq : ∀ z k0 S T, PR u Eq markAll (markSeen z S T) False (BothInside z k0 S T) (A z S T) (q S T) (q S T))
    {z : Zone} {L : List (Dcl (Decl Node))} {s s' : PS DS} {k0 : DS} {a : α} (hs : Inside z k0 (· ∈ L) s.cx.types s.cx) (e : p s = .ok a s') :
    A z (· ∈ f a ++ L) s'.cx.types a a ∧ Inside z k0 (· ∈ f a ++ L) s'.cx.types s'.cx ∧ s.cx.types <+: s'.cx.types := by
  obtain ⟨-, h1, h2⟩ := hr (· ∈ f a ++ L) s'.cx.types s a s' e (fun x hx => List.mem_append_left _ hx) List.prefix_rfl
  obtain ⟨h3, h4⟩ := SeenSim.out (hq z k0 (· ∈ f a ++ L) s'.cx.types) (hs.mono (fun x hx => List.mem_append_right _ hx) h1) h2
  exact ⟨h3, h4, h1⟩

/-- what a block refers to can be found -/
theorem inside_block {z : Zone} {L : List (Dcl (Decl Node))} {n : Nat} {s s' : PS DS} {k0 : DS} {b : Block (Decl Node)}
    (hs : Inside z k0 (· ∈ L) s.cx.types s.cx) (e : parseBlock u (declEnv u) n s = .ok b s') :
    (∀ r ∈ b.refs, z.Sees (· ∈ dclBlock b ++ L) s'.cx.types r.2) ∧ Inside z k0 (· ∈ dclBlock b ++ L) s'.cx.types s'.cx := by
  obtain ⟨h1, h2, -⟩ := inside_self (u := u) (fun S T => (blocksRe (ledBase u S T) n).block)
    (fun z k0 S T => (blockR (SeenSim.sim u z k0 S T) (Nat.le_refl n)).block) hs e
  exact ⟨markedSeen (fun _ => Block.refs_tr _) (congrArg Block.refs h1), h2⟩

/-! ## References that are set later are new -/

/-- a reference set later has one of the numbers from `n` on -/
def NewLater (n : Nat) (_ : DS) (t : TypeId (Decl Node)) : Prop := ∀ i, t.ref = .later i → n ≤ i

def MoreRefs (a b : DS) : Prop := a.refs.length ≤ b.refs.length

theorem runSection_refs (k : DS) : (k.runSection u).refs.length = k.refs.length := by
  unfold DS.runSection
  have : ∀ (l : List (Nat × Str)) (k : DS), (l.foldl (DS.runRef u) k).refs.length = k.refs.length := by
    intro l
    induction l with
    | nil => exact fun k => rfl
    | cons r l ih =>
      intro k
      rw [List.foldl_cons, ih]
      unfold DS.runRef
      split
      · exact List.length_set
      · rfl
  exact this _ _

theorem newLaterBase (n0 : Nat) : TrBase u (declEnv u) (fun k => n0 ≤ k.refs.length) MoreRefs (NewLater n0) where
  refl _ := Nat.le_refl _
  trans := Nat.le_trans
  up _ h := h
  roll {c} h := by
    have := (rollback_refs c).1
    exact ⟨by show _ ≤ c.rollback.refs.length; rw [this]; exact h, by show _ ≤ c.rollback.refs.length; rw [this]⟩
  set _ h e := by
    have := (set_refs e).1
    exact ⟨by rw [this]; exact h, by unfold MoreRefs; rw [this]⟩
  newRef {c t} h _ := by
    have : ((declEnv u).newRef c t.raw).1.refs.length = c.refs.length + 1 := List.length_append
    exact ⟨by rw [this]; omega, by unfold MoreRefs; rw [this]; omega, fun i hi => by cases hi; exact h⟩
  now _ _ := fun i hi => by cases hi
  emb _ _ := fun i hi => by cases hi
  qual _ := fun i hi => by cases hi
  stack {c} h := by
    have := (stack_refs c).1
    exact ⟨by show _ ≤ c.stack.refs.length; rw [this]; exact h, fun t h => h⟩
  restore {c c'} _ h' g := by
    have h1 := (restore_refs c c').1
    have h2 := (stack_refs c).1
    refine ⟨by show _ ≤ (c.restore c').refs.length; rw [h1]; exact h', ?_, fun t h => h⟩
    show c.refs.length ≤ (c.restore c').refs.length
    rw [h1, ← h2]
    exact g

theorem newLaterDecl (n0 : Nat) : TrDecl u (declEnv u) (fun k => n0 ≤ k.refs.length) MoreRefs (NewLater n0) where
  toTrBase := newLaterBase n0
  setAll _ h e := by
    have := (set_refs e).1
    exact ⟨by rw [this]; exact h, by unfold MoreRefs; rw [this]⟩
  sect n := by
    intro s hi _ ds s' e
    obtain ⟨k, h1, h2, h3⟩ := typeSection_ok e
    obtain ⟨hk, hn⟩ := occurs_new rfl h1
    have hl : s.cx.refs.length ≤ s'.cx.refs.length := by
      rw [h3]
      show _ ≤ (k.runSection u).refs.length
      rw [runSection_refs]
      by_contra hc
      have hc := Nat.lt_of_not_le hc
      have := (List.getElem?_eq_some_iff.1 (hk _ _ (List.getElem?_eq_getElem hc))).1
      exact Nat.lt_irrefl _ this
    refine ⟨Nat.le_trans hi hl, hl, fun t ht i hti => ?_⟩
    rcases h2 t ht with ⟨-, h⟩ | ⟨_, _, _, _, h⟩ | ⟨_, _, _, _, _, h⟩ | ⟨_, j, _, _, h, hj⟩
    · rw [hti] at h; cases h
    · rw [hti] at h; cases h
    · rw [hti] at h; cases h
    · rw [hti] at h
      cases h
      exact Nat.le_trans hi (List.getElem?_eq_none_iff.1 (hn _ hj))

/-- what a block refers to later can be found -/
theorem inside_later {z : Zone} {L : List (Dcl (Decl Node))} {n : Nat} {s s' : PS DS} {b : Block (Decl Node)}
    (hs : Inside z s.cx (· ∈ L) s.cx.types s.cx) (e : parseBlock u (declEnv u) n s = .ok b s') :
    ∀ r ∈ laterRefs s'.cx (idsBlock b), z.Sees (· ∈ dclBlock b ++ L) s'.cx.types r.2 := by
  have h := (inside_block hs e).2
  intro r hr
  obtain ⟨t, ht, hr⟩ := List.mem_flatMap.1 hr
  have hl := ((blocksTr (newLaterDecl (u := u) s.cx.refs.length) n).block s (Nat.le_refl _) (fun _ h => by cases h) b s' e).2.2 t ht
  cases e1 : t.ref with
  | none => rw [e1] at hr; cases hr
  | now d => rw [e1] at hr; cases hr
  | later i =>
    rw [e1] at hr
    simp only [DS.ref] at hr
    obtain ⟨d, hd, rfl⟩ := List.mem_map.1 hr
    refine h.refs i d (hl i e1) ?_
    rw [Option.mem_toList] at hd
    cases e' : s'.cx.refs[i]? with
    | none => rw [e'] at hd; cases hd
    | some x => rw [e'] at hd; cases hd; rfl

end TP
