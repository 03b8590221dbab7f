import Verif.Lemmas.RelDS

/-!
# Two runs of the parser of units and programs side by side
-/

namespace TP
open Spec

variable {u : Uni} {c : Spell} {w : Prop} (G : c.Good u)

/-! ## Operations -/

include G in
theorem DS.setUses_sp (k : DS) (i : Ident) : (k.sp c).setUses u (c.id i) = (k.setUses u i).sp c := by
  unfold DS.setUses
  show DS.setR _ ((k.w.sp c).set u k.cur ([⟨i.name, .uses k.items.length⟩].map c.decl)) = _
  rw [World.set_sp G, ← DS.setR_sp]
  rfl

theorem DS.newUnit_sp (k : DS) (i : Ident) : (k.sp c).newUnit (c.id i) = (k.newUnit i).sp c := by
  unfold DS.newUnit
  simp only [DS.sp, World.sp, List.map_append, List.map_cons, List.map_nil]
  rfl

theorem map_decl_idents (t : Tag) (is : List Ident) :
    ((is.map c.id).map fun i => (⟨i.name, .decl t i⟩ : Decl Node)) = (is.map fun i => (⟨i.name, .decl t i⟩ : Decl Node)).map c.decl := by
  rw [List.map_map, List.map_map]
  exact List.map_congr_left fun i _ => rfl

theorem zipIdx_types (first : Nat) (ds : List (TypeDecl (Decl Node))) :
    ((ds.map (TypeDecl.tr c.tr)).zipIdx.map fun (x : TypeDecl (Decl Node) × Nat) => [(⟨x.1.ident.name, Node.type (first + x.2)⟩ : Decl Node)]) =
      (ds.zipIdx.map fun (x : TypeDecl (Decl Node) × Nat) => [(⟨x.1.ident.name, Node.type (first + x.2)⟩ : Decl Node)]).map (List.map c.decl) := by
  rw [List.zipIdx_map, List.map_map, List.map_map]
  exact List.map_congr_left fun x _ => rfl

theorem DS.declNodes_sp (d : IntfDecl (Decl Node)) : DS.declNodes (d.tr c.tr) = (DS.declNodes d).map (List.map c.decl) := by
  cases d with
  | const ds => simp only [IntfDecl.tr, DS.declNodes, List.map_map]; exact List.map_congr_left fun d _ => rfl
  | type first ds => exact zipIdx_types first ds
  | var ds =>
    simp only [IntfDecl.tr, DS.declNodes, List.map_map]
    exact List.map_congr_left fun d _ => map_decl_idents (c := c) .var d.idents
  | threadVar ds =>
    simp only [IntfDecl.tr, DS.declNodes, List.map_map]
    exact List.map_congr_left fun d _ => map_decl_idents (c := c) .threadVar d.idents
  | heading h o => simp only [IntfDecl.tr, DS.declNodes, Heading.tr_ident, List.map_cons, List.map_nil]; rfl

include G in
theorem World.intfTable_sp : ∀ (ns : List (List (Decl Node))) (t : Tbl Node),
    World.intfTable u (ns.map (List.map c.decl)) (Tbl.sp c t) = Tbl.sp c (World.intfTable u ns t) := by
  intro ns
  induction ns with
  | nil => intro t; rfl
  | cons ds ns ih =>
    intro t
    simp only [List.map_cons, World.intfTable, Tbl.set_sp G]
    exact ih _

include G in
theorem DS.finishIntf_sp (k : DS) (i : Nat) (ds : List (IntfDecl (Decl Node))) :
    (k.sp c).finishIntf u i (ds.map (IntfDecl.tr c.tr)) = (k.finishIntf u i ds).sp c := by
  unfold DS.finishIntf
  have : (ds.map (IntfDecl.tr c.tr)).flatMap DS.declNodes = (ds.flatMap DS.declNodes).map (List.map c.decl) := by
    rw [List.flatMap_map, List.map_flatMap]
    exact List.flatMap_congr fun d _ => DS.declNodes_sp d
  rw [this]
  have h : World.finishIntf u (k.w.sp c) i ((ds.flatMap DS.declNodes).map (List.map c.decl)) = (World.finishIntf u k.w i (ds.flatMap DS.declNodes)).sp c := by
    unfold World.finishIntf
    have h1 := World.intfTable_sp G (ds.flatMap DS.declNodes) []
    have h2 := World.newMap_sp (c := c) k.w (.impl (World.intfTable u (ds.flatMap DS.declNodes) []))
    simp only [MapObj.sp] at h2
    rw [show (Tbl.sp c [] : Tbl Node) = [] from rfl] at h1
    simp only [h1, h2, World.setUnitDm_sp]
  simp only [show (k.sp c).w = k.w.sp c from rfl, h]
  rfl

theorem DS.stackAt_sp (k : DS) (i : Nat) : (k.sp c).stackAt i = (k.stackAt i).sp c := by
  unfold DS.stackAt
  rw [show (k.sp c).w.stack i = (k.w.sp c).stack i from rfl, World.stack_sp]
  cases k.w.stack i with
  | none => rfl
  | some r => rfl

theorem DS.parentUnits_sp (k : DS) (i : Nat) : (k.sp c).parentUnits i = k.parentUnits i := rfl

include G in
theorem DS.assignUnits_sp (cu : Nat) : ∀ (es : List UsesEntry) (k : DS),
    (k.sp c).assignUnits u cu (es.map (UsesEntry.tr c.tr)) = (k.assignUnits u cu es).sp c := by
  intro es
  induction es with
  | nil => intro k; rfl
  | cons e es ih =>
    intro k
    simp only [List.map_cons, DS.assignUnits]
    rw [show (k.sp c).w.byName u ((k.sp c).parentUnits cu) (e.tr c.tr).ident.name = (k.w.sp c).byName u (k.parentUnits cu) (c.nm e.ident.name) from rfl,
      World.byName_sp G]
    cases k.w.byName u (k.parentUnits cu) e.ident.name with
    | none => exact ih k
    | some j => exact ih { k with items := k.items.set e.no (some j) }

theorem DS.unitsOf_sp (k : DS) (es : List UsesEntry) : (k.sp c).unitsOf (es.map (UsesEntry.tr c.tr)) = k.unitsOf es := by
  unfold DS.unitsOf
  rw [List.map_map]; rfl

include G in
theorem DS.importUnits_sp (k : DS) (cu : Nat) (es : List UsesEntry) :
    (k.sp c).importUnits u cu (es.map (UsesEntry.tr c.tr)) = (k.importUnits u cu es).map (DS.sp c) := by
  unfold DS.importUnits
  simp only [DS.assignUnits_sp G, DS.unitsOf_sp]
  generalize k.assignUnits u cu es = k1
  rw [show (k1.sp c).w = k1.w.sp c from rfl, World.usedMaps_sp, World.dm_sp]
  cases k1.w.dm cu with
  | none => rfl
  | some d =>
    cases k1.w.usedMaps (k1.unitsOf es) with
    | none => rfl
    | some ms =>
      simp only [Option.map_some]
      simp only [World.newMap, World.sp, List.length_map, World.setDm, DS.sp, MapObj.sp, List.map_cons, Tbl.sp, List.map_nil, List.length_cons]

include G in
theorem DS.setUnit_sp (k : DS) (cu : Nat) (h : UnitHead) : (k.sp c).setUnit u cu (h.tr c.tr) = (k.setUnit u cu h).sp c := by
  unfold DS.setUnit
  show DS.setR _ ((k.w.sp c).set u cu ([⟨h.ident.name, .unit h.no⟩].map c.decl)) = _
  rw [World.set_sp G, DS.setR_sp]

include G in
theorem DS.openImpl_sp (k : DS) (cu i : Nat) (es : List UsesEntry) :
    (k.sp c).openImpl u cu i (es.map (UsesEntry.tr c.tr)) = (k.openImpl u cu i es).map fun r => (r.1.sp c, r.2) := by
  unfold DS.openImpl
  simp only [DS.assignUnits_sp G, DS.unitsOf_sp]
  generalize k.assignUnits u cu es = k1
  rw [show (k1.sp c).w = k1.w.sp c from rfl, World.usedMaps_sp, World.dm_sp, World.unitDm_sp]
  cases k1.w.dm cu with
  | none => rfl
  | some d =>
    cases k1.w.unitDm i with
    | none => rfl
    | some um =>
      cases k1.w.usedMaps (k1.unitsOf es) with
      | none => rfl
      | some ms =>
        simp only [Option.map_some]
        have e1 := World.newMap_sp (c := c) k1.w (.impl [])
        simp only [MapObj.sp, Tbl.sp, List.map_nil] at e1
        rw [e1]
        generalize k1.w.newMap (.impl []) = l
        have e2 := World.newMap_sp (c := c) l.1 (.composite [l.2, um])
        simp only [MapObj.sp] at e2
        simp only [e2]
        generalize l.1.newMap (.composite [l.2, um]) = r
        rw [World.setUnitDm_sp]
        generalize r.1.setUnitDm i (some r.2) = w3
        have e3 := World.newMap_sp (c := c) w3 (.composite (l.2 :: d :: ms))
        simp only [MapObj.sp] at e3
        simp only [e3]
        rfl

theorem DS.closeImpl_sp (k : DS) (i m : Nat) : (k.sp c).closeImpl i m = (k.closeImpl i m).sp c := by
  unfold DS.closeImpl
  show { k.sp c with w := (k.w.sp c).setUnitDm i (some m) } = _
  rw [World.setUnitDm_sp]; rfl

theorem DS.newUnitContext_sp (k : DS) (cp : Nat) (p : Str) :
    (k.sp c).newUnitContext cp p = ((k.newUnitContext cp p).1.sp c, (k.newUnitContext cp p).2) := by
  unfold DS.newUnitContext
  simp only [World.newMap, DS.sp, World.sp, List.length_map, List.map_cons, MapObj.sp, Tbl.sp, List.map_nil]

theorem DS.addUnit_sp (k : DS) (cp i : Nat) : (k.sp c).addUnit cp i = (k.addUnit cp i).sp c := rfl

include G in
theorem DS.findUses_sp (es : List UsesEntry) (a : Str) :
    DS.findUses u (es.map (UsesEntry.tr c.tr)) (c.nm a) = (DS.findUses u es a).map (UsesEntry.tr c.tr) := by
  unfold DS.findUses
  rw [List.find?_map]
  congr 1
  congr 1
  funext e
  show (u.toLower (c.nm e.ident.name) == u.toLower (c.nm a)) = _
  rw [G.low, G.low]

include G in
theorem DS.usesMap_sp (es : List UsesEntry) : ∀ (hs : List UnitHead) (k : DS) (t : Tbl Node),
    DS.usesMap u (es.map (UsesEntry.tr c.tr)) (hs.map (UnitHead.tr c.tr)) (k.sp c) (Tbl.sp c t) =
      (DS.usesMap u es hs k t).map fun r => (r.1.sp c, Tbl.sp c r.2) := by
  intro hs
  induction hs with
  | nil => intro k t; rfl
  | cons h hs ih =>
    intro k t
    simp only [List.map_cons, DS.usesMap]
    rw [show (h.tr c.tr).ident.name = c.nm h.ident.name from rfl, DS.findUses_sp G]
    cases DS.findUses u es h.ident.name with
    | none => rfl
    | some e =>
      have := Tbl.set_sp G [⟨e.ident.name, .uses e.no⟩] t
      rw [show ([⟨e.ident.name, .uses e.no⟩] : List (Decl Node)).map c.decl = [⟨c.nm e.ident.name, .uses e.no⟩] from rfl] at this
      simp only [Option.map_some]
      rw [show (e.tr c.tr).ident.name = c.nm e.ident.name from rfl, show (e.tr c.tr).no = e.no from rfl, show (h.tr c.tr).no = h.no from rfl, this]
      exact ih { k with items := k.items.set e.no (some h.no) } _

include G in
theorem DS.enterProgram_sp (k : DS) (cp : Nat) (i : Ident) (hs : List UnitHead) (t : Tbl Node) :
    (k.sp c).enterProgram u cp (c.id i) (hs.map (UnitHead.tr c.tr)) (Tbl.sp c t) = (k.enterProgram u cp i hs t).map (DS.sp c) := by
  unfold DS.enterProgram
  rw [show (k.sp c).w = k.w.sp c from rfl, World.usedMaps_sp, World.dm_sp, List.map_map,
    show ((fun h : UnitHead => some h.no) ∘ UnitHead.tr c.tr) = fun h => some h.no from rfl]
  cases k.w.dm cp with
  | none => rfl
  | some d =>
    cases k.w.usedMaps (hs.map fun h => some h.no) with
    | none => rfl
    | some ms =>
      have := Tbl.set_sp G [⟨i.name, .program⟩] []
      rw [show ([⟨i.name, .program⟩] : List (Decl Node)).map c.decl = [⟨c.nm i.name, .program⟩] from rfl, show Tbl.sp c [] = [] from rfl] at this
      simp only [Option.map_some]
      rw [show (c.id i).name = c.nm i.name from rfl, this]
      have e1 := World.newMap_sp (c := c) k.w (.impl t)
      simp only [MapObj.sp] at e1
      rw [e1]
      generalize k.w.newMap (.impl t) = us
      have e2 := World.newMap_sp (c := c) us.1 (.impl (Tbl.set u [] [⟨i.name, .program⟩]).1)
      simp only [MapObj.sp] at e2
      simp only [e2]
      generalize us.1.newMap (.impl (Tbl.set u [] [⟨i.name, .program⟩]).1) = l
      have e3 := World.newMap_sp (c := c) l.1 (.composite (l.2 :: us.2 :: ms ++ [d]))
      simp only [MapObj.sp] at e3
      simp only [e3]
      rfl

/-! ## The order of the units -/

def UParser.sp (c : Spell) (p : UParser) : UParser := ⟨p.id, c.nm p.name, p.uses.map c.nm⟩

namespace UnitParsers
include G

theorem edges_sp (m : List UParser) : edges u (m.map (UParser.sp c)) = edges u m := by
  unfold edges
  rw [List.foldl_map]
  congr 1
  funext r p
  simp only [UParser.sp, List.foldl_map, G.low]

theorem map_sp_aux (m : List UParser) : ∀ r : List (Str × UParser),
    (m.map (UParser.sp c)).foldl (fun r p => (u.toLower p.name, p) :: r.filter (fun e => e.1 ≠ u.toLower p.name)) (r.map fun e => (e.1, e.2.sp c)) =
      (m.foldl (fun r p => (u.toLower p.name, p) :: r.filter (fun e => e.1 ≠ u.toLower p.name)) r).map fun e => (e.1, e.2.sp c) := by
  induction m with
  | nil => intro r; rfl
  | cons p m ih =>
    intro r
    simp only [List.map_cons, List.foldl_cons]
    rw [← ih]
    congr 1
    simp only [List.map_cons, UParser.sp, G.low, List.filter_map]
    rfl

theorem map_sp (m : List UParser) : map u (m.map (UParser.sp c)) = (map u m).map fun e => (e.1, e.2.sp c) := map_sp_aux G m []

omit G in
theorem lookup_sp (l : List (Str × UParser)) (a : Str) : (l.map fun e => (e.1, e.2.sp c)).lookup a = (l.lookup a).map (UParser.sp c) := by
  induction l with
  | nil => rfl
  | cons e l ih =>
    obtain ⟨k, p⟩ := e
    simp only [List.map_cons, List.lookup_cons]
    split
    · rfl
    · exact ih

omit G in
theorem collect_sp (l : List (Str × UParser)) (o : List Str) :
    collect (l.map fun e => (e.1, e.2.sp c)) o = (collect l o).map (UParser.sp c) := by
  induction o with
  | nil => rfl
  | cons a o ih =>
    simp only [collect, lookup_sp]
    cases l.lookup a with
    | none => exact ih
    | some p => simp only [Option.map_some, ih, List.map_cons]

theorem sort_sp (lib : TopoLib) (it : List Str) (m : List UParser) :
    sort u lib it (m.map (UParser.sp c)) = (sort u lib it m).map (List.map (UParser.sp c)) := by
  unfold sort
  rw [edges_sp G, map_sp G]
  cases lib.sort (StringSet.slice it) (edges u m) with
  | none => rfl
  | some o => simp only [Option.map_some, collect_sp]

end UnitParsers

/-! ## Steps -/

local notation "PP" => PR u (NmR c) c.tr c.tr w (DSR c)
local notation "TT" => TokR u (NmR c) c.tr c.tr

theorem PR.askP {α β : Type} {A : α → β → Prop} {f : DS → α} {g : DS → β} (h : ∀ k l, DSR c k l → A (f k) (g l)) :
    PP A (TP.askP f) (TP.askP g) := fun _ _ hs => ⟨h _ _ hs.cx, hs⟩

theorem PR.stepR {f g : DS → SetR DS} (h : ∀ k l, DSR c k l → (f k).sp c = (g l).sp c) : PP (fun _ _ => True) (TP.stepR f) (TP.stepR g) := by
  intro s t hs
  have := DSR.setR (h _ _ hs.cx)
  unfold TP.stepR
  cases hf : f s.cx <;> cases hg : g t.cx <;> rw [hf, hg] at this <;> try exact this.elim
  · exact ⟨trivial, hs.ts, this⟩
  · trivial
  · trivial

theorem PR.stepOk {f g : DS → DS} (h : ∀ k l, DSR c k l → (f k).sp c = (g l).sp c) :
    PP (fun _ _ => True) (TP.stepR fun k => .ok (f k)) (TP.stepR fun k => .ok (g k)) :=
  PR.stepR fun k l hk => congrArg SetR.ok (h k l hk)

theorem PR.stepP {f g : DS → Option DS} (h : ∀ k l, DSR c k l → (f k).map (DS.sp c) = (g l).map (DS.sp c)) :
    PP (fun _ _ => True) (TP.stepP f) (TP.stepP g) := by
  intro s t hs
  have := option_rel_map (h _ _ hs.cx)
  unfold TP.stepP
  cases hf : f s.cx <;> cases hg : g t.cx <;> rw [hf, hg] at this <;> cases this
  · trivial
  · rename_i h
    exact ⟨trivial, hs.ts, h⟩

theorem DSR.items {k l : DS} (h : DSR c k l) : k.items = l.items := by
  have h : k.sp c = l.sp c := h
  have := congrArg DS.items h
  exact this
theorem DSR.cur {k l : DS} (h : DSR c k l) : k.cur = l.cur := by
  have h : k.sp c = l.sp c := h
  have := congrArg DS.cur h
  exact this
theorem DSR.pending {k l : DS} (h : DSR c k l) : (k.pending.map fun r => (r.1, c.nm r.2)) = l.pending.map fun r => (r.1, c.nm r.2) := by
  have h : k.sp c = l.sp c := h
  have := congrArg DS.pending h
  exact this
theorem DSR.types {k l : DS} (h : DSR c k l) : k.types.length = l.types.length := by
  have := congrArg (fun k => List.length k.types) h
  simpa only [DS.sp, List.length_map] using this
theorem DSR.units {k l : DS} (h : DSR c k l) : k.w.units.length = l.w.units.length := by
  have := congrArg (fun k : DS => List.length k.w.units) h
  simpa only [DS.sp, World.sp, List.length_map] using this

/-! ## Uses clauses -/

/-- the lists of items are the same up to spelling -/
abbrev UsesR (c : Spell) : List UsesEntry → List UsesEntry → Prop := EqR (List.map (UsesEntry.tr c.tr)) (List.map (UsesEntry.tr c.tr))

def itemSp (c : Spell) (i : Ident × Option Str) : Ident × Option Str := (c.id i.1, i.2)

theorem PR.parseUsesItem : PP (EqR (itemSp c) (itemSp c)) (TP.parseUsesItem u) (TP.parseUsesItem u) := by
  unfold TP.parseUsesItem
  refine PR.current.bind ?_
  rintro a b ⟨hab, -, -⟩
  refine PR.next.bind fun _ _ _ => PR.is.bind ?_
  rintro x _ rfl
  have hid : c.id (Ident.ofTok a) = c.id (Ident.ofTok b) := hab.id
  refine PR.ite rfl (fun _ _ => ?_) (fun _ _ => ?_)
  · refine PR.next.bind fun _ _ _ => PR.stringFactor.bind ?_
    rintro s _ rfl
    exact PR.pure (by simp only [EqR, itemSp, hid])
  · exact PR.pure (by simp only [EqR, itemSp, hid])

theorem PR.parseUsesItems : ∀ {n m : Nat}, n ≤ m →
    PP (EqR (List.map (itemSp c)) (List.map (itemSp c))) (TP.parseUsesItems u n) (TP.parseUsesItems u m)
  | 0, _, _ => PR.wait
  | n + 1, m + 1, h => by
    unfold TP.parseUsesItems
    refine PR.parseUsesItem.bind fun a b hab => PR.cur?.bind ?_
    rintro _ _ (hxy | _)
    · refine PR.ite hxy.isPred (fun _ _ => PR.pure ?_) (fun _ _ => PR.ite hxy.isPred (fun _ _ => ?_) (fun _ _ => PR.fail))
      · simp only [EqR, List.map_cons, List.map_nil, hab]
      · refine PR.next.bind fun _ _ _ => (PR.parseUsesItems (Nat.le_of_succ_le_succ h)).bind fun r r' hr => PR.pure ?_
        simp only [EqR, List.map_cons, hab]
        rw [hr]
    · exact PR.fail

include G in
theorem PR.declareUses : ∀ (is js : List (Ident × Option Str)), is.map (itemSp c) = js.map (itemSp c) →
    PP (UsesR c) (TP.declareUses u is) (TP.declareUses u js)
  | [], [], _ => PR.pure rfl
  | (i, p) :: is, (j, q) :: js, h => by
    simp only [List.map_cons, itemSp, List.cons.injEq, Prod.mk.injEq] at h
    obtain ⟨⟨hi, hp⟩, hr⟩ := h
    unfold TP.declareUses
    refine (PR.askP (A := Eq) fun k l hk => congrArg List.length hk.items).bind ?_
    rintro no _ rfl
    refine (PR.stepR fun k l hk => ?_).bind fun _ _ _ => (PR.declareUses is js hr).bind fun r r' h' => PR.pure ?_
    · rw [← DS.setUses_sp G, ← DS.setUses_sp G, show k.sp c = l.sp c from hk, hi]
    · show _ = _
      simp only [List.map_cons, UsesEntry.tr, Spell.tr_id, hi, hp]
      congr 1

include G in
theorem PR.parseUses {n m : Nat} (h : n ≤ m) : PP (UsesR c) (TP.parseUses u n) (TP.parseUses u m) := by
  unfold TP.parseUses
  exact PR.current.bind fun _ _ _ => PR.next.bind fun _ _ _ => (PR.parseUsesItems h).bind fun is js hi => PR.declareUses G is js hi

include G in
theorem PR.parseOptUses {n m : Nat} (h : n ≤ m) : PP (UsesR c) (TP.parseOptUses u n) (TP.parseOptUses u m) := by
  unfold TP.parseOptUses
  refine PR.is.bind ?_
  rintro x _ rfl
  refine PR.ite rfl (fun _ _ => ?_) (fun _ _ => PR.pure rfl)
  exact (PR.parseUses G h).bind fun a b hab => PR.next.bind fun _ _ _ => PR.pure hab

/-! ## Units -/

theorem PR.parseUnitIdent :
    PP (fun a b => a.1.tr c.tr = b.1.tr c.tr ∧ a.2 = b.2) (TP.parseUnitIdent u) (TP.parseUnitIdent u) := by
  unfold TP.parseUnitIdent
  refine PR.current.bind fun _ _ _ => PR.nextIs.bind ?_
  rintro a b ⟨hab, -, -⟩
  have hid : c.id (Ident.ofTok a) = c.id (Ident.ofTok b) := hab.id
  refine (PR.askP (A := Eq) fun k l hk => hk.units).bind ?_
  rintro no _ rfl
  refine (PR.stepOk fun k l hk => ?_).bind fun _ _ _ => PR.next.bind fun _ _ _ => ?_
  · rw [← DS.newUnit_sp, ← DS.newUnit_sp, show k.sp c = l.sp c from hk, hid]
  refine PR.bind (A := EqR (Option.map c.str) (Option.map c.str)) (PR.cur.bind fun x y hxy => ?_) fun p q hpq => PR.is.bind ?_
  · refine PR.ite hxy.isPred (fun _ _ => PR.next.bind fun _ _ _ => PR.pure ?_) (fun _ _ => PR.pure rfl)
    simp only [EqR, Option.map_some]
    exact congrArg some hxy.str
  · rintro x _ rfl
    refine PR.ite rfl (fun _ _ => PR.next.bind fun _ _ _ => PR.pure ⟨?_, rfl⟩) (fun _ _ => PR.pure ⟨?_, rfl⟩) <;>
    · simp only [UnitHead.tr, Spell.tr_id, hid]
      congr 1

include G in
theorem PR.parseIntfUses {n m : Nat} (h : n ≤ m) : PP (UsesR c) (TP.parseIntfUses u n) (TP.parseIntfUses u m) := by
  unfold TP.parseIntfUses
  exact PR.current.bind fun _ _ _ => PR.next.bind fun _ _ _ => PR.parseOptUses G h

include G in
theorem PR.parseIdentAndUses {n m : Nat} (h : n ≤ m) :
    PP (fun a b => (a.1.1.tr c.tr = b.1.1.tr c.tr ∧ a.1.2 = b.1.2) ∧ UsesR c a.2 b.2) (TP.parseIdentAndUses u n) (TP.parseIdentAndUses u m) := by
  unfold TP.parseIdentAndUses
  exact PR.parseUnitIdent.bind fun a b hab => (PR.parseIntfUses G h).bind fun x y hxy => PR.pure ⟨hab, hxy⟩

theorem IntfDecl.tr_const (ds : List (ConstDecl (Decl Node))) : IntfDecl.tr c.tr (.const ds) = .const (ds.map (ConstDecl.tr c.tr)) := rfl

include G in
theorem PR.parseIntfDecl {n m : Nat} (h : n ≤ m) {a b : Token} (hab : TT a b) :
    PP (Option.Rel (EqR (IntfDecl.tr c.tr) (IntfDecl.tr c.tr))) (TP.parseIntfDecl u n a) (TP.parseIntfDecl u m b) := by
  unfold TP.parseIntfDecl
  have S := dsim G
  refine PR.ite hab.isFix (fun _ _ => ?_) fun _ _ => PR.ite hab.isFix (fun _ _ => ?_) fun _ _ => PR.ite hab.isFix (fun _ _ => ?_) fun _ _ =>
    PR.ite hab.isFix (fun _ _ => ?_) fun _ _ => PR.ite hab.isFix2 (fun _ _ => ?_) fun _ _ => PR.pure .none
  · refine (PR.askP (A := Eq) fun k l hk => hk.types).bind ?_
    rintro first _ rfl
    refine (PR.parseTypeSection S h).bind fun x y hxy => PR.pure (.some ?_)
    exact congrArg (IntfDecl.type first) hxy
  · exact PR.next.bind fun _ _ _ => (PR.parseVarDecls S h).bind fun x y hxy => PR.pure (.some (congrArg IntfDecl.var hxy))
  · exact PR.next.bind fun _ _ _ => (PR.parseThreadVarDecls S h).bind fun x y hxy => PR.pure (.some (congrArg IntfDecl.threadVar hxy))
  · exact PR.next.bind fun _ _ _ => (PR.parseConstDecls S h).bind fun x y hxy => PR.pure (.some (congrArg IntfDecl.const hxy))
  · refine (PR.parseExportedHeading S h).bind fun x y hxy => PR.pure (.some ?_)
    show IntfDecl.heading (x.1.tr c.tr) (x.2.tr c.str) = IntfDecl.heading (y.1.tr c.tr) (y.2.tr c.str)
    rw [hxy.1, hxy.2]

abbrev IntfR (c : Spell) : List (IntfDecl (Decl Node)) → List (IntfDecl (Decl Node)) → Prop :=
  EqR (List.map (IntfDecl.tr c.tr)) (List.map (IntfDecl.tr c.tr))

include G in
theorem PR.parseIntfDecls : ∀ {n m : Nat}, n ≤ m → PP (IntfR c) (TP.parseIntfDecls u n) (TP.parseIntfDecls u m)
  | 0, _, _ => PR.wait
  | n + 1, m + 1, h => by
    unfold TP.parseIntfDecls
    refine PR.cur.bind fun a b hab => PR.ite hab.isTyp (fun _ _ => PR.pure rfl) fun _ _ =>
      PR.ite (by rw [hab.typ]) (fun _ _ => PR.fail) fun _ _ => (PR.parseIntfDecl G (Nat.le_of_succ_le_succ h) hab).bind ?_
    rintro _ _ (hxy | _)
    · refine (PR.parseIntfDecls (Nat.le_of_succ_le_succ h)).bind fun r r' hr => PR.pure ?_
      show _ = _
      simp only [List.map_cons]
      rw [hxy, hr]
    · exact PR.pure rfl

include G in
theorem PR.parseIntfBody (i : Nat) {n m : Nat} (h : n ≤ m) : PP (IntfR c) (TP.parseIntfBody u i n) (TP.parseIntfBody u i m) := by
  unfold TP.parseIntfBody
  refine (PR.parseIntfDecls G h).bind fun x y hxy => (PR.stepOk fun k l hk => ?_).bind fun _ _ _ => PR.pure hxy
  rw [← DS.finishIntf_sp G, ← DS.finishIntf_sp G, show k.sp c = l.sp c from hk, hxy]

include G in
theorem PR.parseImplUses (cu : Nat) {n m : Nat} (h : n ≤ m) : PP (UsesR c) (TP.parseImplUses u cu n) (TP.parseImplUses u cu m) := by
  unfold TP.parseImplUses
  refine PR.current.bind fun _ _ _ => PR.next.bind fun _ _ _ => (PR.stepOk fun k l hk => ?_).bind fun _ _ _ => PR.parseOptUses G h
  rw [← DS.stackAt_sp, ← DS.stackAt_sp, show k.sp c = l.sp c from hk]

abbrev ExportsR (c : Spell) (a b : List (List (ExportsItem (Decl Node)))) : Prop :=
  a.map (List.map (ExportsItem.tr c.tr)) = b.map (List.map (ExportsItem.tr c.tr))

include G in
theorem PR.parseImplBody {n m : Nat} (h : n ≤ m) :
    PP (fun a b => a.1.tr c.tr = b.1.tr c.tr ∧ ExportsR c a.2 b.2) (TP.parseImplBody u n) (TP.parseImplBody u m) := by
  unfold TP.parseImplBody
  exact (blockR (dsim G) h).sects.bind fun a b hab => (PR.parseExports (dsim G) h).bind fun x y hxy =>
    PR.optSemi.bind fun _ _ _ => PR.pure ⟨hab, hxy⟩

include G in
theorem PR.parseInit {n m : Nat} (h : n ≤ m) :
    PP (EqR (InitSection.tr c.tr) (InitSection.tr c.tr)) (TP.parseInit u n) (TP.parseInit u m) := by
  unfold TP.parseInit
  have S := stmtR (w := w) (dsim G).ssim h
  refine PR.current.bind fun _ _ _ => PR.next.bind fun _ _ _ => (S.stmts _).bind fun a b hab => PR.is.bind ?_
  rintro x _ rfl
  refine PR.ite rfl (fun _ _ => ?_) (fun _ _ => PR.pure ?_)
  · refine PR.next.bind fun _ _ _ => (S.stmts _).bind fun a' b' hab' => PR.pure ?_
    simp only [EqR, InitSection.tr, Option.map_some]
    rw [hab, hab']
  · simp only [EqR, InitSection.tr, Option.map_none]
    rw [hab]

abbrev OptInitR (c : Spell) : Option (InitSection (Decl Node)) → Option (InitSection (Decl Node)) → Prop :=
  EqR (Option.map (InitSection.tr c.tr)) (Option.map (InitSection.tr c.tr))

include G in
theorem PR.parseUnitEnd {n m : Nat} (h : n ≤ m) : PP (OptInitR c) (TP.parseUnitEnd u n) (TP.parseUnitEnd u m) := by
  unfold TP.parseUnitEnd
  refine PR.bind (A := OptInitR c) (PR.is.bind ?_) fun p q hpq => PR.current.bind fun _ _ _ => PR.nextIs.bind fun _ _ _ => PR.pure hpq
  rintro x _ rfl
  refine PR.ite rfl (fun _ _ => (PR.parseInit G h).bind fun a b hab => PR.pure ?_) (fun _ _ => PR.pure rfl)
  exact congrArg some hab

include G in
theorem PR.parseImplAndEnd {n m : Nat} (h : n ≤ m) :
    PP (EqR (UnitBody.tr c.tr) (UnitBody.tr c.tr)) (TP.parseImplAndEnd u n) (TP.parseImplAndEnd u m) := by
  unfold TP.parseImplAndEnd
  refine (PR.parseImplBody G h).bind fun a b hab => (PR.parseUnitEnd G h).bind fun x y hxy => PR.pure ?_
  show UnitBody.mk _ _ _ = UnitBody.mk _ _ _
  congr 1
  · exact hab.1
  · exact hab.2

include G in
theorem PR.parseUnit (cu : Nat) {n m : Nat} (h : n ≤ m) :
    PP (EqR (Option.map (UnitTree.tr c.tr)) (Option.map (UnitTree.tr c.tr))) (TP.parseUnit u cu n) (TP.parseUnit u cu m) := by
  unfold TP.parseUnit
  refine (PR.parseIdentAndUses G h).bind fun a b hab => ?_
  have hno : (a.1.1.tr c.tr).no = (b.1.1.tr c.tr).no := congrArg UnitHead.no hab.1.1
  change a.1.1.no = b.1.1.no at hno
  rw [hno]
  refine (PR.parseIntfBody G _ h).bind fun x y hxy => (PR.parseImplUses G cu h).bind fun e f hef => (PR.parseImplAndEnd G h).bind fun p q hpq => PR.pure ?_
  show _ = _
  rw [hab.1.2]
  split
  · simp only [Option.map_some, UnitTree.tr]
    rw [hab.1.1, hpq]
    congr 2
    · exact hab.2
  · rfl

include G in
theorem PR.processIntf (cu : Nat) {h h' : UnitHead} {es es' : List UsesEntry} (hh : h.tr c.tr = h'.tr c.tr) (he : UsesR c es es')
    {n m : Nat} (hnm : n ≤ m) : PP (IntfR c) (TP.processIntf u cu h es n) (TP.processIntf u cu h' es' m) := by
  unfold TP.processIntf
  have hno : (h.tr c.tr).no = (h'.tr c.tr).no := congrArg UnitHead.no hh
  change h.no = h'.no at hno
  rw [hno]
  refine (PR.stepP fun k l hk => ?_).bind fun _ _ _ => (PR.stepR fun k l hk => ?_).bind fun _ _ _ => PR.parseIntfBody G _ hnm
  · rw [← DS.importUnits_sp G, ← DS.importUnits_sp G, show k.sp c = l.sp c from hk, he]
  · rw [← DS.setUnit_sp G, ← DS.setUnit_sp G, show k.sp c = l.sp c from hk, hh]

include G in
theorem PR.inImpl {α β : Type} {A : α → β → Prop} (cu i : Nat) {es es' : List UsesEntry} (he : UsesR c es es') {p : P DS α} {q : P DS β}
    (h : PP A p q) : PP A (TP.inImpl u cu i es p) (TP.inImpl u cu i es' q) := by
  intro s t hs
  have hcx : s.cx.sp c = t.cx.sp c := hs.cx
  have := option_rel_map (f := fun r : DS × Nat => (r.1.sp c, r.2)) (a := s.cx.openImpl u cu i es) (b := t.cx.openImpl u cu i es')
    (by rw [← DS.openImpl_sp G, ← DS.openImpl_sp G, hcx, he])
  unfold TP.inImpl
  cases h1 : s.cx.openImpl u cu i es <;> cases h2 : t.cx.openImpl u cu i es' <;> rw [h1, h2] at this <;> cases this
  · trivial
  · rename_i x y e
    obtain ⟨k, um⟩ := x
    obtain ⟨l, um'⟩ := y
    injection e with e1 e2
    subst e2
    have hr := h ⟨s.ts, s.tail, k⟩ ⟨t.ts, t.tail, l⟩ ⟨hs.ts, e1⟩
    simp only
    cases hp : p ⟨s.ts, s.tail, k⟩ with
    | wait => exact trivial
    | err => rw [hp] at hr; cases hq : q ⟨t.ts, t.tail, l⟩ <;> rw [hq] at hr <;> first | exact trivial | exact hr.elim
    | panic => rw [hp] at hr; cases hq : q ⟨t.ts, t.tail, l⟩ <;> rw [hq] at hr <;> first | exact trivial | exact hr.elim
    | ok a s' =>
      rw [hp] at hr
      cases hq : q ⟨t.ts, t.tail, l⟩ <;> rw [hq] at hr <;> try exact hr.elim
      rename_i b t'
      refine ⟨hr.1, hr.2.ts, ?_⟩
      show DS.sp c _ = DS.sp c _
      rw [← DS.closeImpl_sp, ← DS.closeImpl_sp, show s'.cx.sp c = t'.cx.sp c from hr.2.cx]

include G in
theorem PR.processImpl (cu i : Nat) {n m : Nat} (h : n ≤ m) :
    PP (fun a b => UsesR c a.1 b.1 ∧ a.2.tr c.tr = b.2.tr c.tr) (TP.processImpl u cu i n) (TP.processImpl u cu i m) := by
  unfold TP.processImpl
  exact (PR.parseImplUses G cu h).bind fun e f hef => (PR.inImpl G cu i hef (PR.parseImplAndEnd G h)).bind fun a b hab => PR.pure ⟨hef, hab⟩

/-! ## Programs -/

/-- the files are the same up to spelling -/
def FileRR (u : Uni) (c : Spell) (w : Prop) : FileR → FileR → Prop
  | .missing, .missing => True
  | .unreadable, .unreadable => True
  | .tokens ts tail, .tokens ts' tail' => StrR u (NmR c) c.tr c.tr w ts tail ts' tail'
  | _, _ => False

/-- the parsers of units are in the same state up to spelling -/
structure LoaderR (u : Uni) (c : Spell) (w : Prop) (l l' : Loader) : Prop where
  ts : StrR u (NmR c) c.tr c.tr w l.ts l.tail l'.ts l'.tail
  cur : l.cur = l'.cur
  pending : (l.pending.map fun r => (r.1, c.nm r.2)) = l'.pending.map fun r => (r.1, c.nm r.2)
  cu : l.cu = l'.cu
  head : l.head.tr c.tr = l'.head.tr c.tr
  uses : UsesR c l.uses l'.uses
  intf : IntfR c l.intf l'.intf
  implUses : UsesR c l.implUses l'.implUses
  body : l.body.tr c.tr = l'.body.tr c.tr

theorem DSR.swap {k l : DS} (h : DSR c k l) {cur : Nat} {p q : List (Nat × Str)}
    (hp : (p.map fun r => (r.1, c.nm r.2)) = q.map fun r => (r.1, c.nm r.2)) :
    DSR c { k with cur := cur, pending := p } { l with cur := cur, pending := q } := by
  have h : k.sp c = l.sp c := h
  show DS.sp c _ = DS.sp c _
  simp only [DS.sp, DS.mk.injEq] at h ⊢
  simp only [h, hp, and_self]

theorem PR.run {α β : Type} {A : α → β → Prop} {l l' : Loader} (hl : LoaderR u c w l l') {p : P DS α} {q : P DS β} (h : PP A p q) :
    PP (fun a b => A a.1 b.1 ∧ LoaderR u c w a.2 b.2) (l.run p) (l'.run q) := by
  intro s t hs
  have hcx : s.cx.sp c = t.cx.sp c := hs.cx
  have hr := h ⟨l.ts, l.tail, { s.cx with cur := l.cur, pending := l.pending }⟩
    ⟨l'.ts, l'.tail, { t.cx with cur := l'.cur, pending := l'.pending }⟩ ⟨hl.ts, by
      have := hl.cur
      rw [this]
      exact DSR.swap hs.cx hl.pending⟩
  unfold Loader.run
  cases hp : p ⟨l.ts, l.tail, { s.cx with cur := l.cur, pending := l.pending }⟩ with
  | wait => exact trivial
  | err => rw [hp] at hr; cases hq : q ⟨l'.ts, l'.tail, { t.cx with cur := l'.cur, pending := l'.pending }⟩ <;> rw [hq] at hr <;> first | exact trivial | exact hr.elim
  | panic => rw [hp] at hr; cases hq : q ⟨l'.ts, l'.tail, { t.cx with cur := l'.cur, pending := l'.pending }⟩ <;> rw [hq] at hr <;> first | exact trivial | exact hr.elim
  | ok a s' =>
    rw [hp] at hr
    cases hq : q ⟨l'.ts, l'.tail, { t.cx with cur := l'.cur, pending := l'.pending }⟩ <;> rw [hq] at hr <;> try exact hr.elim
    rename_i b t'
    have hc : s.cx.cur = t.cx.cur := hs.cx.cur
    refine ⟨⟨hr.1, { hl with ts := hr.2.ts, cur := hr.2.cx.cur, pending := hr.2.cx.pending }⟩, hs.ts, ?_⟩
    show DSR c { s'.cx with cur := s.cx.cur, pending := s.cx.pending } { t'.cx with cur := t.cx.cur, pending := t.cx.pending }
    rw [hc]
    exact DSR.swap hr.2.cx hs.cx.pending

section
variable {sep : Char} {files files' : Str → FileR} {lib : TopoLib} {it it' : List UParser → List Str}

theorem PR.newLoaders (cp : Nat) : ∀ (es es' : List UsesEntry), UsesR c es es' →
    PP Eq (TP.newLoaders sep cp es) (TP.newLoaders sep cp es')
  | [], [], _ => PR.pure rfl
  | [], _ :: _, h => nomatch h
  | _ :: _, [], h => nomatch h
  | e :: es, e' :: es', h => by
    have h : _ ∧ _ := List.cons.inj h
    have hp : (e.tr c.tr).path = (e'.tr c.tr).path := congrArg UsesEntry.path h.1
    change e.path = e'.path at hp
    unfold TP.newLoaders
    simp only [hp]
    refine PR.ite rfl (fun _ _ => PR.newLoaders cp es es' h.2) (fun _ _ => ?_)
    refine (PR.askP (A := Eq) fun k l hk => ?_).bind ?_
    · have h1 := DS.newUnitContext_sp (c := c) k cp (UsesItem.effectivePath sep e'.path)
      have h2 := DS.newUnitContext_sp (c := c) l cp (UsesItem.effectivePath sep e'.path)
      rw [show k.sp c = l.sp c from hk, h2] at h1
      exact (congrArg Prod.snd h1).symm
    rintro i _ rfl
    refine (PR.stepOk fun k l hk => ?_).bind fun _ _ _ => (PR.newLoaders cp es es' h.2).bind ?_
    · have h1 := DS.newUnitContext_sp (c := c) k cp (UsesItem.effectivePath sep e'.path)
      have h2 := DS.newUnitContext_sp (c := c) l cp (UsesItem.effectivePath sep e'.path)
      rw [show k.sp c = l.sp c from hk, h2] at h1
      exact (congrArg Prod.fst h1).symm
    rintro r _ rfl
    exact PR.pure rfl

variable (hfiles : ∀ p, FileRR u c w (files p) (files' p))

include G hfiles in
theorem PR.loadUnit {n m : Nat} (h : n ≤ m) (path : Str) (i : Nat) :
    PP (LoaderR u c w) (TP.loadUnit u files n path i) (TP.loadUnit u files' m path i) := by
  unfold TP.loadUnit
  have hf := hfiles path
  cases h1 : files path <;> cases h2 : files' path <;> rw [h1, h2] at hf <;> try exact hf.elim
  · exact PR.fail
  · exact PR.fail
  · refine (PR.run ?_ (PR.cur?.bind fun _ _ _ => PR.parseIdentAndUses G h)).bind fun a b hab => PR.pure ?_
    · exact ⟨hf, rfl, rfl, rfl, rfl, rfl, rfl, rfl, rfl⟩
    · exact { hab.2 with head := hab.1.1.1, uses := hab.1.2 }

include G hfiles in
theorem PR.loadAll (cp : Nat) {n m : Nat} (h : n ≤ m) : ∀ ls : List (Str × Nat),
    PP (List.Forall₂ (LoaderR u c w)) (TP.loadAll u files cp n ls) (TP.loadAll u files' cp m ls)
  | [] => PR.pure .nil
  | (path, i) :: ls => by
    unfold TP.loadAll
    refine (PR.loadUnit G hfiles h path i).bind fun l l' hl => (PR.stepOk fun k k' hk => ?_).bind fun _ _ _ =>
      (PR.loadAll cp h ls).bind fun r r' hr => PR.pure (.cons hl hr)
    have hno : (l.head.tr c.tr).no = (l'.head.tr c.tr).no := congrArg UnitHead.no hl.head
    change l.head.no = l'.head.no at hno
    rw [← DS.addUnit_sp, ← DS.addUnit_sp, show k.sp c = k'.sp c from hk, hno]

theorem forall2_getElem? {α β : Type} {A : α → β → Prop} {a : List α} {b : List β} (h : List.Forall₂ A a b) (i : Nat) : Option.Rel A a[i]? b[i]? := by
  induction h generalizing i with
  | nil => exact .none
  | cons h _ ih =>
    cases i with
    | zero => exact .some h
    | succ i => exact ih i

theorem forall2_set {α β : Type} {A : α → β → Prop} {a : List α} {b : List β} (h : List.Forall₂ A a b) {x : α} {y : β} (hx : A x y) (i : Nat) :
    List.Forall₂ A (a.set i x) (b.set i y) := by
  induction h generalizing i with
  | nil => exact .nil
  | cons h hr ih =>
    cases i with
    | zero => exact .cons hx hr
    | succ i => exact .cons h (ih i)

include G in
theorem PR.intfAll {n m : Nat} (h : n ≤ m) : ∀ (is : List Nat) (ls ls' : List Loader), List.Forall₂ (LoaderR u c w) ls ls' →
    PP (List.Forall₂ (LoaderR u c w)) (TP.intfAll u n is ls) (TP.intfAll u m is ls')
  | [], _, _, hl => PR.pure hl
  | i :: is, ls, ls', hl => by
    unfold TP.intfAll
    have hi := forall2_getElem? hl i
    cases h1 : ls[i]? <;> cases h2 : ls'[i]? <;> rw [h1, h2] at hi <;> cases hi
    · exact PR.intfAll h is ls ls' hl
    · rename_i l l' hll
      have hcu := hll.cu
      simp only [hcu]
      refine (PR.run hll (PR.processIntf G _ hll.head hll.uses h)).bind fun a b hab => PR.intfAll h is _ _ (forall2_set hl ?_ i)
      exact { hab.2 with intf := hab.1 }

include G in
theorem PR.implAll {n m : Nat} (h : n ≤ m) : ∀ (is : List Nat) (ls ls' : List Loader), List.Forall₂ (LoaderR u c w) ls ls' →
    PP (List.Forall₂ (LoaderR u c w)) (TP.implAll u n is ls) (TP.implAll u m is ls')
  | [], _, _, hl => PR.pure hl
  | i :: is, ls, ls', hl => by
    unfold TP.implAll
    have hi := forall2_getElem? hl i
    cases h1 : ls[i]? <;> cases h2 : ls'[i]? <;> rw [h1, h2] at hi <;> cases hi
    · exact PR.implAll h is ls ls' hl
    · rename_i l l' hll
      have hcu := hll.cu
      have hno : (l.head.tr c.tr).no = (l'.head.tr c.tr).no := congrArg UnitHead.no hll.head
      change l.head.no = l'.head.no at hno
      simp only [hcu, hno]
      refine (PR.run hll (PR.processImpl G _ _ h)).bind fun a b hab => PR.implAll h is _ _ (forall2_set hl ?_ i)
      exact { hab.2 with implUses := hab.1.1, body := hab.1.2 }

theorem uparsers_sp {ls ls' : List Loader} (h : List.Forall₂ (LoaderR u c w) ls ls') :
    (uparsers ls).map (UParser.sp c) = (uparsers ls').map (UParser.sp c) := by
  unfold uparsers
  suffices ∀ j, ((ls.zipIdx j).map fun (x : Loader × Nat) => UParser.sp c ⟨x.2, x.1.head.ident.name, x.1.uses.map fun e => e.ident.name⟩) =
      (ls'.zipIdx j).map fun (x : Loader × Nat) => UParser.sp c ⟨x.2, x.1.head.ident.name, x.1.uses.map fun e => e.ident.name⟩ by
    rw [List.map_map, List.map_map]
    exact this 0
  induction h with
  | nil => intro j; rfl
  | cons h _ ih =>
    intro j
    simp only [List.zipIdx_cons, List.map_cons, ih (j + 1)]
    congr 1
    have h1 := congrArg (fun x : UnitHead => x.ident.name) h.head
    have h2 := congrArg (List.map fun e : UsesEntry => e.ident.name) h.uses
    rw [List.map_map, List.map_map] at h2
    simp only [UParser.sp, List.map_map]
    congr 1

include G in
theorem PR.enterP (cp : Nat) {i j : Ident} (hi : c.id i = c.id j) {es es' : List UsesEntry} (he : UsesR c es es') {hs hs' : List UnitHead}
    (hh : hs.map (UnitHead.tr c.tr) = hs'.map (UnitHead.tr c.tr)) : PP (fun _ _ => True) (TP.enterP u cp i es hs) (TP.enterP u cp j es' hs') := by
  intro s t hst
  have hcx : s.cx.sp c = t.cx.sp c := hst.cx
  have h1 := DS.usesMap_sp G es hs s.cx []
  rw [he, hh, hcx, DS.usesMap_sp G es' hs' t.cx []] at h1
  have h1 := option_rel_map h1.symm
  unfold TP.enterP
  cases e1 : s.cx.usesMap u es hs [] <;> cases e2 : t.cx.usesMap u es' hs' [] <;> rw [e1, e2] at h1 <;> cases h1
  · trivial
  · rename_i x y e
    obtain ⟨k, m⟩ := x
    obtain ⟨l, m'⟩ := y
    injection e with e3 e4
    have h2 := DS.enterProgram_sp G k cp i hs m
    rw [hi, hh, e3, e4, DS.enterProgram_sp G l cp j hs' m'] at h2
    have h2 := option_rel_map h2.symm
    simp only
    cases e5 : k.enterProgram u cp i hs m <;> cases e6 : l.enterProgram u cp j hs' m' <;> rw [e5, e6] at h2 <;> cases h2
    · trivial
    · rename_i h
      exact ⟨trivial, hst.ts, h⟩

variable (hit : ∀ m m' : List UParser, m.map (UParser.sp c) = m'.map (UParser.sp c) → it m = it' m')

include G hfiles hit in
theorem PR.loadUnits (cp : Nat) {i j : Ident} (hi : c.id i = c.id j) {es es' : List UsesEntry} (he : UsesR c es es') {n m : Nat} (h : n ≤ m) :
    PP (List.Forall₂ (LoaderR u c w)) (TP.loadUnits u sep files lib it cp i es n) (TP.loadUnits u sep files' lib it' cp j es' m) := by
  unfold TP.loadUnits
  refine (PR.newLoaders cp es es' he).bind ?_
  rintro cs _ rfl
  refine (PR.loadAll G hfiles cp h cs).bind fun ls ls' hl => ?_
  have hu := uparsers_sp hl
  have hs := UnitParsers.sort_sp G lib (it (uparsers ls)) (uparsers ls)
  rw [hu, hit _ _ hu, UnitParsers.sort_sp G] at hs
  have hs := option_rel_map hs.symm
  rw [hit _ _ hu]
  cases e1 : UnitParsers.sort u lib (it' (uparsers ls')) (uparsers ls) <;> cases e2 : UnitParsers.sort u lib (it' (uparsers ls')) (uparsers ls') <;>
    rw [e1, e2] at hs <;> cases hs
  · exact PR.fail
  · rename_i a b e
    have e : a.map UParser.id = b.map UParser.id := by
      have := congrArg (List.map UParser.id) e
      rw [List.map_map, List.map_map] at this
      exact this
    simp only [e]
    refine (PR.intfAll G h _ _ _ hl).bind fun l1 l1' h1 => (PR.implAll G h _ _ _ h1).bind fun l2 l2' h2 => (PR.enterP G cp hi he ?_).bind fun _ _ _ => PR.pure h2
    clear hs e1 e2 h1
    induction h2 with
    | nil => rfl
    | cons h _ ih => simp only [List.map_cons, h.head, ih]

theorem Loader.tree_sp {ls ls' : List Loader} (h : List.Forall₂ (LoaderR u c w) ls ls') :
    (ls.map Loader.tree).map (UnitTree.tr c.tr) = (ls'.map Loader.tree).map (UnitTree.tr c.tr) := by
  induction h with
  | nil => rfl
  | cons h _ ih =>
    simp only [List.map_cons, ih, Loader.tree, UnitTree.tr, h.head, h.body]
    congr 2
    · exact h.uses
    · exact h.intf
    · exact h.implUses

include G hfiles hit in
theorem PR.parseProgramUses (cp : Nat) {i j : Ident} (hi : c.id i = c.id j) {n m : Nat} (h : n ≤ m) :
    PP (fun a b => UsesR c a.1 b.1 ∧ a.2.map (UnitTree.tr c.tr) = b.2.map (UnitTree.tr c.tr))
      (TP.parseProgramUses u sep files lib it cp i n) (TP.parseProgramUses u sep files' lib it' cp j m) := by
  unfold TP.parseProgramUses
  refine PR.is.bind ?_
  rintro x _ rfl
  refine PR.ite rfl (fun _ _ => ?_) (fun _ _ => PR.pure ⟨rfl, rfl⟩)
  exact (PR.parseUses G h).bind fun e e' he => PR.next.bind fun _ _ _ => (PR.loadUnits G hfiles hit cp hi he h).bind fun l l' hl =>
    PR.pure ⟨he, Loader.tree_sp hl⟩

include G hfiles hit in
theorem PR.parseProgram (cp : Nat) {n m : Nat} (h : n ≤ m) :
    PP (EqR (ProgramTree.tr c.tr) (ProgramTree.tr c.tr)) (TP.parseProgram u sep files lib it cp n) (TP.parseProgram u sep files' lib it' cp m) := by
  unfold TP.parseProgram
  refine PR.current.bind fun _ _ _ => PR.nextIs.bind ?_
  rintro a b ⟨hab, -, -⟩
  have hid : c.id (Ident.ofTok a) = c.id (Ident.ofTok b) := hab.id
  refine PR.nextIs.bind fun _ _ _ => PR.next.bind fun _ _ _ => (PR.parseProgramUses G hfiles hit cp hid h).bind fun x y hxy =>
    (blockR (dsim G) h).block.bind fun p q hpq => PR.current.bind fun _ _ _ => PR.pure ?_
  simp only [EqR, ProgramTree.tr, Spell.tr_id, hid]
  rw [hpq, hxy.2]
  congr 1
  exact hxy.1

include G hfiles hit in
/-- two runs on files that are the same up to spelling -/
theorem program_rel (path : Str) {n m : Nat} (h : n ≤ m) :
    RR u (NmR c) c.tr c.tr w (DSR c) (EqR (ProgramTree.tr c.tr) (ProgramTree.tr c.tr)) (parseProgramFile u sep files lib it path n)
      (parseProgramFile u sep files' lib it' path m) := by
  unfold parseProgramFile
  have hf := hfiles path
  cases h1 : files path <;> cases h2 : files' path <;> rw [h1, h2] at hf <;> try exact hf.elim
  · trivial
  · trivial
  · exact PR.cur?.bind (fun _ _ _ => PR.parseProgram G hfiles hit 0 h) _ _ ⟨hf, rfl⟩

end

end TP
