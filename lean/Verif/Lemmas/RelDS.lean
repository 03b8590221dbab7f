import Verif.Spec.Spell
import Verif.Lemmas.RelDecl

/-!
# Contexts up to spelling

Replacing names and positions in the whole context and then working with it gives what working with it and then replacing
gives.  So contexts that are the same up to spelling stay the same.
-/

namespace TP
open Spec

/-- the replacement does not change what names are equal -/
structure Spec.Spell.Good (u : Uni) (c : Spell) : Prop where
  low : ∀ a, u.toLower (c.nm a) = u.toLower a
  up : ∀ a, u.toUpper (c.nm a) = u.toUpper a
  nil : c.nm [] = []
  zero : c.pos ⟨0, 0, 0⟩ = ⟨0, 0, 0⟩

section
variable (c : Spell)

def Tbl.sp (t : Tbl Node) : Tbl Node := t.map fun e => (e.1, c.decl e.2)

def MapObj.sp : MapObj Node → MapObj Node
  | .impl m => .impl (Tbl.sp c m)
  | .chained p m => .chained p (Tbl.sp c m)
  | .composite ms => .composite ms
  | .embedded => .embedded

def UnitObj.sp (o : UnitObj) : UnitObj := ⟨c.nm o.name, o.dm⟩

def World.sp (w : World Node) : World Node := ⟨w.maps.map (MapObj.sp c), w.units.map (UnitObj.sp c), w.ctxs⟩

def DS.sp (k : DS) : DS where
  w := k.w.sp c
  cur := k.cur
  types := k.types.map (·.tr c.tr)
  actual := k.actual
  refs := k.refs.map (Option.map c.decl)
  pending := k.pending.map fun r => (r.1, c.nm r.2)
  items := k.items
  program := k.program
end

variable {u : Uni} {c : Spell} (G : c.Good u)

theorem Spell.decl_name_eq (d : Decl Node) : (c.decl d).name = d.name ∨ (c.decl d).name = c.nm d.name := by
  obtain ⟨n, d⟩ := d
  cases d <;> first | exact .inl rfl | exact .inr rfl

include G in
theorem Spell.decl_low (d : Decl Node) : u.toLower (c.decl d).name = u.toLower d.name := by
  rcases Spell.decl_name_eq (c := c) d with h | h <;> rw [h]
  exact G.low _

theorem Spell.tr_decl (i : Ident) : c.tr.decl i = c.decl := rfl
theorem Spell.tr_id : c.tr.id = c.id := rfl
theorem Spell.tr_ref (i : Nat) : c.tr.ref i = i := rfl
theorem Spell.id_name (i : Ident) : (c.id i).name = c.nm i.name := rfl

/-! ## Maps -/

theorem Tbl.find_sp (t : Tbl Node) (k : Str) : Tbl.find (Tbl.sp c t) k = (Tbl.find t k).map c.decl := by
  induction t with
  | nil => rfl
  | cons e t ih =>
    obtain ⟨k', d⟩ := e
    show (if k' = k then some (c.decl d) else Tbl.find (Tbl.sp c t) k) = Option.map c.decl (if k' = k then some d else Tbl.find t k)
    split
    · rfl
    · exact ih

include G

theorem Tbl.get_sp (t : Tbl Node) (a : Str) : Tbl.get u (Tbl.sp c t) (c.nm a) = (Tbl.get u t a).map c.decl := by
  unfold Tbl.get Tbl.regularize
  rw [G.low]; exact Tbl.find_sp _ _

theorem Tbl.overwrite_sp (t : Tbl Node) (a : Str) (d : Decl Node) :
    Tbl.overwrite u (Tbl.sp c t) (c.nm a) (c.decl d) = Tbl.sp c (Tbl.overwrite u t a d) := by
  unfold Tbl.overwrite Tbl.regularize
  rw [G.low]; rfl

theorem Tbl.set_sp (ds : List (Decl Node)) : ∀ t : Tbl Node,
    Tbl.set u (Tbl.sp c t) (ds.map c.decl) = (Tbl.sp c (Tbl.set u t ds).1, (Tbl.set u t ds).2) := by
  induction ds with
  | nil => intro t; rfl
  | cons d ds ih =>
    intro t
    simp only [List.map_cons, Tbl.set, Tbl.regularize, Spell.decl_low G, Tbl.find_sp]
    cases h : Tbl.find t (u.toLower d.name) with
    | some e => rfl
    | none => exact ih ((u.toLower d.name, d) :: t)

omit G in
theorem embTable_decl : ∀ e ∈ embTable u Node, c.decl e.2 = e.2 := by
  intro e he
  unfold embTable at he
  obtain ⟨kn, _, rfl⟩ := List.mem_map.1 he
  rfl

omit G in
theorem embTable_sp : Tbl.sp c (embTable u Node) = embTable u Node := by
  unfold Tbl.sp
  conv => rhs; rw [← List.map_id (embTable u Node)]
  refine List.map_congr_left fun e he => ?_
  rw [embTable_decl e he]; rfl

theorem embGet_sp (a : Str) : embGet u (ν := Node) (c.nm a) = (embGet u (ν := Node) a).map c.decl := by
  unfold embGet
  rw [G.up, ← Tbl.find_sp, embTable_sp]

theorem Maps.get_sp (h : Maps Node) : ∀ (i : Nat) (a : Str), Maps.get u (List.map (MapObj.sp c) h) i (c.nm a) = (Maps.get u h i a).map c.decl := by
  induction h with
  | nil => intro i a; rfl
  | cons o h ih =>
    intro i a
    rw [List.map_cons]
    unfold Maps.get
    rw [List.length_map]
    split
    · cases o with
      | impl m => exact Tbl.get_sp G m a
      | embedded => exact embGet_sp G a
      | chained p m =>
        simp only [MapObj.sp, Tbl.get_sp G]
        cases Tbl.get u m a with
        | some d => rfl
        | none => exact ih p a
      | composite ms =>
        simp only [MapObj.sp]
        induction ms with
        | nil => rfl
        | cons j ms ihm =>
          simp only [List.findSome?_cons]
          rw [ih j a]
          cases Maps.get u h j a with
          | some d => rfl
          | none => exact ihm
    · exact ih i a

theorem Maps.set_sp (h : Maps Node) : ∀ (i : Nat) (ds : List (Decl Node)),
    Maps.set u (List.map (MapObj.sp c) h) i (ds.map c.decl) = ((Maps.set u h i ds).1.map (MapObj.sp c), (Maps.set u h i ds).2) := by
  induction h with
  | nil => intro i ds; rfl
  | cons o h ih =>
    intro i ds
    rw [List.map_cons]
    unfold Maps.set
    rw [List.length_map]
    split
    · cases o with
      | impl m => simp only [MapObj.sp, Tbl.set_sp G, List.map_cons]
      | embedded => rfl
      | chained p m => simp only [MapObj.sp, Tbl.set_sp G, List.map_cons]
      | composite ms =>
        cases ms with
        | nil => rfl
        | cons j ms => simp only [MapObj.sp, ih j ds, List.map_cons]
    · simp only [ih i ds, List.map_cons]

theorem Maps.overwrite_sp (h : Maps Node) : ∀ (i : Nat) (a : Str) (d : Decl Node),
    Maps.overwrite u (List.map (MapObj.sp c) h) i (c.nm a) (c.decl d) =
      ((Maps.overwrite u h i a d).1.map (MapObj.sp c), (Maps.overwrite u h i a d).2) := by
  induction h with
  | nil => intro i a d; rfl
  | cons o h ih =>
    intro i a d
    rw [List.map_cons]
    unfold Maps.overwrite
    rw [List.length_map]
    split
    · cases o with
      | impl m => simp only [MapObj.sp, Tbl.overwrite_sp G, List.map_cons]
      | embedded => rfl
      | chained p m => simp only [MapObj.sp, Tbl.overwrite_sp G, List.map_cons]
      | composite ms =>
        cases ms with
        | nil => rfl
        | cons j ms => simp only [MapObj.sp, ih j a d, List.map_cons]
    · simp only [ih i a d, List.map_cons]

theorem Ctxs.get_sp (m : Maps Node) (cs : Ctxs) : ∀ (i : Nat) (a : Str),
    Ctxs.get u (List.map (MapObj.sp c) m) cs i (c.nm a) = (Ctxs.get u m cs i a).map c.decl := by
  induction cs with
  | nil => intro i a; rfl
  | cons o cs ih =>
    intro i a
    unfold Ctxs.get
    split
    · cases o with
      | program p us d => exact Maps.get_sp G m d a
      | unit p q d => exact Maps.get_sp G m d a
      | stackable p q d =>
        simp only [Maps.get_sp G]
        cases Maps.get u m d a with
        | some r => rfl
        | none => exact ih q a
    · exact ih i a

omit G
theorem World.dm_sp (w : World Node) (i : Nat) : (w.sp c).dm i = w.dm i := rfl
theorem World.setDm_sp (w : World Node) (i d : Nat) : (w.sp c).setDm i d = (w.setDm i d).sp c := rfl
theorem World.newMap_sp (w : World Node) (o : MapObj Node) : (w.sp c).newMap (o.sp c) = ((w.newMap o).1.sp c, (w.newMap o).2) := by
  unfold World.newMap World.sp
  simp only [List.map_cons, List.length_map]

theorem World.stack_sp (w : World Node) (i : Nat) : (w.sp c).stack i = (w.stack i).map fun r => (r.1.sp c, r.2) := by
  unfold World.stack
  rw [World.dm_sp]
  cases w.dm i with
  | none => rfl
  | some d =>
    have := World.newMap_sp (c := c) w (.chained d [])
    simp only [MapObj.sp, Tbl.sp, List.map_nil] at this
    simp only [this, World.setDm_sp, Option.map_some]

theorem World.clone_sp (w : World Node) (i : Nat) : (w.sp c).clone i = (w.clone i).map fun r => (r.1.sp c, r.2) := by
  unfold World.clone World.sp
  simp only
  cases w.ctxs.obj i <;> rfl

include G in
theorem World.set_sp (w : World Node) (i : Nat) (ds : List (Decl Node)) :
    (w.sp c).set u i (ds.map c.decl) = ((w.set u i ds).1.sp c, (w.set u i ds).2) := by
  unfold World.set
  rw [World.dm_sp]
  cases w.dm i with
  | none => rfl
  | some d => simp only [World.sp, Maps.set_sp G]

include G in
theorem World.overwrite_sp (w : World Node) (i : Nat) (a : Str) (d : Decl Node) :
    (w.sp c).overwrite u i (c.nm a) (c.decl d) = ((w.overwrite u i a d).1.sp c, (w.overwrite u i a d).2) := by
  unfold World.overwrite
  rw [World.dm_sp]
  cases w.dm i with
  | none => rfl
  | some d => simp only [World.sp, Maps.overwrite_sp G]

include G in
theorem World.get_sp (w : World Node) (i : Nat) (a : Str) : (w.sp c).get u i (c.nm a) = (w.get u i a).map c.decl :=
  Ctxs.get_sp G w.maps w.ctxs i a

theorem World.unitDm_sp (w : World Node) (i : Nat) : (w.sp c).unitDm i = w.unitDm i := by
  unfold World.unitDm World.sp
  simp only [List.getElem?_map]
  cases w.units[i]? <;> rfl

include G in
theorem World.byName_sp (w : World Node) (a : Str) : ∀ is, (w.sp c).byName u is (c.nm a) = w.byName u is a := by
  intro is
  induction is with
  | nil => rfl
  | cons i is ih =>
    unfold World.byName
    rw [show (w.sp c).units[i]? = w.units[i]?.map (UnitObj.sp c) from List.getElem?_map ..]
    cases w.units[i]? with
    | none => exact ih
    | some o => simp only [Option.map_some, UnitObj.sp, G.low, ih]

theorem World.usedMaps_sp (w : World Node) (us : List (Option Nat)) : (w.sp c).usedMaps us = w.usedMaps us := by
  unfold World.usedMaps
  rw [show (w.sp c).unitDm = w.unitDm from funext (World.unitDm_sp w)]

theorem World.setUnitDm_sp (w : World Node) (i : Nat) (d : Option Nat) : (w.sp c).setUnitDm i d = (w.setUnitDm i d).sp c := by
  unfold World.setUnitDm
  rw [show (w.sp c).units[i]? = w.units[i]?.map (UnitObj.sp c) from List.getElem?_map ..]
  cases w.units[i]? with
  | none => rfl
  | some o =>
    simp only [Option.map_some, World.sp, List.map_set, UnitObj.sp]

/-! ## Types -/

theorem DS.ref_sp (k : DS) (n : Ident) (r : TRef (Decl Node)) : (k.sp c).ref (r.tr c.tr n) = (k.ref r).map c.decl := by
  cases r with
  | none => rfl
  | now d => rfl
  | later i =>
    show ((k.refs.map (Option.map c.decl))[i]?).join = _
    rw [List.getElem?_map]
    show _ = Option.map c.decl ((k.refs[i]?).join)
    cases k.refs[i]? with
    | none => rfl
    | some o => rfl

theorem DS.typeNo_sp (k : DS) (t : TypeId (Decl Node)) : (k.sp c).typeNo (t.tr c.tr) = k.typeNo t := by
  unfold DS.typeNo
  rw [show (t.tr c.tr).ref = t.ref.tr c.tr t.ident from rfl, DS.ref_sp]
  cases k.ref t.ref with
  | none => rfl
  | some d => obtain ⟨n, d⟩ := d; cases d <;> rfl

theorem DS.tyNo_sp (k : DS) (t : TypeId (Decl Node)) : (k.sp c).tyNo (t.tr c.tr) = k.tyNo t := by
  unfold DS.tyNo
  rw [show (t.tr c.tr).ref = t.ref.tr c.tr t.ident from rfl, DS.ref_sp]
  cases k.ref t.ref with
  | none => rfl
  | some d => obtain ⟨n, d⟩ := d; cases d <;> rfl

def ClassField.sp (c : Spell) (f : ClassField Node) : ClassField Node := ⟨f.names.map c.nm, c.node f.node⟩

def Section.sp (c : Spell) (s : Section Node) : Section Node :=
  ⟨s.priv, s.fields.map (ClassField.sp c), s.methods.map c.decl, s.props.map c.decl⟩

def TypeNode.sp (c : Spell) : TypeNode Node → TypeNode Node
  | .cls h ms => .cls h (ms.map (Section.sp c))
  | .forward a => .forward a
  | .alias a => .alias a
  | .other => .other

theorem TypeNode.sp_cls (h) (ms) : TypeNode.sp c (.cls h ms) = .cls h (ms.map (Section.sp c)) := rfl
theorem TypeNode.sp_forward (a) : TypeNode.sp c (.forward a) = .forward a := rfl
theorem TypeNode.sp_alias (a) : TypeNode.sp c (.alias a) = .alias a := rfl
theorem TypeNode.sp_other : TypeNode.sp c .other = .other := rfl

include G in
theorem DS.fields_sp : ∀ fs : Fields (Decl Node), DS.fields (fs.tr c.tr) = (DS.fields fs).map (ClassField.sp c)
  | .nil => by simp only [Fields.tr, DS.fields, List.map_nil]
  | .cons is t rest => by
    simp only [Fields.tr, DS.fields, List.map_cons, DS.fields_sp rest, ClassField.sp, List.map_map, Spell.tr_id]
    congr 2
    cases is with
    | nil =>
      show Node.decl .field ⟨[], ⟨0, 0, 0⟩, ⟨0, 0, 0⟩⟩ = Node.decl .field ⟨c.nm [], c.pos ⟨0, 0, 0⟩, c.pos ⟨0, 0, 0⟩⟩
      rw [G.nil, G.zero]
    | cons i is => rfl

theorem DS.methods_sp : ∀ ms : Methods (Decl Node), DS.methods (ms.tr c.tr) = (DS.methods ms).map c.decl
  | .nil => by simp only [Methods.tr, DS.methods, List.map_nil]
  | .cons h ds rest => by
    simp only [Methods.tr, DS.methods, List.map_cons, DS.methods_sp rest, Heading.tr_ident]
    rfl

theorem DS.hasIntf_sp (i : OptIntf (Decl Node)) : DS.hasIntf (i.tr c.tr) = DS.hasIntf i := by
  cases i <;> simp only [OptIntf.tr, DS.hasIntf]

theorem DS.propDecl_sp (p : ClassProp (Decl Node)) : DS.propDecl (p.tr c.tr) = c.decl (DS.propDecl p) := by
  obtain ⟨i, intf, ix, rd, wr, st, df, impl, parent⟩ := p
  simp only [ClassProp.tr, DS.propDecl, DS.hasIntf_sp, Option.isSome_map]
  cases parent with
  | none => rfl
  | some d => obtain ⟨n, d⟩ := d; cases d <;> rfl

theorem DS.props_sp : ∀ ps : Props (Decl Node), DS.props (ps.tr c.tr) = (DS.props ps).map c.decl
  | .nil => by simp only [Props.tr, DS.props, List.map_nil]
  | .cons p rest => by simp only [Props.tr, DS.props, List.map_cons, DS.props_sp rest, DS.propDecl_sp]

include G in
theorem DS.sections_sp : ∀ ss : Sects (Decl Node), DS.sections (ss.tr c.tr) = (DS.sections ss).map (Section.sp c)
  | .nil => by simp only [Sects.tr, DS.sections, List.map_nil]
  | .cons v fs ms ps rest => by
    simp only [Sects.tr, DS.sections, List.map_cons, DS.sections_sp rest, DS.fields_sp G, DS.methods_sp, DS.props_sp, Section.sp]

include G in
theorem DS.typeNode_sp (k : DS) (t : PType (Decl Node)) : (k.sp c).typeNode (t.tr c.tr) = (k.typeNode t).sp c := by
  cases t <;> simp only [PType.tr, DS.typeNode, TypeNode.sp, DS.typeNo_sp]
  rw [DS.sections_sp G, List.map_map]
  congr 1
  exact List.map_congr_left fun t _ => DS.typeNo_sp k t

include G in
theorem DS.typeNodes_sp (k : DS) (i : Nat) : (k.sp c).typeNodes i = (k.typeNodes i).sp c := by
  unfold DS.typeNodes
  rw [show (k.sp c).types[i]? = k.types[i]?.map (·.tr c.tr) from List.getElem?_map ..]
  cases k.types[i]? with
  | none => rfl
  | some t => exact DS.typeNode_sp G k t

theorem DS.ty_sp (k : DS) : ∀ t : PType (Decl Node), (k.sp c).ty (t.tr c.tr) = k.ty t
  | .set _ t => by simp only [PType.tr, DS.ty, DS.ty_sp k t]
  | .id t => by simp only [PType.tr, DS.ty, DS.tyNo_sp]
  | .file _ t => by simp only [PType.tr, DS.ty, DS.tyNo_sp]
  | .nil => by simp only [PType.tr, DS.ty]
  | .enum _ => by simp only [PType.tr, DS.ty]
  | .subrange _ _ => by simp only [PType.tr, DS.ty]
  | .pointer _ => by simp only [PType.tr, DS.ty]
  | .fixedString _ _ => by simp only [PType.tr, DS.ty]
  | .array _ _ _ => by simp only [PType.tr, DS.ty]
  | .record _ _ => by simp only [PType.tr, DS.ty]
  | .proc _ _ _ _ => by simp only [PType.tr, DS.ty]
  | .forward => by simp only [PType.tr, DS.ty]
  | .classRef _ => by simp only [PType.tr, DS.ty]
  | .cls _ _ => by simp only [PType.tr, DS.ty]

theorem DS.tys_sp (k : DS) : (k.sp c).tys = k.tys := by
  funext i
  match i with
  | 0 => rfl
  | 1 => rfl
  | 2 => rfl
  | 3 => rfl
  | 4 => rfl
  | i + 5 =>
    show (match (k.sp c).types[i]? with | some t => (k.sp c).ty t | none => Ty.other) = (match k.types[i]? with | some t => k.ty t | none => Ty.other)
    rw [show (k.sp c).types[i]? = k.types[i]?.map (·.tr c.tr) from List.getElem?_map ..]
    cases k.types[i]? with
    | none => rfl
    | some t => exact DS.ty_sp k t

theorem DS.ordinal_sp (k : DS) (t : PType (Decl Node)) : (k.sp c).ordinal (t.tr c.tr) = k.ordinal t := by
  unfold DS.ordinal
  rw [DS.tys_sp, DS.ty_sp]
  have : ((k.sp c).types.map fun t => DS.depth ((k.sp c).ty t)) = k.types.map fun t => DS.depth (k.ty t) := by
    show ((k.types.map (·.tr c.tr)).map _) = _
    rw [List.map_map]
    exact List.map_congr_left fun t _ => by simp only [Function.comp, DS.ty_sp]
  rw [this]

/-! ## Classes -/

namespace ClassType
theorem getParentClass_sp (types : Nat → TypeNode Node) (h : List (Option Nat)) :
    getParentClass (fun i => (types i).sp c) h = getParentClass types h := by
  unfold getParentClass
  split
  · rename_i d _
    cases hd : types d <;> simp only [hd, TypeNode.sp]
  · rfl

include G in
theorem identFind_sp (names : List Str) (a : Str) : identFind u (names.map c.nm) a = (identFind u names a).map c.nm := by
  induction names with
  | nil => rfl
  | cons n ns ih =>
    simp only [List.map_cons, identFind, G.low]
    split
    · rfl
    · exact ih

include G in
theorem declsFind_sp (ds : List (Decl Node)) (a : Str) : declsFind u (ds.map c.decl) a = (declsFind u ds a).map c.decl := by
  induction ds with
  | nil => rfl
  | cons d ds ih =>
    simp only [List.map_cons, declsFind, Spell.decl_low G]
    split
    · rfl
    · exact ih

/-- the nodes of fields are no embedded types -/
def FieldOK (f : ClassField Node) : Prop := ∃ i, f.node = .decl .field i

include G in
theorem findField_sp (kw : Str) (fs : List (ClassField Node)) (h : ∀ f ∈ fs, FieldOK f) :
    findField u kw (fs.map (ClassField.sp c)) = (findField u kw fs).map (Option.map c.decl) := by
  induction fs with
  | nil => rfl
  | cons f fs ih =>
    obtain ⟨i, hi⟩ := h f (List.mem_cons_self ..)
    obtain ⟨names, node⟩ := f
    simp only at hi
    subst hi
    simp only [List.map_cons, findField, ClassField.sp, identFind_sp G]
    cases identFind u names kw with
    | none => exact ih fun f hf => h f (List.mem_cons_of_mem _ hf)
    | some n =>
      simp only [Option.map_some, List.map_map]
      congr 1
      rw [← declsFind_sp G, List.map_map]
      rfl

include G in
theorem findNamed_sp (kw : Str) (ds : List (Decl Node)) :
    findNamed u kw (ds.map c.decl) = (findNamed u kw ds).map (Option.map c.decl) := by
  induction ds with
  | nil => rfl
  | cons d ds ih =>
    simp only [List.map_cons, findNamed, Spell.decl_low G]
    split
    · rw [show [c.decl d] = [d].map c.decl from rfl, declsFind_sp G]; rfl
    · exact ih

/-- the fields of the sections come from a class -/
def SectsOK (ss : List (Section Node)) : Prop := ∀ s ∈ ss, ∀ f ∈ s.fields, FieldOK f

include G in
theorem findOwn_sp (kw : Str) (b : Bool) (ss : List (Section Node)) (h : SectsOK ss) :
    findOwn u kw b (ss.map (Section.sp c)) = (findOwn u kw b ss).map (Option.map c.decl) := by
  induction ss with
  | nil => rfl
  | cons s ss ih =>
    have ih := ih fun s hs => h s (List.mem_cons_of_mem _ hs)
    have hf := findField_sp G kw s.fields (h s (List.mem_cons_self ..))
    simp only [List.map_cons, findOwn, Section.sp]
    split
    · exact ih
    · rw [hf, findNamed_sp G, findNamed_sp G]
      cases findField u kw s.fields with
      | some r => rfl
      | none =>
        cases findNamed u kw s.methods with
        | some r => rfl
        | none =>
          cases findNamed u kw s.props with
          | some r => rfl
          | none => exact ih

include G in
theorem findOwnProperty_sp (kw : Str) (ss : List (Section Node)) :
    findOwnProperty u kw (ss.map (Section.sp c)) = (findOwnProperty u kw ss).map c.decl := by
  induction ss with
  | nil => rfl
  | cons s ss ih =>
    simp only [List.map_cons, findOwnProperty, Section.sp, List.find?_map, Function.comp_def, Spell.decl_low G]
    cases List.find? (fun d => decide (u.toLower d.name = kw)) s.props with
    | some d => rfl
    | none => exact ih

/-- the classes come from the parser -/
def TypesOK (types : Nat → TypeNode Node) : Prop := ∀ i h ms, types i = .cls h ms → SectsOK ms

include G in
theorem findMemberDecl_sp (types : Nat → TypeNode Node) (ht : TypesOK types) (a : Str) : ∀ (n i : Nat) (b : Bool),
    findMemberDecl u (fun i => (types i).sp c) (c.nm a) n i b = (findMemberDecl u types a n i b).map (Option.map c.decl) := by
  intro n
  induction n with
  | zero => intro i b; rfl
  | succ n ih =>
    intro i b
    unfold findMemberDecl
    cases hi : types i with
    | cls h ms =>
      simp only [TypeNode.sp_cls, G.low, findOwn_sp G _ _ ms (ht i h ms hi), getParentClass_sp]
      cases findOwn u (u.toLower a) b ms with
      | some r => rfl
      | none =>
        simp only [Option.map_none]
        cases getParentClass types h with
        | none => rfl
        | some d => exact ih d false
    | _ => simp only [TypeNode.sp_forward, TypeNode.sp_alias, TypeNode.sp_other]; rfl

include G in
theorem findProperty_sp (types : Nat → TypeNode Node) (a : Str) : ∀ (n i : Nat) (b : Bool),
    findProperty u (fun i => (types i).sp c) (c.nm a) n i b = (findProperty u types a n i b).map (Option.map c.decl) := by
  intro n
  induction n with
  | zero => intro i b; rfl
  | succ n ih =>
    intro i b
    unfold findProperty
    cases hi : types i with
    | cls h ms =>
      simp only [TypeNode.sp_cls, G.low, findOwnProperty_sp G, getParentClass_sp]
      cases findOwnProperty u (u.toLower a) ms with
      | some r => rfl
      | none =>
        simp only [Option.map_none]
        split
        · cases getParentClass types h with
          | none => rfl
          | some d => exact ih d true
        · rfl
    | _ => simp only [TypeNode.sp_forward, TypeNode.sp_alias, TypeNode.sp_other]; rfl
end ClassType

theorem DS.fieldsOK : ∀ (fs : Fields (Decl Node)), ∀ f ∈ DS.fields fs, ClassType.FieldOK f
  | .nil => fun f hf => by cases hf
  | .cons is t rest => fun f hf => by
    rcases List.mem_cons.1 hf with rfl | hf
    · cases is with
      | nil => exact ⟨_, rfl⟩
      | cons i is => exact ⟨_, rfl⟩
    · exact DS.fieldsOK rest f hf

theorem DS.sectsOK : ∀ (ss : Sects (Decl Node)), ClassType.SectsOK (DS.sections ss)
  | .nil => fun s hs => by cases hs
  | .cons v fs ms ps rest => fun s hs => by
    rcases List.mem_cons.1 hs with rfl | hs
    · exact DS.fieldsOK fs
    · exact DS.sectsOK rest s hs

theorem DS.typesOK (k : DS) : ClassType.TypesOK k.typeNodes := by
  intro i h ms hi
  unfold DS.typeNodes at hi
  split at hi
  · rename_i t ht
    cases t with
    | cls h' ms' => injection hi with h1 h2; subst h2; exact DS.sectsOK _
    | _ => cases hi
  · cases hi

def FindR.sp (c : Spell) : FindR (Decl Node) → FindR (Decl Node)
  | .found d => .found (c.decl d)
  | .none => .none
  | .hang => .hang

theorem DS.findR_sp (r : Option (Option (Decl Node))) : DS.findR (r.map (Option.map c.decl)) = (DS.findR r).sp c := by
  rcases r with _ | _ | d <;> rfl

theorem DS.heritage_sp (k : DS) (h : List (TypeId (Decl Node))) : ((h.map (TypeId.tr c.tr)).map (k.sp c).typeNo) = h.map k.typeNo := by
  rw [List.map_map]
  exact List.map_congr_left fun t _ => DS.typeNo_sp k t

include G in
theorem DS.findMember_sp (k : DS) (h : List (TypeId (Decl Node))) (ms : Sects (Decl Node)) (a : Str) :
    (k.sp c).findMember u (h.map (TypeId.tr c.tr)) (ms.tr c.tr) (c.nm a) = (k.findMember u h ms a).sp c := by
  unfold DS.findMember
  rw [DS.sections_sp G, ClassType.findOwn_sp G _ _ _ (DS.sectsOK ms), G.low, DS.heritage_sp,
    show (k.sp c).typeNodes = fun i => (k.typeNodes i).sp c from funext (DS.typeNodes_sp G k), ClassType.getParentClass_sp]
  cases ClassType.findOwn u (u.toLower a) true (DS.sections ms) with
  | some r => exact DS.findR_sp (some r)
  | none =>
    simp only [Option.map_none]
    cases ClassType.getParentClass k.typeNodes (h.map k.typeNo) with
    | none => rfl
    | some d =>
      simp only
      rw [ClassType.findMemberDecl_sp G _ k.typesOK, DS.findR_sp, show (k.sp c).types.length = k.types.length from List.length_map ..]

include G in
theorem DS.findProp_sp (k : DS) (h : List (TypeId (Decl Node))) (ms : Sects (Decl Node)) (a : Str) :
    (k.sp c).findProp u (h.map (TypeId.tr c.tr)) (ms.tr c.tr) (c.nm a) = (k.findProp u h ms a).sp c := by
  unfold DS.findProp
  rw [DS.sections_sp G, ClassType.findOwnProperty_sp G, G.low, DS.heritage_sp,
    show (k.sp c).typeNodes = fun i => (k.typeNodes i).sp c from funext (DS.typeNodes_sp G k), ClassType.getParentClass_sp]
  cases ClassType.findOwnProperty u (u.toLower a) (DS.sections ms) with
  | some r => rfl
  | none =>
    simp only [Option.map_none]
    cases ClassType.getParentClass k.typeNodes (h.map k.typeNo) with
    | none => rfl
    | some d =>
      simp only
      rw [ClassType.findProperty_sp G, DS.findR_sp, show (k.sp c).types.length = k.types.length from List.length_map ..]

theorem DS.inherits_sp (p : ClassProp (Decl Node)) (d : Decl Node) : DS.inherits (p.tr c.tr) (c.decl d) = DS.inherits p d := by
  obtain ⟨i, intf, ix, rd, wr, st, df, impl, parent⟩ := p
  obtain ⟨n, d⟩ := d
  cases d <;> simp only [ClassProp.tr, DS.inherits, DS.hasIntf_sp, Option.isNone_map, Spell.decl, Spell.node]

/-! ## Operations -/

include G in
theorem DS.get_sp (k : DS) (a : Str) : (k.sp c).get u (c.nm a) = (k.get u a).map c.decl := World.get_sp G k.w k.cur a

include G in
theorem DS.emb_sp (kind : EmbKind) (a : Str) : DS.emb u kind (c.nm a) = (DS.emb u kind a).map c.decl := by
  unfold DS.emb
  rw [G.up]
  split <;> rfl

def Member.sp (c : Spell) : Member (Decl Node) → Member (Decl Node)
  | .found d => .found (c.decl d)
  | .error => .error
  | .panic => .panic

include G in
theorem DS.inMap_sp (k : DS) (dm : Option Nat) (a : Str) : (k.sp c).inMap u dm (c.nm a) = (k.inMap u dm a).sp c := by
  cases dm with
  | none => rfl
  | some i =>
    unfold DS.inMap
    simp only [show (k.sp c).w.maps = k.w.maps.map (MapObj.sp c) from rfl, Maps.get_sp G]
    cases Maps.get u k.w.maps i a <;> rfl

include G in
theorem DS.member_sp (k : DS) (d : Decl Node) (a : Str) : (k.sp c).member u (c.decl d) (c.nm a) = (k.member u d a).sp c := by
  obtain ⟨n, d⟩ := d
  cases d with
  | uses i =>
    show (match (k.items[i]?).join with | none => Member.error | some j => DS.inMap u (k.sp c) ((k.w.sp c).unitDm j) (c.nm a)) =
      Member.sp c (match (k.items[i]?).join with | none => Member.error | some j => DS.inMap u k (k.w.unitDm j) a)
    cases (k.items[i]?).join with
    | none => rfl
    | some j => simp only [World.unitDm_sp]; exact DS.inMap_sp G k _ a
  | unit j =>
    show DS.inMap u (k.sp c) ((k.w.sp c).unitDm j) (c.nm a) = (DS.inMap u k (k.w.unitDm j) a).sp c
    rw [World.unitDm_sp]; exact DS.inMap_sp G k _ a
  | program => exact DS.inMap_sp G k k.program a
  | _ => rfl

theorem DS.rollback_sp (k : DS) : (k.sp c).rollback = k.rollback.sp c := by
  unfold DS.rollback
  rw [show (k.sp c).w.clone (k.sp c).cur = (k.w.sp c).clone k.cur from rfl, World.clone_sp]
  cases k.w.clone k.cur with
  | none => rfl
  | some r => rfl

def SetR.sp (c : Spell) : SetR DS → SetR DS
  | .ok k => .ok (k.sp c)
  | .err => .err
  | .panic => .panic

theorem DS.setR_sp (k : DS) (w : World Node) (o : Outcome) : (k.sp c).setR (w.sp c, o) = (k.setR (w, o)).sp c := by
  cases o <;> rfl

theorem DS.addType_sp (k : DS) (d : DKind (Decl Node)) : (k.sp c).addType (d.tr c.tr) = (k.addType d).sp c := by
  cases d <;> try rfl
  simp only [DKind.tr, DS.addType, DS.sp, List.map_append, List.map_cons, List.map_nil]

theorem DS.mkNode_sp (k : DS) (d : DKind (Decl Node)) (i : Ident) : (k.sp c).mkNode (d.tr c.tr) (c.id i) = c.node (k.mkNode d i) := by
  cases d <;> try rfl
  show Node.type (k.sp c).types.length = Node.type k.types.length
  rw [show (k.sp c).types.length = k.types.length from List.length_map ..]

theorem DS.mkNode_decl (k : DS) (d : DKind (Decl Node)) (i : Ident) (a : Str) :
    c.decl ⟨a, k.mkNode d i⟩ = ⟨c.nm a, c.node (k.mkNode d i)⟩ := by
  cases d <;> rfl

include G in
theorem DS.set_sp (k : DS) (is : List Ident) (d : DKind (Decl Node)) :
    (k.sp c).set u (is.map c.id) (d.tr c.tr) = (k.set u is d).sp c := by
  unfold DS.set
  have : ((is.map c.id).map fun i => (⟨i.name, (k.sp c).mkNode (d.tr c.tr) i⟩ : Decl Node)) =
      (is.map fun i => (⟨i.name, k.mkNode d i⟩ : Decl Node)).map c.decl := by
    rw [List.map_map, List.map_map]
    exact List.map_congr_left fun i _ => by
      simp only [Function.comp, DS.mkNode_decl, DS.mkNode_sp, Spell.id_name]
  rw [this, DS.addType_sp, show (k.sp c).w.set u (k.sp c).cur = (k.w.sp c).set u k.cur from rfl, World.set_sp G]
  exact DS.setR_sp _ _ _

include G in
theorem DS.complete_sp (k : DS) (old : Decl Node) (i : Ident) (t : PType (Decl Node)) :
    (k.sp c).complete u (c.decl old) (c.id i) (t.tr c.tr) = (k.complete u old i t).sp c := by
  obtain ⟨n, d⟩ := old
  cases d with
  | type j =>
    cases t with
    | cls h ms =>
      rw [PType.tr]
      show (match (k.sp c).types[j]? with | some .forward => _ | _ => _) = _
      rw [show (k.sp c).types[j]? = k.types[j]?.map (·.tr c.tr) from List.getElem?_map ..]
      unfold DS.complete
      simp only
      cases hj : k.types[j]? with
      | none => rfl
      | some t =>
        simp only [Option.map_some]
        cases t <;> simp only [PType.tr] <;> try rfl
        have := World.overwrite_sp G k.w k.cur i.name ⟨i.name, .type k.types.length⟩
        rw [show (k.sp c).types.length = k.types.length from List.length_map ..]
        show DS.setR _ ((k.w.sp c).overwrite u k.cur (c.nm i.name) (c.decl ⟨i.name, .type k.types.length⟩)) = _
        rw [this, ← DS.setR_sp]
        congr 1
        simp only [DS.sp, List.map_append, List.map_cons, List.map_nil, PType.tr]
    | _ => simp only [PType.tr]; rfl
  | _ => rfl

theorem DS.stack_sp (k : DS) : (k.sp c).stack = k.stack.sp c := by
  unfold DS.stack
  rw [show (k.sp c).w.stack (k.sp c).cur = (k.w.sp c).stack k.cur from rfl, World.stack_sp]
  cases k.w.stack k.cur with
  | none => rfl
  | some r => rfl

theorem DS.restore_sp (k0 k : DS) : DS.restore (k0.sp c) (k.sp c) = (DS.restore k0 k).sp c := by
  unfold DS.restore
  rw [show (k0.sp c).w.dm (k0.sp c).cur = k0.w.dm k0.cur from rfl]
  cases k0.w.dm k0.cur <;> rfl

theorem DS.newRef_sp (k : DS) (a : Str) : (k.sp c).newRef (c.nm a) = ((k.newRef a).1.sp c, (k.newRef a).2) := by
  unfold DS.newRef
  simp only [DS.sp, List.map_append, List.map_cons, List.map_nil, List.length_map, Option.map_none]

include G in
theorem DS.runRef_sp (k : DS) (r : Nat × Str) : DS.runRef u (k.sp c) (r.1, c.nm r.2) = (DS.runRef u k r).sp c := by
  unfold DS.runRef
  simp only [DS.get_sp G]
  cases k.get u r.2 with
  | none => rfl
  | some d => simp only [Option.map_some, DS.sp, List.map_set]

include G in
theorem DS.runRefs_sp : ∀ (rs : List (Nat × Str)) (k : DS),
    (rs.map fun r => (r.1, c.nm r.2)).foldl (DS.runRef u) (k.sp c) = (rs.foldl (DS.runRef u) k).sp c := by
  intro rs
  induction rs with
  | nil => intro k; rfl
  | cons r rs ih =>
    intro k
    simp only [List.map_cons, List.foldl_cons, DS.runRef_sp G, ih]

include G in
theorem DS.runSection_sp (k : DS) : (k.sp c).runSection u = (k.runSection u).sp c := DS.runRefs_sp G k.pending k


/-! ## The simulation -/

/-- the names are the same up to spelling -/
def NmR (c : Spell) (a b : Str) : Prop := c.nm a = c.nm b

/-- the contexts are the same up to spelling -/
def DSR (c : Spell) (k l : DS) : Prop := k.sp c = l.sp c

theorem DSR.setR {a b : SetR DS} (h : a.sp c = b.sp c) : SetRR (DSR c) a b := by
  cases a <;> cases b <;> first | exact trivial | (cases h) | (injection h)

theorem option_rel_map {α β : Type} {f : α → β} {a b : Option α} (h : a.map f = b.map f) : Option.Rel (fun x y => f x = f y) a b := by
  cases a <;> cases b <;> first | exact .none | (cases h) | (refine .some ?_; injection h)

theorem same_sp {d e : Decl Node} (h : SameD c.tr c.tr d e) : c.decl d = c.decl e := by
  obtain ⟨_, _, h⟩ := h
  exact h

theorem declR_sp {x y : Str} {d e : Decl Node} (h : c.decl d = c.decl e) : DeclR u (NmR c) c.tr c.tr x y d e :=
  ⟨⟨⟨[], ⟨0, 0, 0⟩, ⟨0, 0, 0⟩⟩, ⟨[], ⟨0, 0, 0⟩, ⟨0, 0, 0⟩⟩, h⟩, fun _ _ _ _ _ => h⟩

theorem declRs_sp {x y : Str} {d e : Option (Decl Node)} (h : d.map c.decl = e.map c.decl) :
    Option.Rel (DeclR u (NmR c) c.tr c.tr x y) d e := by
  cases d <;> cases e
  · exact .none
  · cases h
  · cases h
  · exact .some (declR_sp (Option.some.inj h))

theorem findRR_sp {x y : Str} {a b : FindR (Decl Node)} (h : a.sp c = b.sp c) : FindRR u (NmR c) c.tr c.tr x y a b := by
  cases a <;> cases b <;> first | exact trivial | (cases h) | (injection h with h; exact declR_sp h)

theorem Spell.isType_decl (d : Decl Node) : (declEnv u).isType (c.decl d) = (declEnv u).isType d := by
  obtain ⟨n, d⟩ := d; cases d <;> rfl
theorem Spell.isNamespace_decl (d : Decl Node) : (declEnv u).isNamespace (c.decl d) = (declEnv u).isNamespace d := by
  obtain ⟨n, d⟩ := d; cases d <;> rfl
theorem Spell.isUses_decl (d : Decl Node) : (declEnv u).isUses (c.decl d) = (declEnv u).isUses d := by
  obtain ⟨n, d⟩ := d; cases d <;> rfl
theorem Spell.isLabel_decl (d : Decl Node) : (declEnv u).isLabel (c.decl d) = (declEnv u).isLabel d := by
  obtain ⟨n, d⟩ := d
  cases d with
  | decl t i => cases t <;> rfl
  | _ => rfl

include G in
/-- The parser cannot tell contexts apart that are the same up to spelling. -/
theorem dsim : DSim u (NmR c) c.tr c.tr (DSR c) (declEnv u) (declEnv u) where
  get {k l a b} hk ha := declRs_sp (by
    show (k.get u a).map c.decl = (l.get u b).map c.decl
    rw [← DS.get_sp G, ← DS.get_sp G, show k.sp c = l.sp c from hk, show c.nm a = c.nm b from ha])
  isType {d e} h := by rw [← Spell.isType_decl (c := c) d, ← Spell.isType_decl (c := c) e, same_sp h]
  isNamespace {d e} h := by rw [← Spell.isNamespace_decl (c := c) d, ← Spell.isNamespace_decl (c := c) e, same_sp h]
  isUses {d e} h := by rw [← Spell.isUses_decl (c := c) d, ← Spell.isUses_decl (c := c) e, same_sp h]
  member {k l d e a b} hk hd ha := by
    have : (k.member u d a).sp c = (l.member u e b).sp c := by
      rw [← DS.member_sp G, ← DS.member_sp G, show k.sp c = l.sp c from hk, show c.nm a = c.nm b from ha, same_sp hd]
    have e1 : (declEnv u).member k d a = k.member u d a := rfl
    have e2 : (declEnv u).member l e b = l.member u e b := rfl
    rw [e1, e2]
    cases h1 : k.member u d a <;> cases h2 : l.member u e b <;> rw [h1, h2] at this <;>
      first | exact trivial | (cases this) | (injection this with h; exact declR_sp h)
  rollback {k l} hk := by
    show k.rollback.sp c = l.rollback.sp c
    rw [← DS.rollback_sp, ← DS.rollback_sp, show k.sp c = l.sp c from hk]
  refl _ := rfl
  name {i j} h := congrArg Ident.name h
  str := rfl
  isLabel {d e} h := by rw [← Spell.isLabel_decl (c := c) d, ← Spell.isLabel_decl (c := c) e, same_sp h]
  emb {k a b} ha := declRs_sp (by
    show (DS.emb u k a).map c.decl = (DS.emb u k b).map c.decl
    rw [← DS.emb_sp G, ← DS.emb_sp G, show c.nm a = c.nm b from ha])
  set {k l is js a b} hk hi ha := DSR.setR (by
    show (k.set u is a).sp c = (l.set u js b).sp c
    rw [← DS.set_sp G, ← DS.set_sp G, show k.sp c = l.sp c from hk, show is.map c.id = js.map c.id from hi, ha])
  complete {k l d e i j x y} hk hd hi hx := DSR.setR (by
    show (k.complete u d i x).sp c = (l.complete u e j y).sp c
    rw [← DS.complete_sp G, ← DS.complete_sp G, show k.sp c = l.sp c from hk, show c.id i = c.id j from hi, hx, same_sp hd])
  stack {k l} hk := by
    show k.stack.sp c = l.stack.sp c
    rw [← DS.stack_sp, ← DS.stack_sp, show k.sp c = l.sp c from hk]
  restore {k0 l0 k l} h0 hk := by
    show (DS.restore k0 k).sp c = (DS.restore l0 l).sp c
    rw [← DS.restore_sp, ← DS.restore_sp, show k.sp c = l.sp c from hk, show k0.sp c = l0.sp c from h0]
  newRef {k l a b} hk ha := by
    have h := DS.newRef_sp (c := c) k a
    have h' := DS.newRef_sp (c := c) l b
    rw [show k.sp c = l.sp c from hk, show c.nm a = c.nm b from ha, h'] at h
    injection h with h1 h2
    exact ⟨h1.symm, h2.symm⟩
  openSection {k l} hk := by
    show DS.sp c { k with pending := [] } = DS.sp c { l with pending := [] }
    have hk : k.sp c = l.sp c := hk
    simp only [DS.sp, DS.mk.injEq] at hk ⊢
    simp only [hk, and_self]
  runSection {k l} hk := by
    show (k.runSection u).sp c = (l.runSection u).sp c
    rw [← DS.runSection_sp G, ← DS.runSection_sp G, show k.sp c = l.sp c from hk]
  closeSection {k0 l0 k l} h0 hk := by
    show DS.sp c { k with pending := k0.pending } = DS.sp c { l with pending := l0.pending }
    have hk : k.sp c = l.sp c := hk
    have h0 : k0.sp c = l0.sp c := h0
    simp only [DS.sp, DS.mk.injEq] at hk h0 ⊢
    simp only [hk, h0, and_self]
  ordinal {k l x y} hk hx := by
    show k.ordinal x = l.ordinal y
    rw [← DS.ordinal_sp (c := c), ← DS.ordinal_sp (c := c) l, show k.sp c = l.sp c from hk, hx]
  findMember {k l h h' x y a b} hk hh hx ha := findRR_sp (by
    show (k.findMember u h x a).sp c = (l.findMember u h' y b).sp c
    rw [← DS.findMember_sp G, ← DS.findMember_sp G, show k.sp c = l.sp c from hk, hh, hx, show c.nm a = c.nm b from ha])
  findProp {k l h h' x y a b} hk hh hx ha := findRR_sp (by
    show (k.findProp u h x a).sp c = (l.findProp u h' y b).sp c
    rw [← DS.findProp_sp G, ← DS.findProp_sp G, show k.sp c = l.sp c from hk, hh, hx, show c.nm a = c.nm b from ha])
  inherits {k l p q d e} _ hp hd := by
    show DS.inherits p d = DS.inherits q e
    rw [← DS.inherits_sp (c := c), ← DS.inherits_sp (c := c) q, hp, same_sp hd]

end TP
