import Verif.Spec.Accept
import Verif.Lemmas.Routine
import Verif.Lemmas.Forward
import Verif.Lemmas.StmtComplete

/-!
# The bookkeeping of names agrees with the context of the parser
-/

namespace TP
open Spec Maps

/-- the declaration is of this sort -/
def HasWhat : What → Node → Prop
  | .type, n => (∃ i, n = .type i)
  | .space, n => (∃ i, n = .uses i) ∨ (∃ i, n = .unit i) ∨ n = .program
  | .label, n => (∃ i, n = .decl .label i)
  | .other, n => (∃ t i, n = .decl t i ∧ t ≠ .label)

/-- a type that is ordinal whatever is declared -/
def OrdTy : PType (Decl Node) → Prop
  | .enum _ => True
  | .subrange _ _ => True
  | .id t => ∃ d n, t.ref = .now d ∧ d.node = .embedded .ordIdent n
  | _ => False

/-- a class with a smaller number than each of the classes derived from it -/
inductive Grounded (ts : List (PType (Decl Node))) : Nat → Prop
  | root {i ms} : ts[i]? = some (.cls [] ms) → Grounded ts i
  | fwd {i j a as ms d} : ts[i]? = some (.cls (a :: as) ms) → a.ref = .now d → d.node = .type j → ts[j]? = some .forward → Grounded ts i
  | sub {i j a as ms d} : ts[i]? = some (.cls (a :: as) ms) → a.ref = .now d → d.node = .type j → j < i → Grounded ts j → Grounded ts i

/-- the heritage begins with such a class or with a forward declared one -/
def GroundedList (ts : List (PType (Decl Node))) (h : List (TypeId (Decl Node))) : Prop :=
  h = [] ∨ ∃ a as d j, h = a :: as ∧ a.ref = .now d ∧ d.node = .type j ∧ (ts[j]? = some .forward ∨ Grounded ts j)

/-- the type is of this sort -/
def HasSort (ts : List (PType (Decl Node))) : NameSort → PType (Decl Node) → Prop
  | .plain, _ => True
  | .ord, ty => OrdTy ty
  | .fwd, ty => ty = .forward
  | .cls, ty => ∃ h ms, ty = .cls h ms
  | .rooted, ty => ∃ h ms, ty = .cls h ms ∧ GroundedList ts h
  | .label, _ => False

/-- the declaration of such a type -/
def SortDecl (k : DS) (o : NameSort) (d : Decl Node) : Prop :=
  ∃ i t, d.node = .type i ∧ k.types[i]? = some t ∧ HasSort k.types o t ∧ (o = .rooted → Grounded k.types i)

theorem types_get {ts ts' : List (PType (Decl Node))} (h : ts <+: ts') {i : Nat} {t : PType (Decl Node)} (e : ts[i]? = some t) : ts'[i]? = some t := by
  obtain ⟨l, rfl⟩ := h
  rw [List.getElem?_append_left (by rw [List.getElem?_eq_some_iff] at e; exact e.1)]
  exact e

theorem Grounded.mono {ts ts' : List (PType (Decl Node))} (h : ts <+: ts') {i : Nat} (g : Grounded ts i) : Grounded ts' i := by
  induction g with
  | root e => exact .root (types_get h e)
  | fwd e h1 h2 h3 => exact .fwd (types_get h e) h1 h2 (types_get h h3)
  | sub e h1 h2 h3 _ ih => exact .sub (types_get h e) h1 h2 h3 ih

theorem Grounded.lt {ts : List (PType (Decl Node))} {i : Nat} (g : Grounded ts i) : i < ts.length := by
  cases g with
  | root e => exact (List.getElem?_eq_some_iff.1 e).1
  | fwd e => exact (List.getElem?_eq_some_iff.1 e).1
  | sub e => exact (List.getElem?_eq_some_iff.1 e).1

theorem GroundedList.mono {ts ts' : List (PType (Decl Node))} (h : ts <+: ts') {l : List (TypeId (Decl Node))} (g : GroundedList ts l) :
    GroundedList ts' l := by
  rcases g with g | ⟨a, as, d, j, g1, g2, g3, g4⟩
  · exact .inl g
  · exact .inr ⟨a, as, d, j, g1, g2, g3, g4.imp (types_get h) (.mono h)⟩

theorem HasSort.mono {ts ts' : List (PType (Decl Node))} (h : ts <+: ts') {o : NameSort} {t : PType (Decl Node)} (g : HasSort ts o t) :
    HasSort ts' o t := by
  cases o with
  | rooted =>
    obtain ⟨l, ms, g1, g2⟩ := g
    exact ⟨l, ms, g1, g2.mono h⟩
  | _ => exact g

/-- a new type of this sort -/
theorem sortDecl_new {k : DS} {o : NameSort} {t : PType (Decl Node)} {ts : List (PType (Decl Node))} {n : Str} (h : HasSort ts o t)
    (ht : k.types = ts ++ [t]) : SortDecl k o ⟨n, .type ts.length⟩ := by
  have hp : ts <+: k.types := by rw [ht]; exact List.prefix_append _ _
  have e : k.types[ts.length]? = some t := by rw [ht]; exact List.getElem?_concat_length
  refine ⟨_, t, rfl, e, h.mono hp, fun c => ?_⟩
  subst c
  obtain ⟨l, ms, rfl, g⟩ := h
  rcases g with rfl | ⟨a, as, d, j, rfl, g2, g3, g4⟩
  · exact .root e
  · rcases g4 with g4 | g4
    · exact .fwd e g2 g3 (types_get hp g4)
    · exact .sub e g2 g3 g4.lt (g4.mono hp)

theorem SortDecl.mono {k k' : DS} {o : NameSort} {d : Decl Node} (h : SortDecl k o d) (hp : k.types <+: k'.types) : SortDecl k' o d := by
  obtain ⟨i, t, h1, h2, h3, h4⟩ := h
  exact ⟨i, t, h1, types_get hp h2, h3.mono hp, fun c => (h4 c).mono hp⟩

/-- a label, or a type of this sort -/
def SureDecl (k : DS) (o : NameSort) (d : Decl Node) : Prop :=
  (o = .label ∧ ∃ i, d.node = .decl .label i) ∨ (o ≠ .label ∧ ∃ i, d.node = .type i ∧ (o ≠ .plain → SortDecl k o d))

theorem SureDecl.mono {k k' : DS} {o : NameSort} {d : Decl Node} (h : SureDecl k o d) (hp : k.types <+: k'.types) : SureDecl k' o d :=
  h.imp id fun ⟨h1, i, h2, h3⟩ => ⟨h1, i, h2, fun c => (h3 c).mono hp⟩

theorem SureDecl.notEmb {k : DS} {o : NameSort} {d : Decl Node} (h : SureDecl k o d) {e : EmbKind} {n : Str} : d.node ≠ .embedded e n := by
  rcases h with ⟨-, i, h⟩ | ⟨-, i, h, -⟩ <;> rw [h] <;> exact fun c => by cases c

/-- The names visible in the context `k` are those of `Γ`. -/
structure Agrees (u : Uni) (Γ : NameEnv) (k : DS) : Prop where
  rooted : Rooted k
  shown : ∀ name, k.get u name = embGet u name ∨
    ∃ d w, k.get u name = some d ∧ (u.toLower name, w) ∈ Γ.seen ∧ HasWhat w d.node
  inner : ∀ t, Innermost k t → ∀ key d, (tbl k.w.maps t).find key = some d → key ∈ Γ.inner
  sure : ∀ name o, (u.toLower name, o) ∈ Γ.sure →
    ∃ d, k.get u name = some d ∧ SureDecl k o d

theorem Agrees.sureT {u : Uni} {Γ : NameEnv} {k : DS} (h : Agrees u Γ k) {name : Str} {o : NameSort} (ho : (u.toLower name, o) ∈ Γ.sure)
    (hl : o ≠ .label) : ∃ d i, k.get u name = some d ∧ d.node = .type i ∧ (o ≠ .plain → SortDecl k o d) := by
  obtain ⟨d, h1, h2⟩ := h.sure name o ho
  rcases h2 with ⟨c, -⟩ | ⟨-, i, h2, h3⟩
  · exact absurd c hl
  · exact ⟨d, i, h1, h2, h3⟩

/-! ## Embedded types -/

section
variable {u : Uni}

theorem find_map_emb (l : List (EmbKind × Str)) (key : Str) :
    Tbl.find (l.map fun kn => (u.toUpper kn.2, (⟨kn.2, EmbNode.emb kn.1 kn.2⟩ : Decl Node))) key =
      (l.find? fun kn => u.toUpper kn.2 == key).map fun kn => ⟨kn.2, .embedded kn.1 kn.2⟩ := by
  induction l with
  | nil => rfl
  | cons kn l ih =>
    rw [List.map_cons, Tbl.find_cons, List.find?_cons, ih]
    by_cases c : u.toUpper kn.2 = key
    · rw [if_pos c, beq_iff_eq.2 c]; rfl
    · rw [if_neg c, beq_eq_false_iff_ne.2 c]

theorem embGet_eq (name : Str) : (embGet u name : Option (Decl Node)) =
    (embeddedTypes.find? fun kn => u.toUpper kn.2 == u.toUpper name).map fun kn => ⟨kn.2, .embedded kn.1 kn.2⟩ :=
  find_map_emb _ _

theorem embGet_node {name : Str} {d : Decl Node} (h : embGet u name = some d) : ∃ e n, d.node = .embedded e n := by
  rw [embGet_eq, Option.map_eq_some_iff] at h
  obtain ⟨kn, -, rfl⟩ := h
  exact ⟨_, _, rfl⟩

theorem embGet_none {name : Str} (h : NameEnv.embedded u name = false) : (embGet u name : Option (Decl Node)) = none := by
  rw [embGet_eq, Option.map_eq_none_iff, List.find?_eq_none]
  intro kn hk hn
  unfold NameEnv.embedded at h
  rw [List.any_eq_false] at h
  exact h kn hk hn

theorem embGet_some {name : Str} (h : NameEnv.embedded u name = true) :
    ∃ d e n, embGet u name = some d ∧ d.node = Node.embedded e n := by
  unfold NameEnv.embedded at h
  obtain ⟨kn, h1, h2⟩ := List.any_eq_true.1 h
  cases e : (embeddedTypes.find? fun kn => u.toUpper kn.2 == u.toUpper name) with
  | none => exact absurd h2 (List.find?_eq_none.1 e kn h1)
  | some kn => exact ⟨_, kn.1, kn.2, by rw [embGet_eq, e]; rfl, rfl⟩

theorem emb_none {e : EmbKind} {name : Str} (h : NameEnv.embedded u name = false) : DS.emb u e name = none := by
  unfold DS.emb
  rw [show embeddedTypes.find? (fun kn => kn.1 == e && u.toUpper kn.2 == u.toUpper name) = none from ?_]
  rw [List.find?_eq_none]
  intro kn hk hn
  unfold NameEnv.embedded at h
  rw [List.any_eq_false] at h
  exact h kn hk (Bool.and_eq_true_iff.1 hn).2

/-- the names of different kinds differ, in any spelling -/
theorem emb_kind {k1 k2 : EmbKind × Str} (h1 : k1 ∈ embeddedTypes) (h2 : k2 ∈ embeddedTypes)
    (h : u.toUpper k1.2 = u.toUpper k2.2) : k1.1 = k2.1 := by
  have ha : ∀ kn ∈ embeddedTypes, Asc kn.2 := by decide
  rw [toUpper_asc (ha _ h1), toUpper_asc (ha _ h2)] at h
  have : ∀ k1 ∈ embeddedTypes, ∀ k2 ∈ embeddedTypes, k1.2.map asciiUp = k2.2.map asciiUp → k1.1 = k2.1 := by decide +kernel
  exact this _ h1 _ h2 h

theorem emb_ord {name : Str} (h : NameEnv.embeddedOrd u name = true) :
    DS.emb u .real name = none ∧ ∃ d n, DS.emb u .ordIdent name = some d ∧ d.node = .embedded .ordIdent n := by
  unfold NameEnv.embeddedOrd at h
  obtain ⟨kn, h1, h2⟩ := List.any_eq_true.1 h
  rw [Bool.and_eq_true, beq_iff_eq, beq_iff_eq] at h2
  unfold DS.emb
  constructor
  · rw [show embeddedTypes.find? (fun kn => kn.1 == .real && u.toUpper kn.2 == u.toUpper name) = none from ?_]
    rw [List.find?_eq_none]
    intro kn' hk hn
    rw [Bool.and_eq_true, beq_iff_eq, beq_iff_eq] at hn
    have := emb_kind (u := u) h1 hk (h2.2.trans hn.2.symm)
    rw [h2.1, hn.1] at this
    cases this
  · cases e : embeddedTypes.find? (fun kn => kn.1 == .ordIdent && u.toUpper kn.2 == u.toUpper name) with
    | none => exact absurd (by simp [h2.1, h2.2]) (List.find?_eq_none.1 e kn h1)
    | some kn' =>
      have := List.find?_some e
      simp only [Bool.and_eq_true, beq_iff_eq] at this
      exact ⟨_, kn'.2, rfl, by simp [this.1]⟩

theorem emb_string {t : Token} (h : IsKw u r!"STRING" t) : ∃ d n, DS.emb u .string (t.value u) = some d ∧ d.node = .embedded .string n := by
  rw [kw_value h]
  unfold DS.emb
  cases e : embeddedTypes.find? (fun kn => kn.1 == .string && u.toUpper kn.2 == u.toUpper r!"STRING") with
  | none =>
    refine absurd ?_ (List.find?_eq_none.1 e (.string, r!"String") (by decide))
    rw [toUpper_asc (by decide), toUpper_asc (by decide)]
    decide
  | some kn' =>
    have := List.find?_some e
    simp only [Bool.and_eq_true, beq_iff_eq] at this
    exact ⟨_, kn'.2, rfl, by simp [this.1]⟩

end

/-! ## Lookups -/

section
variable {u : Uni} {Γ : NameEnv} {k : DS}

/-- what is found is no label -/
theorem Agrees.notLabel (h : Agrees u Γ k) {name : Str} (hn : (u.toLower name, .label) ∉ Γ.seen) {d : Decl Node}
    (e : k.get u name = some d) : (declEnv u).isLabel d = false := by
  rcases h.shown name with hs | ⟨d', w, h1, h2, h3⟩
  · rw [hs] at e
    obtain ⟨x, n, hn⟩ := embGet_node e
    simp only [declEnv, hn]
  · rw [h1] at e; cases e
    cases w with
    | type => obtain ⟨i, hi⟩ := h3; simp only [declEnv, hi]
    | space => rcases h3 with ⟨i, hi⟩ | ⟨i, hi⟩ | hi <;> simp only [declEnv, hi]
    | label => exact absurd h2 hn
    | other =>
      obtain ⟨t, i, hi, ht⟩ := h3
      cases t <;> simp only [declEnv, hi]
      exact absurd rfl ht

theorem Agrees.notSpace (h : Agrees u Γ k) {name : Str} (hn : Γ.get u name ≠ some .space) {d : Decl Node}
    (e : k.get u name = some d) : (declEnv u).isNamespace d = false ∧ (declEnv u).isUses d = false := by
  rcases h.shown name with hs | ⟨d', w, h1, h2, h3⟩
  · rw [hs] at e
    obtain ⟨x, n, hn⟩ := embGet_node e
    simp only [declEnv, hn, and_self]
  · rw [h1] at e; cases e
    cases w with
    | type => obtain ⟨i, hi⟩ := h3; simp only [declEnv, hi, and_self]
    | space => exact absurd (by unfold NameEnv.get; rw [if_pos h2]) hn
    | label => obtain ⟨i, hi⟩ := h3; simp only [declEnv, hi, and_self]
    | other => obtain ⟨t, i, hi, ht⟩ := h3; simp only [declEnv, hi, and_self]

theorem Agrees.notType (h : Agrees u Γ k) {name : Str} (hn : Γ.get u name ≠ some .type) (hs' : (u.toLower name, .space) ∉ Γ.seen)
    {d : Decl Node} (e : k.get u name = some d) : (declEnv u).isType d = false := by
  have hg : ¬ (NameEnv.embedded u name = true ∨ (u.toLower name, .type) ∈ Γ.seen) := fun c =>
    hn (by unfold NameEnv.get; rw [if_neg hs', if_pos c])
  rcases h.shown name with hs | ⟨d', w, h1, h2, h3⟩
  · rw [hs] at e
    have : NameEnv.embedded u name = false := by
      cases c : NameEnv.embedded u name with
      | false => rfl
      | true => exact absurd (.inl c) hg
    rw [embGet_none this] at e; cases e
  · rw [h1] at e; cases e
    cases w with
    | type => exact absurd (.inr h2) hg
    | space => exact absurd h2 hs'
    | label => obtain ⟨i, hi⟩ := h3; simp only [declEnv, hi]
    | other => obtain ⟨t, i, hi, ht⟩ := h3; simp only [declEnv, hi]

theorem Agrees.sureType (h : Agrees u Γ k) {name : Str} (hn : Γ.Sure u name) :
    ∃ d, k.get u name = some d ∧ (declEnv u).isType d = true ∧ (declEnv u).isUses d = false := by
  rcases hn with ⟨o, ho, hl⟩ | ⟨he, hs⟩
  · obtain ⟨d, i, h1, h2, -⟩ := h.sureT ho hl
    exact ⟨d, h1, by simp only [declEnv, h2], by simp only [declEnv, h2]⟩
  · obtain ⟨d, e, n, h1, h2⟩ := embGet_some he
    rcases h.shown name with hg | ⟨d', w, -, h2, -⟩
    · exact ⟨d, hg.trans h1, by simp only [declEnv, h2], by simp only [declEnv, h2]⟩
    · exact absurd h2 (hs w)

/-! ## Operations -/

/-- nothing changed but numbers of pending references -/
theorem Agrees.same (h : Agrees u Γ k) {k' : DS} (hw : k'.w = k.w) (hc : k'.cur = k.cur) (ht : k'.types = k.types) : Agrees u Γ k' where
  rooted := by unfold Rooted; rw [hw, hc]; exact h.rooted
  shown name := by unfold DS.get; rw [hw, hc]; exact h.shown name
  inner t hi := by
    rw [hw]
    exact h.inner t (by unfold Innermost at hi ⊢; rw [hw, hc] at hi; exact hi)
  sure name o ho := by
    obtain ⟨d, h1, h2⟩ := h.sure name o ho
    exact ⟨d, by unfold DS.get; rw [hw, hc]; exact h1, h2.mono (by rw [ht]; exact List.prefix_rfl)⟩

/-- the contexts differ, but not in what they show -/
structure Alike (k c : DS) : Prop where
  maps : c.w.maps = k.w.maps
  units : c.w.units = k.w.units
  types : c.types = k.types
  items : c.items = k.items
  program : c.program = k.program
  cur : ∃ o o', k.w.ctxs.obj k.cur = some o ∧ c.w.ctxs.obj c.cur = some o' ∧ (∀ p q d, o ≠ .stackable p q d) ∧
    (∀ p q d, o' ≠ .stackable p q d) ∧ o'.dm = o.dm

theorem Alike.refl (h : Rooted k) : Alike k k := by
  obtain ⟨o, t, h1, h2, h3⟩ := h
  exact ⟨rfl, rfl, rfl, rfl, rfl, o, o, h1, h1, h2, h2, rfl⟩

theorem Alike.get {c : DS} (h : Alike k c) (name : Str) : c.get u name = k.get u name := by
  obtain ⟨o, o', h1, h2, h3, h4, h5⟩ := h.cur
  rw [rooted_get u h1 h3, rooted_get u h2 h4, h5, h.maps]

theorem Alike.rollback {c : DS} (h : Alike k c) : Alike k c.rollback := by
  obtain ⟨o, o', h1, h2, h3, h4, h5⟩ := h.cur
  have e : c.rollback = { c with w := { c.w with ctxs := o'.clone :: c.w.ctxs }, cur := c.w.ctxs.length } := by
    unfold DS.rollback World.clone; rw [h2]
  rw [e]
  refine ⟨h.maps, h.units, h.types, h.items, h.program, o, o'.clone, h1, by simp [Ctxs.obj], h3, ?_, ?_⟩
  · cases o' with
    | stackable p q d => exact absurd rfl (h4 p q d)
    | _ => exact fun _ _ _ h => (by cases h)
  · rw [← h5]
    cases o' with
    | stackable p q d => exact absurd rfl (h4 p q d)
    | _ => rfl

theorem Agrees.alike {c : DS} (h : Agrees u Γ k) (a : Alike k c) : Agrees u Γ c where
  rooted := by
    obtain ⟨o, o', h1, h2, h3, h4, h5⟩ := a.cur
    obtain ⟨o2, t, g1, g2, g3⟩ := h.rooted
    rw [h1] at g1; cases g1
    exact ⟨o', t, h2, h4, by rw [a.maps, h5]; exact g3⟩
  shown name := by rw [a.get]; exact h.shown name
  inner t hi := by
    obtain ⟨o, o', h1, h2, h3, h4, h5⟩ := a.cur
    obtain ⟨o2, g1, g2⟩ := hi
    rw [h2] at g1; cases g1
    rw [a.maps]
    rw [a.maps, h5] at g2
    exact h.inner t ⟨o, h1, g2⟩
  sure name o ho := by
    obtain ⟨d, h1, h2⟩ := h.sure name o ho
    exact ⟨d, by rw [a.get]; exact h1, h2.mono (by rw [a.types]; exact List.prefix_rfl)⟩

theorem Agrees.rollback (h : Agrees u Γ k) : Agrees u Γ k.rollback := h.alike (Alike.refl h.rooted).rollback

/-- the table of the innermost scope -/
theorem Agrees.table (h : Agrees u Γ k) : ∃ o t, k.w.ctxs.obj k.cur = some o ∧ (∀ p q d, o ≠ .stackable p q d) ∧
    target k.w.maps o.dm = some t ∧ ∀ key, key ∉ Γ.inner → (tbl k.w.maps t).find key = none := by
  obtain ⟨o, t, h1, h2, h3⟩ := h.rooted
  refine ⟨o, t, h1, h2, h3, fun key hk => ?_⟩
  cases e : (tbl k.w.maps t).find key with
  | none => rfl
  | some d => exact absurd (h.inner t ⟨o, h1, h3⟩ key d e) hk

theorem tblSet_ok {m : Tbl Node} {ds : List (Decl Node)} (hn : (ds.map fun d => u.toLower d.name).Nodup)
    (hf : ∀ d ∈ ds, m.find (u.toLower d.name) = none) : ∃ m', m.set u ds = (m', true) ∧
      ∀ key, m'.find key = (ds.find? fun d => u.toLower d.name == key).or (m.find key) := by
  obtain ⟨pre, post, h1, h2, h3, h4, h5, h6⟩ := Tbl.set_spec u ds m _ _ rfl
  cases hb : (m.set u ds).2 with
  | true =>
    have := h5 hb
    subst this
    rw [List.append_nil] at h1
    subst h1
    exact ⟨_, Prod.ext rfl hb, h2⟩
  | false =>
    exfalso
    obtain ⟨d, post', e, hne⟩ := h6 hb
    subst e
    rw [h2] at hne
    have hd : d ∈ ds := by rw [h1]; simp
    rw [hf d hd] at hne
    cases hp : pre.find? (fun d' => u.toLower d'.name == u.toLower d.name) with
    | none => rw [hp] at hne; exact hne rfl
    | some d' =>
      have e1 := List.mem_of_find?_eq_some hp
      have e2 := List.find?_some hp
      rw [beq_iff_eq] at e2
      rw [h1, List.map_append, List.nodup_append] at hn
      exact hn.2.2 _ (List.mem_map.2 ⟨d', e1, rfl⟩) _ (List.mem_map.2 ⟨d, by simp, rfl⟩) e2

/-- new names can be declared -/
theorem set_new (h : Agrees u Γ k) {is : List Ident} {kind : DKind (Decl Node)} (hn : Γ.New u (is.map Ident.name)) :
    ∃ k' t, k.set u is kind = .ok k' ∧ Innermost k t ∧
      (∃ m, k' = { k with w := { k.w with maps := upd k.w.maps t m }, types := (k.addType kind).types } ∧
        ∀ key, m.find key = ((is.map fun i => (⟨i.name, k.mkNode kind i⟩ : Decl Node)).find? fun d => u.toLower d.name == key).or
          ((tbl k.w.maps t).find key)) := by
  obtain ⟨o, t, h1, h2, h3, h4⟩ := h.table
  have hd : k.w.dm k.cur = some o.dm := World.dm_eq.2 ⟨o, h1, rfl⟩
  have hset := set_eq u k.w.maps o.dm (is.map fun i => ⟨i.name, k.mkNode kind i⟩)
  rw [h3] at hset
  simp only at hset
  obtain ⟨m, g1, g2⟩ := tblSet_ok (u := u) (m := tbl k.w.maps t) (ds := is.map fun i => ⟨i.name, k.mkNode kind i⟩)
    (by rw [List.map_map]; have := hn.1; rw [List.map_map] at this; exact this)
    (by
      intro d hd
      obtain ⟨i, hi, rfl⟩ := List.mem_map.1 hd
      exact h4 _ (hn.2 _ (List.mem_map.2 ⟨i, hi, rfl⟩)))
  rw [g1] at hset
  refine ⟨_, t, ?_, ⟨o, h1, h3⟩, m, rfl, g2⟩
  unfold DS.set DS.setR World.set
  rw [hd]
  simp only
  rw [hset]
  cases kind <;> rfl

theorem find_names {is : List Ident} {f : Ident → Node} {key : Str} {d : Decl Node}
    (h : (is.map fun i => (⟨i.name, f i⟩ : Decl Node)).find? (fun d => u.toLower d.name == key) = some d) :
    ∃ i ∈ is, d = ⟨i.name, f i⟩ ∧ u.toLower i.name = key := by
  have h1 := List.mem_of_find?_eq_some h
  have h2 := List.find?_some h
  obtain ⟨i, hi, rfl⟩ := List.mem_map.1 h1
  exact ⟨i, hi, rfl, beq_iff_eq.1 h2⟩

theorem find_names_none {is : List Ident} {f : Ident → Node} {key : Str}
    (h : (is.map fun i => (⟨i.name, f i⟩ : Decl Node)).find? (fun d => u.toLower d.name == key) = none) :
    key ∉ (is.map Ident.name).map u.toLower := by
  rw [List.find?_eq_none] at h
  intro hm
  obtain ⟨n, h1, rfl⟩ := List.mem_map.1 hm
  obtain ⟨i, hi, rfl⟩ := List.mem_map.1 h1
  exact h _ (List.mem_map.2 ⟨i, hi, rfl⟩) (beq_iff_eq.2 rfl)

/-- the lookups after a declaration -/
theorem get_declared (h : Rooted k) {t : Nat} (ht : Innermost k t) {m : Tbl Node} {ds : List (Decl Node)}
    {ts : List (PType (Decl Node))} {ac : List (Nat × Nat)} (hm : ∀ key, m.find key = (ds.find? fun d => u.toLower d.name == key).or ((tbl k.w.maps t).find key)) :
    Rooted { k with w := { k.w with maps := upd k.w.maps t m }, types := ts, actual := ac } ∧
    ∀ name, ({ k with w := { k.w with maps := upd k.w.maps t m }, types := ts, actual := ac } : DS).get u name =
      (ds.find? fun d => u.toLower d.name == u.toLower name).or (k.get u name) := by
  have main := fun name => evolves_upd (u := u) h ht m (fun key hn => by
    rw [hm] at hn
    exact (Option.or_eq_none_iff.1 hn).2) name (ts := ts) (ac := ac)
  refine ⟨(main []).1, fun name => ?_⟩
  rw [(main name).2]
  unfold Tbl.get Tbl.regularize
  rw [hm]
  cases e : ds.find? fun d => u.toLower d.name == u.toLower name with
  | some d => rfl
  | none =>
    rw [Option.none_or, Option.none_or]
    cases e' : (tbl k.w.maps t).find (u.toLower name) with
    | none => rfl
    | some x => exact (tbl_first h ht e').symm

theorem innermost_upd {t t' : Nat} {m : Tbl Node} {ts : List (PType (Decl Node))} {ac : List (Nat × Nat)} (ht : Innermost k t)
    (h : Innermost { k with w := { k.w with maps := upd k.w.maps t m }, types := ts, actual := ac } t') : t' = t := by
  obtain ⟨o, h1, h2⟩ := ht
  obtain ⟨o', g1, g2⟩ := h
  have g1 : k.w.ctxs.obj k.cur = some o' := g1
  rw [h1] at g1; cases g1
  simp only [target_upd] at g2
  rw [h2] at g2; cases g2; rfl

theorem tbl_upd_inner {t : Nat} (ht : Innermost k t) (m : Tbl Node) : tbl (upd k.w.maps t m) t = m := by
  obtain ⟨o, h1, h2⟩ := ht
  rw [tbl_upd, if_pos rfl]
  rcases target_obj h2 with e | ⟨p, e⟩ <;> rw [e]

/-- kinds of declarations that are no types and no labels -/
def Other : DKind (Decl Node) → Prop
  | .type _ => False
  | .label => False
  | _ => True

theorem other_what {kind : DKind (Decl Node)} (h : Other kind) (i : Ident) :
    HasWhat .other (k.mkNode kind i) ∧ (k.addType kind).types = k.types := by
  cases kind with
  | type t => cases h
  | label => cases h
  | _ => exact ⟨⟨_, _, rfl, by decide⟩, rfl⟩

theorem Agrees.declare (h : Agrees u Γ k) {is : List Ident} {kind : DKind (Decl Node)} (hk : Other kind)
    (hn : Γ.New u (is.map Ident.name)) :
    ∃ k', k.set u is kind = .ok k' ∧ Agrees u (Γ.declare u (is.map Ident.name)) k' ∧ Own k k' := by
  obtain ⟨k', t, e, ht, m, rfl, hm⟩ := set_new h (kind := kind) hn
  refine ⟨_, e, ?_, ?_⟩
  · obtain ⟨hr, hg⟩ := get_declared (ts := (k.addType kind).types) (ac := k.actual) h.rooted ht hm
    refine ⟨hr, fun name => ?_, fun t' ht' key d hf => ?_, fun name o ho => ?_⟩
    · rw [hg]
      cases c : (is.map fun i => (⟨i.name, k.mkNode kind i⟩ : Decl Node)).find? fun d => u.toLower d.name == u.toLower name with
      | some d =>
        obtain ⟨i, hi, rfl, he⟩ := find_names c
        refine .inr ⟨_, .other, rfl, ?_, (other_what hk i).1⟩
        rw [← he]
        exact List.mem_append_left _ (List.mem_map.2 ⟨i.name, List.mem_map.2 ⟨i, hi, rfl⟩, rfl⟩)
      | none =>
        rw [Option.none_or]
        rcases h.shown name with e | ⟨d, w, h1, h2, h3⟩
        · exact .inl e
        · exact .inr ⟨d, w, h1, List.mem_append_right _ h2, h3⟩
    · have := innermost_upd ht ht'
      subst this
      rw [show tbl _ t' = m from tbl_upd_inner ht m, hm] at hf
      cases c : (is.map fun i => (⟨i.name, k.mkNode kind i⟩ : Decl Node)).find? fun d => u.toLower d.name == key with
      | some d' =>
        obtain ⟨i, hi, rfl, he⟩ := find_names c
        rw [← he]
        exact List.mem_append_left _ (List.mem_map.2 ⟨i.name, List.mem_map.2 ⟨i, hi, rfl⟩, rfl⟩)
      | none =>
        rw [c, Option.none_or] at hf
        exact List.mem_append_right _ (h.inner _ ht _ _ hf)
    · obtain ⟨h1, h2⟩ := List.mem_filter.1 ho
      obtain ⟨d, g1, g2⟩ := h.sure name o h1
      refine ⟨d, ?_, g2.mono ?_⟩
      · rw [hg]
        cases c : (is.map fun i => (⟨i.name, k.mkNode kind i⟩ : Decl Node)).find? fun d => u.toLower d.name == u.toLower name with
        | some d' =>
          obtain ⟨i, hi, rfl, he⟩ := find_names c
          refine absurd ?_ (of_decide_eq_true h2)
          show u.toLower name ∈ _
          rw [← he]
          exact List.mem_map.2 ⟨i.name, List.mem_map.2 ⟨i, hi, rfl⟩, rfl⟩
        | none => exact g1
      · cases kind with
        | type t => cases hk
        | _ => exact List.prefix_rfl
  · have := h.rooted.own.set u (fun _ _ _ _ _ => trivial) is kind
    rw [e] at this
    exact this

theorem Agrees.unseen (h : Agrees u Γ k) {name : Str} (hn : Γ.Unseen u name) : k.get u name = none := by
  rcases h.shown name with e | ⟨d, w, -, h2, -⟩
  · rw [e, embGet_none hn.1]
  · exact absurd h2 (hn.2.2 w)

theorem Agrees.declareType (h : Agrees u Γ k) {i : Ident} {ty : PType (Decl Node)} {o : NameSort} (hn : Γ.Unseen u i.name)
    (ho : HasSort k.types o ty) :
    ∃ k', k.set u [i] (.type ty) = .ok k' ∧ Agrees u (Γ.declareType u i.name o) k' ∧ Own k k' := by
  obtain ⟨k', t, e, ht, m, rfl, hm⟩ := set_new h (is := [i]) (kind := .type ty) ⟨by simp, by simpa using hn.2.1⟩
  refine ⟨_, e, ?_, ?_⟩
  · obtain ⟨hr, hg⟩ := get_declared (ts := (k.addType (.type ty)).types) (ac := k.actual) h.rooted ht hm
    refine ⟨hr, fun name => ?_, fun t' ht' key d hf => ?_, fun name b hb => ?_⟩
    · rw [hg]
      cases c : ([i].map fun i => (⟨i.name, k.mkNode (.type ty) i⟩ : Decl Node)).find? fun d => u.toLower d.name == u.toLower name with
      | some d =>
        obtain ⟨i', hi, rfl, he⟩ := find_names c
        rw [List.mem_singleton] at hi
        subst hi
        refine .inr ⟨_, .type, rfl, ?_, ⟨_, rfl⟩⟩
        rw [← he]
        exact List.mem_cons_self
      | none =>
        rw [Option.none_or]
        rcases h.shown name with e | ⟨d, w, h1, h2, h3⟩
        · exact .inl e
        · exact .inr ⟨d, w, h1, List.mem_cons_of_mem _ h2, h3⟩
    · have := innermost_upd ht ht'
      subst this
      rw [show tbl _ t' = m from tbl_upd_inner ht m, hm] at hf
      cases c : ([i].map fun i => (⟨i.name, k.mkNode (.type ty) i⟩ : Decl Node)).find? fun d => u.toLower d.name == key with
      | some d' =>
        obtain ⟨i', hi, rfl, he⟩ := find_names c
        rw [List.mem_singleton] at hi
        subst hi
        rw [← he]
        exact List.mem_cons_self
      | none =>
        rw [c, Option.none_or] at hf
        exact List.mem_cons_of_mem _ (h.inner _ ht _ _ hf)
    · have ht : k.types <+: (k.addType (.type ty)).types := List.prefix_append _ _
      rw [hg]
      rcases List.mem_cons.1 hb with hb | hb
      · injection hb with h1 h2
        subst h2
        refine ⟨⟨i.name, .type k.types.length⟩, ?_, .inr ⟨fun c => by subst c; exact ho, k.types.length, rfl, fun c => sortDecl_new ho rfl⟩⟩
        rw [List.map_cons, List.find?_cons]
        simp only [h1, beq_self_eq_true]
        rfl
      · obtain ⟨d, g1, g2⟩ := h.sure name b hb
        refine ⟨d, ?_, g2.mono ht⟩
        cases c : ([i].map fun i => (⟨i.name, k.mkNode (.type ty) i⟩ : Decl Node)).find? fun d => u.toLower d.name == u.toLower name with
        | some d' =>
          exfalso
          obtain ⟨i', hi, rfl, he⟩ := find_names c
          rw [List.mem_singleton] at hi
          subst hi
          rcases h.shown name with e | ⟨d', w, -, h2, -⟩
          · rw [e] at g1
            obtain ⟨x, n, hx⟩ := embGet_node g1
            exact g2.notEmb hx
          · exact hn.2.2 w (by rw [he]; exact h2)
        | none => exact g1
  · have := h.rooted.own.set u (fun _ _ _ _ _ => trivial) [i] (.type ty)
    rw [e] at this
    exact this

theorem Agrees.declareLabel (h : Agrees u Γ k) {i : Ident} (hn : Γ.New u [i.name]) :
    ∃ k', k.set u [i] .label = .ok k' ∧ Agrees u (Γ.declareLabel u i.name) k' ∧ Own k k' := by
  obtain ⟨k', t, e, ht, m, rfl, hm⟩ := set_new h (is := [i]) (kind := .label) hn
  refine ⟨_, e, ?_, ?_⟩
  · obtain ⟨hr, hg⟩ := get_declared (ts := (k.addType .label).types) (ac := k.actual) h.rooted ht hm
    refine ⟨hr, fun name => ?_, fun t' ht' key d hf => ?_, fun name b hb => ?_⟩
    · rw [hg, List.map_cons, List.find?_cons]
      by_cases c : u.toLower i.name = u.toLower name
      · simp only [c, beq_self_eq_true]
        exact .inr ⟨_, .label, rfl, by rw [← c]; exact List.mem_cons_self, ⟨_, rfl⟩⟩
      · simp only [beq_eq_false_iff_ne.2 c, List.map_nil, List.find?_nil, Option.none_or]
        rcases h.shown name with e | ⟨d, w, h1, h2, h3⟩
        · exact .inl e
        · exact .inr ⟨d, w, h1, List.mem_cons_of_mem _ h2, h3⟩
    · have := innermost_upd ht ht'
      subst this
      rw [show tbl _ t' = m from tbl_upd_inner ht m, hm, List.map_cons, List.find?_cons] at hf
      by_cases c : u.toLower i.name = key
      · rw [← c]; exact List.mem_cons_self
      · simp only [beq_eq_false_iff_ne.2 c, List.map_nil, List.find?_nil, Option.none_or] at hf
        exact List.mem_cons_of_mem _ (h.inner _ ht _ _ hf)
    · rw [hg, List.map_cons, List.find?_cons]
      rcases List.mem_cons.1 hb with hb | hb
      · injection hb with h1 h2
        subst h2
        simp only [h1, beq_self_eq_true]
        exact ⟨_, rfl, .inl ⟨rfl, _, rfl⟩⟩
      · obtain ⟨hb, hne⟩ := List.mem_filter.1 hb
        have hne := of_decide_eq_true hne
        obtain ⟨d, g1, g2⟩ := h.sure name b hb
        simp only [beq_eq_false_iff_ne.2 (Ne.symm hne), List.map_nil, List.find?_nil, Option.none_or]
        exact ⟨d, g1, g2.mono List.prefix_rfl⟩
  · have := h.rooted.own.set u (fun _ _ _ _ _ => trivial) [i] .label
    rw [e] at this
    exact this

theorem Agrees.completeType (A : Agrees u Γ k) {i : Ident} {h : List (TypeId (Decl Node))} {ms : Sects (Decl Node)} {o : NameSort}
    (hn : (u.toLower i.name, .fwd) ∈ Γ.sure) (ho : HasSort k.types o (.cls h ms)) :
    ∃ d k', k.get u i.name = some d ∧ (declEnv u).isType d = true ∧ k.complete u d i (.cls h ms) = .ok k' ∧
      Agrees u (Γ.completeType u i.name o) k' ∧ Own k k' := by
  obtain ⟨d, j, g1, g2, g3⟩ := A.sureT hn (by decide)
  obtain ⟨j', ty, f1, f2, rfl, -⟩ := g3 (by decide)
  rw [g2] at f1
  cases f1
  obtain ⟨c, t, h1, h2, h3, -⟩ := A.table
  have hd : k.w.dm k.cur = some c.dm := World.dm_eq.2 ⟨c, h1, rfl⟩
  have ht : Innermost k t := ⟨c, h1, h3⟩
  have how := overwrite_eq u k.w.maps c.dm i.name ⟨i.name, .type k.types.length⟩
  rw [h3] at how
  have e : ∃ m, k.complete u d i (.cls h ms) = .ok { k with w := { k.w with maps := upd k.w.maps t m }, types := k.types ++ [PType.cls h ms], actual := (j, k.types.length) :: k.actual } ∧
      ∀ key, m.find key = ([(⟨i.name, .type k.types.length⟩ : Decl Node)].find? fun d => u.toLower d.name == key).or ((tbl k.w.maps t).find key) := by
    refine ⟨(tbl k.w.maps t).overwrite u i.name ⟨i.name, .type k.types.length⟩, ?_, ?_⟩
    · unfold DS.complete
      rw [g2]
      simp only
      rw [f2]
      simp only
      unfold DS.setR World.overwrite
      rw [hd]
      simp only
      rw [how]
    · intro key
      show Tbl.find (Tbl.overwrite u _ _ _) _ = _
      unfold Tbl.overwrite
      rw [Tbl.find_cons, List.find?_cons]
      by_cases c : u.toLower i.name = key
      · simp only [Tbl.regularize, c, if_true, beq_self_eq_true, Option.some_or]
      · simp only [Tbl.regularize, c, if_false, beq_eq_false_iff_ne.2 c, List.find?_nil, Option.none_or]
  obtain ⟨m, e, hm⟩ := e
  refine ⟨d, _, g1, by simp only [declEnv, g2], e, ?_, ?_⟩
  · obtain ⟨hr, hg⟩ := get_declared (ts := k.types ++ [PType.cls h ms]) (ac := (j, k.types.length) :: k.actual) A.rooted ht hm
    have hp : k.types <+: k.types ++ [PType.cls h ms] := List.prefix_append _ _
    refine ⟨hr, fun name => ?_, fun t' ht' key d hf => ?_, fun name b hb => ?_⟩
    · rw [hg, List.find?_cons]
      by_cases c : u.toLower i.name = u.toLower name
      · simp only [c, beq_self_eq_true]
        exact .inr ⟨_, .type, rfl, by rw [← c]; exact List.mem_cons_self, ⟨_, rfl⟩⟩
      · simp only [beq_eq_false_iff_ne.2 c, List.find?_nil, Option.none_or]
        rcases A.shown name with e | ⟨d, w, h1, h2, h3⟩
        · exact .inl e
        · exact .inr ⟨d, w, h1, List.mem_cons_of_mem _ h2, h3⟩
    · have := innermost_upd ht ht'
      subst this
      rw [show tbl _ t' = m from tbl_upd_inner ht m, hm, List.find?_cons] at hf
      by_cases c : u.toLower i.name = key
      · rw [← c]; exact List.mem_cons_self
      · simp only [beq_eq_false_iff_ne.2 c, List.find?_nil, Option.none_or] at hf
        exact List.mem_cons_of_mem _ (A.inner _ ht _ _ hf)
    · rw [hg, List.find?_cons]
      rcases List.mem_cons.1 hb with hb | hb
      · injection hb with h1 h2
        subst h2
        simp only [h1, beq_self_eq_true]
        exact ⟨_, rfl, .inr ⟨fun c => by subst c; exact ho, _, rfl, fun _ => sortDecl_new ho rfl⟩⟩
      · obtain ⟨hb, hne⟩ := List.mem_filter.1 hb
        have hne := of_decide_eq_true hne
        obtain ⟨d, g1, g2⟩ := A.sure name b hb
        simp only [beq_eq_false_iff_ne.2 (Ne.symm hne), List.find?_nil, Option.none_or]
        exact ⟨d, g1, g2.mono hp⟩
  · have := A.rooted.own.complete u (fun _ _ _ _ _ => trivial) d i (.cls h ms)
    rw [e] at this
    exact this

/-! ## Scopes -/

theorem Agrees.opened (h : Agrees u Γ k) : Agrees u Γ.opened k.stack := by
  obtain ⟨hr, hg⟩ := rooted_stack (u := u) h.rooted
  obtain ⟨o, h1, h4, h5, h6, h7⟩ := stack_obj h.rooted
  have ht : k.stack.types = k.types := by obtain ⟨o2, -, -, -, e3⟩ := stack_eq' h.rooted; rw [e3]
  refine ⟨hr, fun name => by rw [hg]; exact h.shown name, fun t ht key d hf => ?_, fun name b hb => ?_⟩
  · exfalso
    obtain ⟨o', g1, g2⟩ := ht
    rw [h6, h4] at g1; cases g1
    rw [Heap.withDm_dm, h5] at g2
    simp [target] at g2
    subst g2
    rw [h5] at hf
    rw [tbl_cons, if_pos rfl] at hf
    cases hf
  · obtain ⟨d, h1, h2⟩ := h.sure name b hb
    exact ⟨d, by rw [hg]; exact h1, h2.mono (by rw [ht]; exact List.prefix_rfl)⟩

/-- after a scope: the parser is back in the outer scope, or has stayed in the inner one -/
theorem Agrees.closed {Γ' : NameEnv} {k' : DS} (h : Agrees u Γ k) (h' : Agrees u Γ' k') (e : Own k.stack k') :
    Agrees u (Γ.closed Γ') (k.restore k') ∧ Own k (k.restore k') := by
  obtain ⟨r1, r2, r3⟩ := own_restore h.rooted h'.rooted e
  refine ⟨?_, r2⟩
  obtain ⟨o, t, h1, h2, h3⟩ := id h.rooted
  obtain ⟨o', h1', h4, h5, h6, h7⟩ := stack_obj h.rooted
  rw [h1] at h1'; cases h1'
  have hd : k.w.dm k.cur = some o.dm := World.dm_eq.2 ⟨o, h1, rfl⟩
  have he : k.restore k' = { k' with w := k'.w.setDm k.cur o.dm } := by unfold DS.restore; rw [hd]; rfl
  have hm : (k.restore k').w.maps = k'.w.maps := by rw [he]; rfl
  have hty : (k.restore k').types = k'.types := by rw [he]
  have hpre : k.types <+: (k.restore k').types := r2.types
  by_cases hc : k'.cur = k.cur
  · have hcur : (k.restore k').cur = k.cur := by rw [he]; exact hc
    have hob : (k.restore k').w.ctxs.obj (k.restore k').cur = some o := by
      rw [hcur, r2.ctx k.cur (Ctxs.obj_lt h1)]; exact h1
    have hget : ∀ name, (k.restore k').get u name = k.get u name := by
      intro name
      rw [rooted_get u hob h2, rooted_get u h1 h2]
      exact r3.get u (target_lt' h3) (fun i hi => by have := layers_lt hi; omega) name
    refine ⟨r1, fun name => ?_, fun t' ht' key d hf => ?_, fun name b hb => ?_⟩
    · rw [hget]
      rcases h.shown name with e | ⟨d, w, g1, g2, g3⟩
      · exact .inl e
      · exact .inr ⟨d, w, g1, List.mem_append_left _ g2, g3⟩
    · obtain ⟨o2, g1, g2⟩ := ht'
      rw [hob] at g1; cases g1
      rw [r3.tgt _ (target_lt' h3), h3] at g2; cases g2
      have hlt : t < k.w.maps.length := target_lt h3
      have htb : tbl (k.restore k').w.maps t = tbl k.w.maps t := by
        have := r3.obj t hlt (by omega)
        rcases target_obj h3 with e1 | ⟨p, e1⟩ <;> rw [e1] at this <;> rw [tbl_obj this] <;> rfl
      rw [htb] at hf
      exact List.mem_append_left _ (h.inner t ⟨o, h1, h3⟩ _ _ hf)
    · obtain ⟨g1, -⟩ := List.mem_filter.1 hb
      obtain ⟨d, g2, g3⟩ := h.sure name b g1
      exact ⟨d, by rw [hget]; exact g2, g3.mono hpre⟩
  · obtain ⟨o2, t2, g1, g2, g3⟩ := id h'.rooted
    have hob : (k.restore k').w.ctxs.obj (k.restore k').cur = some o2 := by
      rw [he]
      simp only [World.setDm, Ctxs.obj_modify]
      rw [if_neg hc]; exact g1
    have hget : ∀ name, (k.restore k').get u name = k'.get u name := by
      intro name
      rw [rooted_get u hob g2, rooted_get u g1 g2, hm]
    refine ⟨r1, fun name => ?_, fun t' ht' key d hf => ?_, fun name b hb => ?_⟩
    · rw [hget]
      rcases h'.shown name with e | ⟨d, w, f1, f2, f3⟩
      · exact .inl e
      · exact .inr ⟨d, w, f1, List.mem_append_right _ f2, f3⟩
    · obtain ⟨o3, f1, f2⟩ := ht'
      rw [hob] at f1; cases f1
      rw [hm] at f2 hf
      exact List.mem_append_right _ (h'.inner t' ⟨o2, g1, f2⟩ _ _ hf)
    · obtain ⟨-, f1⟩ := List.mem_filter.1 hb
      obtain ⟨d, f2, f3⟩ := h'.sure name b (of_decide_eq_true f1)
      exact ⟨d, by rw [hget]; exact f2, f3.mono (by rw [hty]; exact List.prefix_rfl)⟩

/-! ## Ordinal types -/

theorem is_ord {ty : PType (Decl Node)} (h : OrdTy ty) (n : Nat) : Ty.is k.tys .ordinal (n + 2) (k.ty ty) = some true := by
  cases ty with
  | enum es => rfl
  | subrange a b => rfl
  | id t =>
    obtain ⟨d, x, h1, h2⟩ := h
    obtain ⟨nm, nd⟩ := d
    simp only at h2
    subst h2
    simp only [DS.ty, DS.tyNo, h1, DS.ref, DS.kindNo, Ty.is, DS.tys]
    rfl
  | _ => cases h

theorem ordinal_ty {ty : PType (Decl Node)} (h : OrdTy ty) : k.ordinal ty = some true := is_ord h _

theorem ordinal_decl {d : Decl Node} (h : SortDecl k .ord d) (i : Ident) : k.ordinal (.id ⟨none, i, .now d⟩) = some true := by
  obtain ⟨j, t, h1, h2, h3, -⟩ := h
  obtain ⟨nm, nd⟩ := d
  simp only at h1
  subst h1
  unfold DS.ordinal
  have e : DS.depth (k.ty (.id ⟨none, i, .now ⟨nm, .type j⟩⟩)) = 1 := rfl
  rw [e, show ∀ x, 1 + x + 2 = (x + 2) + 1 by intro x; omega]
  simp only [DS.ty, DS.tyNo, DS.ref, Ty.is, DS.tys, h2]
  exact is_ord h3 _

end
end TP
