import Verif.Lemmas.Members
import Verif.Lemmas.TraceType
import Verif.Lemmas.TraceSection

/-!
# The properties of a class that has been read
-/

namespace TP
open Spec Props

variable {u : Uni}

/-! ## Types do not change while a class is read -/

/-- the types are the same, and so is what references lead to -/
def SameTR (a b : DS) : Prop := b.types = a.types ∧ ∀ i : Nat, (b.refs[i]?).join = (a.refs[i]?).join

theorem SameTR.refl (k : DS) : SameTR k k := ⟨rfl, fun _ => rfl⟩
theorem SameTR.trans {a b c : DS} (h : SameTR a b) (h' : SameTR b c) : SameTR a c :=
  ⟨h'.1.trans h.1, fun i => (h'.2 i).trans (h.2 i)⟩
theorem SameTR.symm {a b : DS} (h : SameTR a b) : SameTR b a := ⟨h.1.symm, fun i => (h.2 i).symm⟩
theorem SameTR.same {a b : DS} (h : b.types = a.types) (h' : b.refs = a.refs) : SameTR a b := ⟨h, fun i => by rw [h']⟩

theorem sameTRBase (u : Uni) : TrBase u (declEnv u) (fun _ => True) SameTR (fun _ _ => True) where
  refl := SameTR.refl
  trans := SameTR.trans
  up _ _ := trivial
  roll {c} _ := ⟨trivial, .same (rollback_types c) (rollback_refs c).1⟩
  set {c is k c'} hk _ e := ⟨trivial, .same (set_types (by rcases hk with rfl | rfl <;> exact fun _ h => by cases h) e) (set_refs e).1⟩
  newRef {c t} _ _ := ⟨trivial, ⟨rfl, fun i => by
    show ((c.refs ++ [none])[i]?).join = _
    rw [List.getElem?_append]
    split
    · rfl
    · rename_i hi
      have : c.refs[i]? = none := List.getElem?_eq_none (by omega)
      rw [this]
      cases i - c.refs.length <;> rfl⟩, trivial⟩
  now _ _ := trivial
  emb _ _ := trivial
  qual _ := trivial
  stack _ := ⟨trivial, fun _ _ => trivial⟩
  restore {c c'} _ _ h := ⟨trivial, SameTR.trans (.same (stack_types c) (stack_refs c).1)
    (h.trans (.same (restore_types c c') (restore_refs c c').1)), fun _ _ => trivial⟩

section
variable {a b : DS} (e : SameTR a b)
include e

theorem SameTR.ref (t : TRef (Decl Node)) : b.ref t = a.ref t := by
  cases t with
  | later i => exact e.2 i
  | _ => rfl

theorem SameTR.parent {h h' : List (TypeId (Decl Node))} {ms : Sects (Decl Node)} (p : ParentIs a h h' ms) : ParentIs b h h' ms := by
  obtain ⟨t, rest, n, c, h1, h2, h3⟩ := p
  exact ⟨t, rest, n, c, h1, (e.ref _).trans h2, by rw [e.1]; exact h3⟩

theorem SameTR.nearest {f : List Member' → Option (Decl Node)} {h : List (TypeId (Decl Node))} {d : Decl Node} (n : NearestIs a f h d) :
    NearestIs b f h d := by
  induction n with
  | here p h => exact .here (e.parent p) h
  | above p h _ ih => exact .above (e.parent p) h ih

theorem SameTR.ancestor {h : List (TypeId (Decl Node))} {d : Decl Node} (n : OfAncestor a h d) : OfAncestor b h d := by
  induction n with
  | here p h => exact .here (e.parent p) h
  | above p _ ih => exact .above (e.parent p) ih

theorem SameTR.standsFor {h : List (TypeId (Decl Node))} {own : List Member'} {name : Str} {d : Decl Node} (n : StandsFor u a h own name d) :
    StandsFor u b h own name d := n.imp id fun h => ⟨h.1, e.nearest h.2⟩

theorem SameTR.propertyIs {h : List (TypeId (Decl Node))} {own : List Member'} {name : Str} {d : Decl Node} (n : PropertyIs u a h own name d) :
    PropertyIs u b h own name d := n.imp id fun h => ⟨h.1, e.nearest h.2⟩

theorem SameTR.usable {h : List (TypeId (Decl Node))} {own : List Member'} {d : Decl Node} (n : Usable a h own d) : Usable b h own d :=
  n.imp id e.ancestor

theorem SameTR.accessor {h : List (TypeId (Decl Node))} {own : List Member'} {r : IdentRef (Decl Node)} (n : AccessorOK u a h own r) :
    AccessorOK u b h own r := by
  obtain ⟨d, h1, h2, h3⟩ := n
  exact ⟨d, h1, e.usable h2, fun h => e.standsFor (h3 h)⟩

theorem SameTR.prop {h : List (TypeId (Decl Node))} {own : List Member'} {p : ClassProp (Decl Node)} (n : PropertyOK u a h own p) :
    PropertyOK u b h own p :=
  ⟨fun r hr => e.accessor (n.1 r hr), fun d => (n.2 d).trans (and_congr_left fun _ => ⟨e.propertyIs, e.symm.propertyIs⟩)⟩

end

/-! ## Names -/

theorem standsFor_congr {k : DS} {h : List (TypeId (Decl Node))} {own : List Member'} {a b : Str} {d : Decl Node} (e : u.toLower a = u.toLower b)
    (n : StandsFor u k h own a d) : StandsFor u k h own b d := by
  have : ∀ l, firstNamed u a l = firstNamed u b l := fun l => by unfold firstNamed; rw [e]
  unfold StandsFor at n ⊢
  simpa only [this] using n

theorem ascii_low {name : Str} (h : Ascii name) : u.toLower (u.toLower name) = u.toLower name := lowIdem_ascii u name h

theorem ascii_value {t : Token} (h : Ascii t.raw) : u.toLower (t.value u) = u.toLower t.raw := by
  unfold Token.value
  split
  · unfold Uni.toLower Uni.toUpper
    rw [List.map_map]
    apply List.map_congr_left
    intro c hc
    have hc := h c hc
    simp only [Function.comp]
    rw [u.up_ascii c hc, u.low_ascii c hc]
    rcases asciiUp_cases c with ⟨h, -⟩ | ⟨h1, h2, h⟩
    · rw [h, u.low_ascii c hc]
    · rw [u.low_ascii _ (by omega)]
      apply char_ext
      rw [asciiLow_upper (by omega) (by omega), asciiLow_lower h1]
      omega
  · rfl

theorem low_idem_value {t : Token} (h : Ascii t.raw) : LowIdem u (t.value u) := by
  unfold LowIdem
  rw [ascii_value h]
  exact ascii_low h

/-! ## A property -/

section
variable {h : List (TypeId (Decl Node))} {ms : Sects (Decl Node)} {s s' : PS DS}

theorem found_ok {name : Str} {d : Decl Node} (e : findMember (declEnv u) h ms name s = .ok d s') : s.cx.findMember u h ms name = .found d ∧ s' = s := by
  unfold findMember at e
  cases hf : (declEnv u).findMember s.cx h ms name with
  | found d' => rw [hf] at e; cases e; exact ⟨hf, rfl⟩
  | none => rw [hf] at e; cases e
  | hang => rw [hf] at e; cases e

theorem accessor_ok {w : Str} {o : Option (IdentRef (Decl Node))} (e : parseAccessor u (declEnv u) h ms w s = .ok o s') :
    ∀ r ∈ o.toList, AccessorOK u s.cx h (classMembers ms) r := by
  unfold parseAccessor at e
  obtain ⟨c, s1, e1, e⟩ := ok_bind e
  cases c with
  | false => cases e; exact fun r hr => by cases hr
  | true =>
    obtain ⟨_, s2, e2, e⟩ := ok_bind e
    obtain ⟨t, s3, e3, e⟩ := ok_bind e
    obtain ⟨d, s4, e4, e⟩ := ok_bind e
    obtain ⟨_, s5, e5, e⟩ := ok_bind e
    cases e
    have hc : s3.cx = s.cx := by rw [quiet_cur _ _ _ e3, quiet_next _ _ _ e2, quiet_is _ _ _ _ e1]
    obtain ⟨hf, -⟩ := found_ok e4
    rw [hc] at hf
    intro r hr
    rw [List.mem_singleton.1 (show r ∈ [_] from hr)]
    exact ⟨d, rfl, findMember_usable hf, fun ha => standsFor_congr (ascii_value ha) (findMember_standsFor (low_idem_value ha) hf)⟩

theorem stored_ok {o : Option (Stored (Decl Node))} (e : parseStored u (declEnv u) h ms s = .ok o s') :
    ∀ r ∈ (match o with | some (.ref r) => [r] | _ => []), AccessorOK u s.cx h (classMembers ms) r := by
  unfold parseStored at e
  obtain ⟨c, s1, e1, e⟩ := ok_bind e
  cases c with
  | false => cases e; exact fun r hr => by cases hr
  | true =>
    obtain ⟨_, s2, e2, e⟩ := ok_bind e
    obtain ⟨t, s3, e3, e⟩ := ok_bind e
    have hc : s3.cx = s.cx := by rw [quiet_cur _ _ _ e3, quiet_next _ _ _ e2, quiet_is _ _ _ _ e1]
    simp only at e
    by_cases h1 : u.toLower (t.value u) = r!"true"
    · rw [if_pos h1] at e
      obtain ⟨_, s5, e5, e⟩ := ok_bind e
      cases e; exact fun r hr => by cases hr
    · rw [if_neg h1] at e
      by_cases h2 : u.toLower (t.value u) = r!"false"
      · rw [if_pos h2] at e
        obtain ⟨_, s5, e5, e⟩ := ok_bind e
        cases e; exact fun r hr => by cases hr
      · rw [if_neg h2] at e
        obtain ⟨d, s4, e4, e⟩ := ok_bind e
        obtain ⟨_, s5, e5, e⟩ := ok_bind e
        cases e
        obtain ⟨hf, -⟩ := found_ok e4
        rw [hc] at hf
        intro r hr
        rw [List.mem_singleton.1 (show r ∈ [_] from hr)]
        refine ⟨d, rfl, findMember_usable hf, fun ha => standsFor_congr ?_ (findMember_standsFor ?_ hf)⟩
        · rw [ascii_value ha]; exact ascii_low ha
        · unfold LowIdem
          rw [ascii_value ha, show u.toLower (u.toLower t.raw) = u.toLower t.raw from ascii_low ha]
          exact ascii_low ha

theorem parent_ok {name : Str} {o : Option (Decl Node)} (e : findProp (declEnv u) h ms name s = .ok o s') :
    ∀ d, o = some d ↔ PropertyIs u s.cx h (classMembers ms) name d := by
  unfold findProp at e
  have spec := findProp_spec (u := u) (k := s.cx) (name := name) (h := h) (ms := ms)
  intro d
  cases hf : (declEnv u).findProp s.cx h ms name with
  | found d' =>
    rw [hf] at e; cases e
    rw [← spec.1 d' hf d, Option.some.injEq, eq_comm]
  | none =>
    rw [hf] at e; cases e
    constructor
    · intro h; cases h
    · intro h; exact absurd h (spec.2 hf d)
  | hang => rw [hf] at e; cases e

theorem inherits_lacks {i : Ident} {intf : OptIntf (Decl Node)} {ix : Option (Expr (Decl Node))} {rd wr : Option (IdentRef (Decl Node))}
    {st : Option (Stored (Decl Node))} {df : Option (PropDefault (Decl Node))} {im : Option (TypeId (Decl Node))} {p q : Option (Decl Node)} {d : Decl Node} :
    DS.inherits (.mk i intf ix rd wr st df im p) d = true ↔ Lacks (.mk i intf ix rd wr st df im q) d := by
  obtain ⟨n, d⟩ := d
  cases d <;> simp [DS.inherits, Lacks, typed_eq, or_assoc]

theorem prop_ok {n : Nat} {p : ClassProp (Decl Node)} (e : parseProp u (declEnv u) h ms n s = .ok p s') :
    SameTR s.cx s'.cx ∧ PropertyOK u s'.cx h (classMembers ms) p := by
  have hall : SameTR s.cx s'.cx := ((typesTr (sameTRBase u) n).prop h ms s trivial (fun _ _ => trivial) p s' e).2.1
  refine ⟨hall, ?_⟩
  cases n with
  | zero => unfold parseProp at e; cases e
  | succ n =>
    have B := sameTRBase u
    unfold parseProp at e
    obtain ⟨t0, s1, e1, e⟩ := ok_bind e
    obtain ⟨_, s2, e2, e⟩ := ok_bind e
    obtain ⟨t, s3, e3, e⟩ := ok_bind e
    unfold traced at e
    obtain ⟨_, s4, e4, e⟩ := ok_bind e
    obtain ⟨p', s5, e, ee⟩ := ok_bind e
    have h5 : s'.cx = s5.cx ∧ p' = p := by
      obtain ⟨_, s6, e6, ee⟩ := ok_bind ee
      cases ee
      exact ⟨quiet_cur _ _ _ e6, rfl⟩
    rw [← h5.2, h5.1]
    obtain ⟨_, s6, e6, e⟩ := ok_bind e
    obtain ⟨intf, s7, e7, e⟩ := ok_bind e
    obtain ⟨ix, s8, e8, e⟩ := ok_bind e
    obtain ⟨parent, s9, e9, e⟩ := ok_bind e
    obtain ⟨rd, s10, e10, e⟩ := ok_bind e
    obtain ⟨wr, s11, e11, e⟩ := ok_bind e
    obtain ⟨st, s12, e12, e⟩ := ok_bind e
    obtain ⟨df, s13, e13, e⟩ := ok_bind e
    obtain ⟨im, s14, e14, e⟩ := ok_bind e
    have h9 : s9.cx = s8.cx := quiet_prop _ _ _ _ _ _ e9
    have h10 : s10.cx = s9.cx := quiet_accessor _ _ _ e10
    have h11 : s11.cx = s10.cx := quiet_accessor _ _ _ e11
    have h12 : s12.cx = s11.cx := quiet_stored _ _ _ e12
    have h13 : SameTR s12.cx s13.cx := (default_tr B n s12 trivial (fun _ h => by cases h) _ _ e13).2.1
    have h14 : SameTR s13.cx s14.cx := (implements_tr B s13 trivial (fun _ h => by cases h) _ _ e14).2.1
    have hx : SameTR s8.cx s14.cx := by
      have := h13.trans h14
      rwa [h12, h11, h10, h9] at this
    cases e
    refine hx.prop ⟨fun r hr => ?_, fun d => ?_⟩
    · rcases List.mem_append.1 hr with hr | hr
      · rcases List.mem_append.1 hr with hr | hr
        · have := accessor_ok e10 r hr
          rwa [h9] at this
        · have := accessor_ok e11 r hr
          rwa [h10, h9] at this
      · have := stored_ok e12 r hr
        rwa [h11, h10, h9] at this
    · rw [propIdent, ← parent_ok e9 d, propParent]
      cases parent with
      | none => simp
      | some d' =>
        simp only [Option.some.injEq]
        split
        · rename_i hc
          constructor
          · intro h; cases h; exact ⟨rfl, (inherits_lacks (p := none)).1 hc⟩
          · exact fun h => by rw [h.1]
        · rename_i hc
          constructor
          · intro h; cases h
          · rintro ⟨rfl, h⟩
            exact absurd ((inherits_lacks (p := none)).2 h) hc

theorem props_ok : ∀ {n : Nat} {s s' : PS DS} {ps : Props (Decl Node)}, parseProps u (declEnv u) h ms n s = .ok ps s' →
    SameTR s.cx s'.cx ∧ ∀ p ∈ propList ps, PropertyOK u s'.cx h (classMembers ms) p := by
  intro n
  induction n with
  | zero => intro s s' ps e; unfold parseProps at e; cases e
  | succ n ih =>
    intro s s' ps e
    unfold parseProps at e
    obtain ⟨c, s1, e1, e⟩ := ok_bind e
    have h1 := quiet_is _ _ _ _ e1
    cases c with
    | true => cases e; rw [h1]; exact ⟨.refl _, fun p hp => by cases hp⟩
    | false =>
      obtain ⟨p, s2, e2, e⟩ := ok_bind e
      obtain ⟨_, s3, e3, e⟩ := ok_bind e
      obtain ⟨o, s4, e4, e⟩ := ok_bind e
      obtain ⟨h2, hp⟩ := prop_ok e2
      have h4 : s4.cx = s2.cx := by rw [quiet_cur? _ _ _ e4, quiet_optSemi _ _ _ e3]
      rw [h1] at h2
      rw [← h4] at h2 hp
      cases o with
      | none => cases e
      | some t =>
        simp only at e
        by_cases hc : propertyBreak u t = true
        · rw [if_pos hc] at e
          cases e
          exact ⟨h2, fun q hq => by rw [List.mem_singleton.1 (show q ∈ [p] from hq)]; exact hp⟩
        · rw [if_neg hc] at e
          obtain ⟨rest, s5, e5, e⟩ := ok_bind e
          cases e
          obtain ⟨h5, hr⟩ := ih e5
          refine ⟨h2.trans h5, fun q hq => ?_⟩
          rcases List.mem_cons.1 (show q ∈ p :: propList rest from hq) with rfl | hq
          · exact h5.prop hp
          · exact hr q hq

end

/-! ## Sections -/

theorem members_snoc (v : Visibility) (fs : Fields (Decl Node)) (ms : Methods (Decl Node)) : ∀ prev : Sects (Decl Node),
    classMembers (prev.snoc v fs ms) = classMembers prev ++ (fieldDecls fs ++ methodDecls ms).map (fun d => (v, d))
  | .nil => by simp [Sects.snoc, classMembers, propList]
  | .cons v' f m p rest => by
    simp only [Sects.snoc, classMembers, members_snoc v fs ms rest, List.append_assoc]

theorem propsIn_add (v : Visibility) (fs : Fields (Decl Node)) (ms : Methods (Decl Node)) (ps : Props (Decl Node)) :
    ∀ (prev : Sects (Decl Node)) (b : List Member'), propsIn b (prev.add v fs ms ps) =
      propsIn b prev ++ (propList ps).map (fun p => (b ++ classMembers (prev.snoc v fs ms), p))
  | .nil, b => by simp [Sects.add, propsIn, Sects.snoc, classMembers, propList]
  | .cons v' f m p rest, b => by
    rw [Sects.add, propsIn, propsIn_add v fs ms ps rest, propsIn, Sects.snoc, classMembers]
    simp only [List.append_assoc]

/-- all properties of a class are right -/
def ClassOK (u : Uni) (k : DS) (h : List (TypeId (Decl Node))) (ms : Sects (Decl Node)) : Prop :=
  ∀ x ∈ propsIn [] ms, PropertyOK u k h x.1 x.2

theorem ClassOK.same {a b : DS} (e : SameTR a b) {h : List (TypeId (Decl Node))} {ms : Sects (Decl Node)} (c : ClassOK u a h ms) :
    ClassOK u b h ms := fun x hx => e.prop (c x hx)

theorem traced_ok {α : Type} {p : P DS α} {s s' : PS DS} {a : α} (e : traced p s = .ok a s') :
    ∃ s1 s2, p s1 = .ok a s2 ∧ s1.cx = s.cx ∧ s'.cx = s2.cx := by
  unfold traced at e
  obtain ⟨_, s1, e1, e⟩ := ok_bind e
  obtain ⟨b, s2, e2, e⟩ := ok_bind e
  obtain ⟨_, s3, e3, e⟩ := ok_bind e
  cases e
  exact ⟨s1, s2, e2, quiet_cur _ _ _ e1, quiet_cur _ _ _ e3⟩

section
variable {h : List (TypeId (Decl Node))}

theorem sect_ok {n : Nat} {prev ms : Sects (Decl Node)} {s s' : PS DS} (e : parseSect u (declEnv u) h prev n s = .ok ms s')
    (hp : ClassOK u s.cx h prev) : ClassOK u s'.cx h ms := by
  have B := sameTRBase u
  cases n with
  | zero => unfold parseSect at e; cases e
  | succ n =>
    unfold parseSect at e
    obtain ⟨v, s1, e1, e⟩ := ok_bind e
    obtain ⟨c, s2, e2, e⟩ := ok_bind e
    have h2 : s2.cx = s.cx := by rw [quiet_is _ _ _ _ e2, quiet_visibility _ _ _ e1]
    rw [← h2] at hp
    cases c with
    | true =>
      cases e
      intro x hx
      rw [propsIn_add] at hx
      exact hp x (by simpa [propList] using hx)
    | false =>
      obtain ⟨fs, s3, e3, e⟩ := ok_bind e
      obtain ⟨m, s4, e4, e⟩ := ok_bind e
      obtain ⟨ps, s5, e5, e⟩ := ok_bind e
      cases e
      have h3 : SameTR s2.cx s3.cx := (Tr.traced B (typesTr B n).classFields s2 trivial (fun _ h => by cases h) _ _ e3).2.1
      have h4 : SameTR s3.cx s4.cx := (Tr.traced B (typesTr B n).methods s3 trivial (fun _ h => by cases h) _ _ e4).2.1
      obtain ⟨s6, s7, e6, h6, h7⟩ := traced_ok e5
      obtain ⟨h5, hps⟩ := props_ok e6
      rw [h6, ← h7] at h5
      rw [← h7] at hps
      intro x hx
      rw [propsIn_add] at hx
      rcases List.mem_append.1 hx with hx | hx
      · exact hp.same (h3.trans (h4.trans h5)) x hx
      · obtain ⟨p, hp, rfl⟩ := List.mem_map.1 hx
        exact hps p hp

theorem sects_ok : ∀ {n : Nat} {prev ms : Sects (Decl Node)} {s s' : PS DS}, parseSects u (declEnv u) h prev n s = .ok ms s' →
    ClassOK u s.cx h prev → ClassOK u s'.cx h ms := by
  intro n
  induction n with
  | zero => intro prev ms s s' e; unfold parseSects at e; cases e
  | succ n ih =>
    intro prev ms s s' e hp
    unfold parseSects at e
    obtain ⟨ms1, s1, e1, e⟩ := ok_bind e
    obtain ⟨o, s2, e2, e⟩ := ok_bind e
    obtain ⟨s3, s4, e3, h3, h4⟩ := traced_ok e1
    have h1 : ClassOK u s2.cx h ms1 := by
      rw [quiet_cur? _ _ _ e2, h4]
      exact sect_ok e3 (by rw [h3]; exact hp)
    cases o with
    | none => cases e
    | some t =>
      simp only at e
      by_cases hc : kw u r!"END" t = true
      · rw [if_pos hc] at e; cases e; exact h1
      · rw [if_neg hc] at e
        exact ih e h1

end

theorem class_ok {n : Nat} {ty : PType (Decl Node)} {s s' : PS DS} (e : parseClass u (declEnv u) n s = .ok ty s') :
    ∃ h ms, ty = .cls h ms ∧ ClassOK u s'.cx h ms := by
  cases n with
  | zero => unfold parseClass at e; cases e
  | succ n =>
    unfold parseClass at e
    obtain ⟨s1, s2, e, -, hc⟩ := traced_ok e
    obtain ⟨h, s3, e3, e⟩ := ok_bind e
    obtain ⟨c, s4, e4, e⟩ := ok_bind e
    have none : ClassOK u s'.cx h .nil := fun x hx => by cases hx
    cases c with
    | true => cases e; exact ⟨h, .nil, rfl, none⟩
    | false =>
      obtain ⟨c, s5, e5, e⟩ := ok_bind e
      cases c with
      | true => cases e; exact ⟨h, .nil, rfl, none⟩
      | false =>
        obtain ⟨ms, s6, e6, e⟩ := ok_bind e
        cases e
        obtain ⟨s7, s8, e7, -, h8⟩ := traced_ok e6
        refine ⟨h, ms, rfl, ?_⟩
        rw [hc, h8]
        exact sects_ok e7 fun x hx => by cases hx

/-! ## Types -/

/-- what the result of a parser is in the context at its end -/
def Ret {α : Type} (A : DS → α → Prop) (p : P DS α) : Prop := ∀ s a s', p s = .ok a s' → A s'.cx a

namespace Ret
variable {α β : Type} {A : DS → β → Prop}

theorem bind {p : P DS α} {f : α → P DS β} (h : ∀ a, Ret A (f a)) : Ret A (p >>= f) := fun s b s' e => by
  obtain ⟨a, s1, -, e⟩ := ok_bind e
  exact h a s1 b s' e

theorem bind' {B : α → Prop} {p : P DS α} {f : α → P DS β} (hp : Ret (fun _ => B) p) (h : ∀ a, B a → Ret A (f a)) : Ret A (p >>= f) := fun s b s' e => by
  obtain ⟨a, s1, e1, e⟩ := ok_bind e
  exact h a (hp _ _ _ e1) s1 b s' e

theorem pure {b : β} (h : ∀ k, A k b) : Ret A (Pure.pure b) := fun s a s' e => by cases e; exact h _
theorem fail : Ret A P.fail := fun s a s' e => by cases e
theorem panic : Ret A P.panic := fun s a s' e => by cases e
theorem wait : Ret A P.wait := fun s a s' e => by cases e
theorem ite {c : Prop} [Decidable c] {p q : P DS β} (hp : Ret A p) (hq : Ret A q) : Ret A (if c then p else q) := by
  split <;> assumption
theorem traced {p : P DS β} (h : Ret A p) : Ret A (TP.traced p) := fun s b s' e => by
  obtain ⟨s1, s2, e, -, hc⟩ := traced_ok e
  rw [hc]
  exact h _ _ _ e
theorem stacked {p : P DS β} (h : ∀ k, Ret (fun _ => A k) p) : Ret A (TP.stacked (declEnv u) p) := fun s b s' e => by
  unfold TP.stacked at e
  cases e1 : p { s with cx := (declEnv u).stack s.cx } with
  | ok b s1 =>
    rw [e1] at e
    cases e
    exact h _ _ _ _ e1
  | _ => rw [e1] at e; cases e

end Ret

/-- if it is a class, its properties are right -/
def TypeOK (u : Uni) (k : DS) (ty : PType (Decl Node)) : Prop := ∀ h ms, ty = .cls h ms → ClassOK u k h ms

macro "ret" : tactic => `(tactic| repeat' (first
  | assumption
  | exact Ret.fail
  | exact Ret.wait
  | exact Ret.panic
  | (refine Ret.ite ?_ ?_)
  | (refine Ret.traced ?_)
  | (refine Ret.bind fun _ => ?_)
  | exact Ret.pure fun _ _ _ h => by cases h
  | split))

theorem type_ok : ∀ n, Ret (TypeOK u) (parseType u (declEnv u) n) := by
  intro n
  cases n with
  | zero => unfold parseType; exact Ret.wait
  | succ n =>
    have h1 : Ret (TypeOK u) (parseEnum u (declEnv u) n) := by unfold parseEnum; ret
    have h2 : Ret (TypeOK u) (parsePointer u (declEnv u)) := by unfold parsePointer; ret
    have h3 : Ret (TypeOK u) (parseTypeForIdent u (declEnv u) n) := by
      let B : Option (PType (Decl Node)) → Prop := fun o => ∀ h ms, o ≠ some (.cls h ms)
      have b1 : ∀ k, Ret (fun _ => B) (parseEmb u (declEnv u) k) := by
        intro k
        unfold parseEmb
        refine Ret.bind fun t => ?_
        split
        · exact Ret.bind fun _ => Ret.pure fun _ _ _ h => by cases h
        · exact Ret.pure fun _ _ _ h => by cases h
      have b2 : Ret (fun _ => B) (parseSubrangeIdent u (declEnv u) n) := by
        unfold parseSubrangeIdent
        refine Ret.bind fun _ => Ret.bind fun _ => Ret.bind fun _ => Ret.bind fun _ => Ret.ite ?_ ?_
        · exact Ret.bind fun _ => Ret.bind fun _ => Ret.bind fun _ => Ret.pure fun _ _ _ h => by cases h
        · exact Ret.bind fun _ => Ret.pure fun _ _ _ h => by cases h
      have b3 : ∀ t, B (some t) → Ret (TypeOK u) (pure t) := fun t ht => Ret.pure fun _ h ms e => absurd (congrArg some e) (ht h ms)
      unfold parseTypeForIdent
      refine Ret.bind fun o => ?_
      split
      · ret
      refine Ret.bind' (b1 _) fun o ho => ?_
      split
      · exact b3 _ ho
      refine Ret.bind' (b1 _) fun o ho => ?_
      split
      · exact b3 _ ho
      refine Ret.bind' (b1 _) fun o ho => ?_
      split
      · exact b3 _ ho
      refine Ret.bind' b2 fun o ho => ?_
      split
      · exact b3 _ ho
      ret
    have h4 : Ret (TypeOK u) (parseConstSubrange u (declEnv u) n) := by unfold parseConstSubrange; ret
    have h5 : Ret (TypeOK u) (parseStruc u (declEnv u) n) := by
      cases n with
      | zero => unfold parseStruc; exact Ret.wait
      | succ n =>
        have g1 : ∀ p, Ret (TypeOK u) (parseArray u (declEnv u) p n) := by
          intro p
          cases n with
          | zero => unfold parseArray; exact Ret.wait
          | succ n => unfold parseArray; ret
        have g2 : ∀ p, Ret (TypeOK u) (parseSet u (declEnv u) p n) := by
          intro p
          cases n with
          | zero => unfold parseSet; exact Ret.wait
          | succ n => unfold parseSet; ret
        have g3 : ∀ p, Ret (TypeOK u) (parseRec u (declEnv u) p n) := by
          intro p
          cases n with
          | zero => unfold parseRec; exact Ret.wait
          | succ n => unfold parseRec; ret
        have g4 : ∀ p, Ret (TypeOK u) (parseFile u (declEnv u) p) := by
          intro p
          unfold parseFile; ret
        unfold parseStruc
        ret
        all_goals first | exact g1 _ | exact g2 _ | exact g3 _
    have h6 : Ret (TypeOK u) (parseProcType u (declEnv u) n) := by
      cases n with
      | zero => unfold parseProcType; exact Ret.wait
      | succ n =>
        unfold parseProcType
        refine Ret.bind fun _ => Ret.stacked fun k => ?_
        ret
    have h7 : Ret (TypeOK u) (parseClassOrRef u (declEnv u) n) := by
      cases n with
      | zero => unfold parseClassOrRef; exact Ret.wait
      | succ n =>
        have g1 : Ret (TypeOK u) (parseClassRef u (declEnv u)) := by unfold parseClassRef; ret
        have g2 : Ret (TypeOK u) (parseClass u (declEnv u) n) := fun s a s' e h ms ha => by
          obtain ⟨h', ms', rfl, hc⟩ := class_ok e
          cases ha
          exact hc
        unfold parseClassOrRef
        ret
    have h8 : Ret (TypeOK u) (parseStringType u (declEnv u) n) := by unfold parseStringType; ret
    unfold parseType
    ret

end TP
