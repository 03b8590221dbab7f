import Verif.Lemmas.TypeSound

/-!
# Soundness of the parser of types

Fuel `20 * (number of tokens) + rank` is enough.
-/

namespace TP
open Spec

variable {κ δ : Type} {u : Uni} {D : DEnv κ δ} {I : κ → Prop} {Good : List Token → Prop} {tl : Tail} {Pp Pw : Prop}

/-- concatenation -/
def Sects.app : Sects δ → Sects δ → Sects δ
  | .nil, b => b
  | .cons v f m p rest, b => .cons v f m p (Sects.app rest b)

theorem Sects.app_nil : ∀ a : Sects δ, a.app .nil = a
  | .nil => rfl
  | .cons v f m p rest => by rw [Sects.app, Sects.app_nil rest]

theorem Sects.app_assoc : ∀ a b c : Sects δ, (a.app b).app c = a.app (b.app c)
  | .nil, _, _ => rfl
  | .cons v f m p rest, b, c => by rw [Sects.app, Sects.app, Sects.app, Sects.app_assoc rest]

theorem Sects.add_eq (v : Visibility) (f : Fields δ) (m : Methods δ) (p : Props δ) :
    ∀ a : Sects δ, a.add v f m p = a.app (.cons v f m p .nil)
  | .nil => rfl
  | .cons v' f' m' p' rest => by rw [Sects.add, Sects.app, Sects.add_eq v f m p rest]

section
variable (u)
def gArrayCore (ix : OptPTypes δ) (base : PType δ) : Rd :=
  kwR u r!"ARRAY" ▹ gIndex u ix ▹ kwR u r!"OF" ▹ gType u base
def rdArray (packed : Bool) (a : PType δ) : Rd := fun x y => ∃ ix base,
  (a = .array packed ix base ∧ gArrayCore u ix base x y) ∨
  (a = .array true ix base ∧ (kwR u r!"ARRAY" ▹ gIndex u ix ▹ kwR u r!"OF" ▹ gType u base ▹ kwR u r!"PACKED") x y)
def rdSet (packed : Bool) (a : PType δ) : Rd := fun x y => ∃ t,
  a = .set packed t ∧ (kwR u r!"SET" ▹ kwR u r!"OF" ▹ gType u t) x y
def rdRec (packed : Bool) (a : PType δ) : Rd := fun x y => ∃ fl,
  a = .record packed fl ∧ (kwR u r!"RECORD" ▹ gFieldList u (IsKw u r!"END") fl ▹ look (IsKw u r!"END")) x y
def rdFieldList (term : Pred) (a : FieldList δ) : Rd := fun x y => gFieldList u (fun t => term t = true) a x y ∧
  ∃ t z, y = t :: z ∧ (term t = true ∨ IsKw u r!"END" t)
def rdFields (term : Pred) (a : Fields δ) : Rd := fun x y => gFields u (fun t => term t = true) a x y ∧
  ∃ t z, y = t :: z ∧ (IsKw u r!"CASE" t ∨ term t = true)
def rdVariant (a : OptVariant δ) : Rd := fun x y => gVariant u a x y ∧ ∃ t z, y = t :: z ∧ IsKw u r!"END" t
def rdVariants (a : Variants δ) : Rd := fun x y => gVariants u a x y ∧ ∃ t z, y = t :: z ∧ IsKw u r!"END" t
/-- after the word `CLASS` -/
def rdClass (a : PType δ) : Rd := fun x y => ∃ h ms, a = .cls h ms ∧ (gHeritage u h ▹
  (given (ms = .nil) (look fun t => IsKw u r!"END" t ∨ IsSym r!";" t) ∣∣ gSects u ms)) x y
def rdSects (prev a : Sects δ) : Rd := fun x y => ∃ new, a = prev.app new ∧ gSects u new x y
def gSectCore (v : Visibility) (fs : Fields δ) (ms : Methods δ) (ps : Props δ) : Rd := gVisibility u v ▹
  (given (fs = .nil ∧ ms = .nil ∧ ps = .nil) (look (IsKw u r!"END")) ∣∣ gClassFields u fs ▹ gMethods u ms ▹ gProps u ps)
def rdSect (prev a : Sects δ) : Rd := fun x y => ∃ v fs ms ps, a = prev.app (.cons v fs ms ps .nil) ∧
  gSectCore u v fs ms ps x y ∧ y.length < x.length
def rdClassFields (a : Fields δ) : Rd := fun x y => gClassFields u a x y ∧ ((∃ t z, x = t :: z ∧ ¬ EndsFields u t) → y.length < x.length)
def rdClassField (a : List Ident × PType δ) : Rd := fun x y =>
  (gIdents u a.1 ▹ symR u r!":" ▹ gType u a.2) x y ∧ y.length < x.length
def rdMethod (a : Heading δ × List Str) : Rd := fun x y =>
  (gHeading u a.1 ▹ optSemiR u ▹ gDirectives u a.2) x y ∧ y.length < x.length
def rdHeading (a : Heading δ) : Rd := fun x y => gHeading u a x y ∧ y.length < x.length
def rdProp (a : ClassProp δ) : Rd := fun x y => gProp u a x y ∧ y.length < x.length
def rdParams (op cl : Str) (a : Params δ) : Rd := symR u op ▹ gParams u cl a ▹ symR u cl
end

variable (u D I Good tl Pp Pw) in
structure AllTypes (n : Nat) : Prop where
  type : TSound I Good tl Pp Pw (parseType u D n) (gType u) n 10
  struc : TSound I Good tl Pp Pw (parseStruc u D n) (gType u) n 9
  array : ∀ b, TSound I Good tl Pp Pw (parseArray u D b n) (rdArray u b) n 8
  index : TSound I Good tl Pp Pw (parseIndex u D n) (gIndex u) n 1
  indexTypes : TSound I Good tl Pp Pw (parseIndexTypes u D n)
    (fun a x y => gIndexTypes u a x y ∧ ∃ t z, y = t :: z ∧ IsSym r!"]" t) n 11
  set : ∀ b, TSound I Good tl Pp Pw (parseSet u D b n) (rdSet u b) n 8
  rec' : ∀ b, TSound I Good tl Pp Pw (parseRec u D b n) (rdRec u b) n 8
  fieldList : ∀ term, NotEof term → TSound I Good tl Pp Pw (parseFieldList u D term n) (rdFieldList u term) n 12
  fields : ∀ term, NotEof term → TSound I Good tl Pp Pw (parseFields u D term n) (rdFields u term) n 11
  variant : TSound I Good tl Pp Pw (parseVariant u D n) (rdVariant u) n 11
  variants : TSound I Good tl Pp Pw (parseVariants u D n) (rdVariants u) n 9
  procType : TSound I Good tl Pp Pw (parseProcType u D n) (gType u) n 9
  optParams : ∀ op cl, TSound I Good tl Pp Pw (parseOptParams u D op cl n) (gOptParams u op cl) n 2
  params : ∀ op cl, TSound I Good tl Pp Pw (parseParams u D op cl n) (rdParams u op cl) n 1
  paramList : ∀ cl, TSound I Good tl Pp Pw (parseParamList u D cl n) (gParams u cl) n 2
  paramTy : TSound I Good tl Pp Pw (parseParamTy u D n) (gParamTy u) n 1
  classOrRef : TSound I Good tl Pp Pw (parseClassOrRef u D n) (gType u) n 9
  cls : TSound I Good tl Pp Pw (parseClass u D n) (rdClass u) n 20
  sects : ∀ h prev, TSound I Good tl Pp Pw (parseSects u D h prev n) (rdSects u prev) n 19
  sect : ∀ h prev, TSound I Good tl Pp Pw (parseSect u D h prev n) (rdSect u prev) n 18
  classFields : TSound I Good tl Pp Pw (parseClassFields u D n) (rdClassFields u) n 17
  classField : TSound I Good tl Pp Pw (parseClassField u D n) (rdClassField u) n 2
  methods : TSound I Good tl Pp Pw (parseMethods u D n) (gMethods u) n 17
  method : TSound I Good tl Pp Pw (parseMethod u D n) (rdMethod u) n 16
  heading : ∀ w, TSound I Good tl Pp Pw (parseHeading u D w n) (rdHeading u) n 15
  funcHeading : TSound I Good tl Pp Pw (parseFuncHeading u D n) (rdHeading u) n 14
  constructor' : TSound I Good tl Pp Pw (parseConstructor u D n) (rdHeading u) n 14
  props : ∀ h ms, TSound I Good tl Pp Pw (parseProps u D h ms n) (gProps u) n 17
  prop : ∀ h ms, TSound I Good tl Pp Pw (parseProp u D h ms n) (rdProp u) n 16
  intf : TSound I Good tl Pp Pw (parseIntf u D n) (gIntf u) n 3

theorem kwPred {s : Str} : (fun t => kw u s t = true) = IsKw u s := by funext t; exact propext kw_iff
theorem symPred {s : Str} : (fun t => sym s t = true) = IsSym s := by funext t; exact propext symbol_iff

theorem gIdents_lt : ∀ {is : List Ident} {x y : List Token}, gIdents u is x y → y.length < x.length
  | [], _, _, h => h.elim
  | [i], _, _, ⟨t, e, _⟩ => by rw [e]; simp
  | i :: i' :: is, _, _, ⟨_, ⟨t, e, _⟩, _, ⟨t', e', _⟩, h⟩ => by
    have := gIdents_lt h
    rw [e, e']
    simp only [List.length_cons]
    omega

section
variable (B : DBase u D I Good tl Pp Pw)
include B

theorem traced_wp {α : Type} {Q : α → PS κ → Prop} {p : P κ α} {s : PS κ} (hs : In' I Good tl s)
    (h : wp p s (fun a s' => In' I Good tl s' ∧ Q a s') Pp Pw) : wp (traced p) s Q Pp Pw := by
  unfold traced
  refine B.cur hs fun _ _ => ?_
  refine wp_then h ?_
  rintro a s' ⟨h1, h2⟩
  exact B.cur h1 fun _ _ => h2

theorem allTypes (n : Nat) : AllTypes u D I Good tl Pp Pw n := by
  revert I
  induction n with
  | zero =>
    intro I B
    constructor <;> intros <;> intro s hs hf <;> exact hf (by omega)
  | succ n ihAll =>
    replace ihAll := fun J B => @ihAll J B
    intro I B
    have ih := ihAll I B
    constructor
    · -- type
      intro s hs hf
      rw [parseType]
      refine B.cur hs fun t ht => ?_
      refine wp_ite (fun ct => ?_) (fun ct => ?_)
      · obtain ⟨ts, hts⟩ := tok_cons ht (by rw [ct]; decide)
        refine wp_ite (fun c => ?_) (fun c => wp_ite (fun c2 => ?_) (fun _ => trivial))
        · exact enum_sound B n hs hts (symbol_iff.1 c) (fun h => hf (by omega))
        · exact pointer_sound B n s hs (fun h => hf (by omega))
      refine wp_ite (fun ct2 => ?_) (fun ct2 => ?_)
      · obtain ⟨ts, hts⟩ := tok_cons ht (by rw [ct2]; decide)
        exact typeForIdent_sound B n hs hts ct2 (fun h => hf (by omega))
      refine wp_ite (fun ct3 => ?_) (fun ct3 => ?_)
      · exact constSubrange_sound B n s hs (fun h => hf (by omega))
      refine wp_ite (fun ct4 => ?_) (fun _ => trivial)
      obtain ⟨ts, hts⟩ := tok_cons ht (by rw [ct4]; decide)
      refine wp_ite (fun _ => ?_) (fun _ => wp_ite (fun _ => ?_) (fun _ => wp_ite (fun _ => ?_) (fun _ => ?_)))
      · exact ih.struc s hs (fun h => hf (by omega))
      · exact ih.procType s hs (fun h => hf (by omega))
      · exact ih.classOrRef s hs (fun h => hf (by omega))
      · exact stringType_sound B n hs hts ct4 (fun h => hf (by omega))
    · -- struc
      intro s hs hf
      rw [parseStruc]
      refine wp_then (Q1 := fun b s' => In' I Good tl s' ∧ s'.ts.length ≤ s.ts.length ∧ gPacked u b s.ts s'.ts) ?_ ?_
      · refine B.opt hs notEof_kw (fun t1 s1 c1 h1 e1 => ?_) (fun _ _ _ => ⟨hs, Nat.le_refl _, rfl⟩)
        exact ⟨h1, by rw [e1]; simp, t1, e1, kw_iff.1 c1⟩
      rintro b s1 ⟨h1, l1, g1⟩
      refine B.cur h1 fun t ht => ?_
      refine wp_ite (fun _ => ?_) (fun _ => wp_ite (fun _ => ?_) (fun _ => wp_ite (fun _ => ?_) (fun _ =>
        wp_ite (fun _ => ?_) (fun _ => trivial))))
      · refine wp_mono (ih.array b s1 h1 (fun h => hf (by omega))) ?_ id id
        rintro a s2 ⟨h2, l2, ix, base, g2 | g2⟩
        · obtain ⟨rfl, g2⟩ := g2
          refine ⟨h2, by omega, ?_⟩
          rw [gType]
          exact .inl ⟨s1.ts, g1, g2⟩
        · obtain ⟨rfl, g2⟩ := g2
          refine ⟨h2, by omega, ?_⟩
          rw [gType]
          refine .inr ⟨rfl, s1.ts, ?_, g2⟩
          cases b with
          | true => exact .inl g1
          | false => exact .inr g1
      · refine wp_mono (ih.set b s1 h1 (fun h => hf (by omega))) ?_ id id
        rintro a s2 ⟨h2, l2, ty, rfl, g2⟩
        refine ⟨h2, by omega, ?_⟩
        rw [gType]
        exact ⟨s1.ts, g1, g2⟩
      · refine wp_mono (ih.rec' b s1 h1 (fun h => hf (by omega))) ?_ id id
        rintro a s2 ⟨h2, l2, ty, rfl, g2⟩
        refine ⟨h2, by omega, ?_⟩
        rw [gType]
        exact ⟨s1.ts, g1, g2⟩
      · refine wp_mono (file_sound B b n s1 h1 (fun h => hf (by omega))) ?_ id id
        rintro a s2 ⟨h2, l2, ty, rfl, g2⟩
        refine ⟨h2, by omega, ?_⟩
        rw [gType]
        exact ⟨s1.ts, g1, g2⟩
    · -- array
      intro b s hs hf
      rw [parseArray]
      refine B.eatKwP hs fun t1 s1 c1 h1 e1 => ?_
      have l1 : s.ts.length = s1.ts.length + 1 := by rw [e1]; rfl
      refine ih.index.bind h1 (fun h => hf (by omega)) fun ix s2 h2 l2 g2 => ?_
      refine B.eatKwP h2 fun t3 s3 c3 h3 e3 => ?_
      have l3 : s2.ts.length = s3.ts.length + 1 := by rw [e3]; rfl
      refine ih.type.bind h3 (fun h => hf (by omega)) fun base s4 h4 l4 g4 => ?_
      refine B.opt h4 notEof_kw (fun t5 s5 c5 h5 e5 => ?_) (fun _ _ _ => ?_)
      · have l5 : s4.ts.length = s5.ts.length + 1 := by rw [e5]; rfl
        exact ⟨h5, by omega, ix, base, .inr ⟨rfl, s1.ts, ⟨t1, e1, c1⟩, s2.ts, g2, s3.ts, ⟨t3, e3, c3⟩, s4.ts, g4, t5, e5, kw_iff.1 c5⟩⟩
      · exact ⟨h4, by omega, ix, base, .inl ⟨rfl, s1.ts, ⟨t1, e1, c1⟩, s2.ts, g2, s3.ts, ⟨t3, e3, c3⟩, g4⟩⟩
    · -- index
      intro s hs hf
      rw [parseIndex]
      refine B.opt hs notEof_sym (fun t1 s1 c1 h1 e1 => ?_) (fun _ _ _ => ⟨hs, Nat.le_refl _, by rw [gIndex]; rfl⟩)
      have l1 : s.ts.length = s1.ts.length + 1 := by rw [e1]; rfl
      refine ih.indexTypes.bind h1 (fun h => hf (by omega)) fun ts s2 h2 l2 ⟨g2, c, z, e2, hc⟩ => ?_
      refine B.next h2 e2 fun s3 h3 e3 => ?_
      have l3 : s2.ts.length = s3.ts.length + 1 := by rw [e2, e3]; rfl
      refine ⟨h3, by omega, ?_⟩
      rw [gIndex]
      exact ⟨s1.ts, ⟨t1, e1, symbol_iff.1 c1⟩, s2.ts, g2, c, by rw [e2, e3], hc⟩
    · -- indexTypes
      intro s hs hf
      rw [parseIndexTypes]
      refine ih.type.bind hs (fun h => hf (by omega)) fun t s1 h1 l1 g1 => ?_
      refine B.ordinal' h1 ?_
      refine B.cur? h1 trivial fun t2 ht2 => ?_
      refine wp_ite (fun c => ?_) (fun c => wp_ite (fun c2 => ?_) (fun _ => trivial))
      · obtain ⟨ts, hts⟩ := tok_cons' notEof_sym ht2 c
        have c' := symbol_iff.1 c
        refine ⟨h1, l1, ?_, t2, ts, hts, c'⟩
        rw [gIndexTypes]
        exact ⟨s1.ts, g1, rfl, t2, ts, hts, c'⟩
      · obtain ⟨ts, hts⟩ := tok_cons' notEof_sym ht2 c2
        refine B.next h1 hts fun s2 h2 e2 => ?_
        have l2 : s1.ts.length = s2.ts.length + 1 := by rw [hts, e2]; rfl
        refine ih.indexTypes.bind h2 (fun h => hf (by omega)) fun rest s3 h3 l3 ⟨g3, he⟩ => ?_
        refine ⟨h3, by omega, ?_, he⟩
        rw [gIndexTypes]
        exact ⟨s1.ts, g1, s2.ts, ⟨t2, by rw [hts, e2], symbol_iff.1 c2⟩, g3⟩
    · -- set
      intro b s hs hf
      rw [parseSet]
      refine B.eatKwP hs fun t1 s1 c1 h1 e1 => ?_
      have l1 : s.ts.length = s1.ts.length + 1 := by rw [e1]; rfl
      refine B.eatKwP h1 fun t3 s3 c3 h3 e3 => ?_
      have l3 : s1.ts.length = s3.ts.length + 1 := by rw [e3]; rfl
      refine ih.type.bind h3 (fun h => hf (by omega)) fun base s4 h4 l4 g4 => ?_
      refine B.ordinal' h4 ?_
      exact ⟨h4, by omega, base, rfl, s1.ts, ⟨t1, e1, c1⟩, s3.ts, ⟨t3, e3, c3⟩, g4⟩
    · -- rec
      intro b s hs hf
      rw [parseRec]
      refine B.eatKwP hs fun t1 s1 c1 h1 e1 => ?_
      have l1 : s.ts.length = s1.ts.length + 1 := by rw [e1]; rfl
      refine (ih.fieldList _ notEof_kw).bind h1 (fun h => hf (by omega)) fun fl s2 h2 l2 ⟨g2, _⟩ => ?_
      refine B.current h2 fun t3 ht3 c3 => ?_
      obtain ⟨ts, hts⟩ := tok_cons' notEof_kw ht3 c3
      rw [kwPred] at g2
      exact ⟨h2, by omega, fl, rfl, s1.ts, ⟨t1, e1, c1⟩, s2.ts, g2, rfl, t3, ts, hts, kw_iff.1 c3⟩
    · -- fieldList
      intro term hterm s hs hf
      rw [parseFieldList]
      refine (ih.fields term hterm).bind hs (fun h => hf (by omega)) fun fs s1 h1 l1 ⟨g1, c, z, e1, hc⟩ => ?_
      refine B.isL h1 notEof_kw (fun t2 ts2 c2 e2 => ?_) (fun t2 ht2 c2 => ?_)
      · refine ih.variant.bind h1 (fun h => hf (by omega)) fun v s2 h2 l2 ⟨g2, c, z, e3, hc⟩ => ?_
        refine ⟨h2, by omega, ?_, c, z, e3, .inr hc⟩
        rw [gFieldList]
        exact ⟨s1.ts, g1, .inr g2⟩
      · have hc' : term c = true := by
          rcases hc with hc | hc
          · have := tok_of_cons e1; rw [ht2] at this; cases this
            exact absurd (kw_iff.2 hc) c2
          · exact hc
        refine B.isL h1 hterm (fun t3 ts3 c3 e3 => ?_) (fun t3 ht3 c3 => ?_)
        · refine ⟨h1, l1, ?_, c, z, e1, .inl hc'⟩
          rw [gFieldList]
          exact ⟨s1.ts, g1, .inl ⟨rfl, rfl, c, z, e1, hc'⟩⟩
        · have := tok_of_cons e1; rw [ht3] at this; cases this
          exact absurd hc' c3
    · -- fields
      intro term hterm s hs hf
      rw [parseFields]
      refine B.cur hs fun t ht => ?_
      refine wp_ite (fun c => ?_) (fun c => ?_)
      · have c' : IsKw u r!"CASE" t ∨ term t = true := by
          rw [Bool.or_eq_true] at c
          exact c.imp kw_iff.1 id
        obtain ⟨ts, hts⟩ : ∃ ts, s.ts = t :: ts := by
          rcases c' with c' | c'
          · exact tok_cons ht (kw_ne_eof c')
          · exact tok_cons' hterm ht c'
        refine ⟨hs, Nat.le_refl _, ?_, t, ts, hts, c'⟩
        rw [gFields]
        exact ⟨rfl, t, ts, hts, c'⟩
      · refine (idents_sound B notEof_sym n).bind hs (fun h => hf (by omega)) fun is s1 h1 l1 ⟨y, g1, ey, t2, ts2, e2, c2⟩ => ?_
        subst ey
        refine B.next h1 e2 fun s2 h2 e3 => ?_
        have l2 : s1.ts.length = s2.ts.length + 1 := by rw [e2, e3]; rfl
        refine ih.type.bind h2 (fun h => hf (by omega)) fun ty s3 h3 l3 g3 => ?_
        refine B.isL h3 hterm (fun t4 ts4 c4 e4 => ?_) (fun t4 ht4 c4 => ?_)
        · refine ⟨h3, by omega, ?_, t4, ts4, e4, .inr c4⟩
          rw [gFields]
          exact ⟨s1.ts, g1, s2.ts, ⟨t2, by rw [e2, e3], symbol_iff.1 c2⟩, s3.ts, g3, .inl ⟨rfl, rfl, t4, ts4, e4, c4⟩⟩
        · refine B.eatSym h3 fun t5 s5 c5 h5 e5 => ?_
          have l5 : s3.ts.length = s5.ts.length + 1 := by rw [e5]; rfl
          refine (ih.fields term hterm).bind h5 (fun h => hf (by omega)) fun rest s6 h6 l6 ⟨g6, he⟩ => ?_
          refine ⟨h6, by omega, ?_, he⟩
          rw [gFields]
          exact ⟨s1.ts, g1, s2.ts, ⟨t2, by rw [e2, e3], symbol_iff.1 c2⟩, s3.ts, g3, .inr ⟨s5.ts, ⟨t5, e5, c5⟩, g6⟩⟩
    · -- variant
      intro s hs hf
      rw [parseVariant]
      refine B.eatKwP hs fun t1 s1 c1 h1 e1 => ?_
      have l1 : s.ts.length = s1.ts.length + 1 := by rw [e1]; rfl
      refine (variantIdent_sound B n).bind h1 (fun h => hf (by omega)) fun i s2 h2 l2 g2 => ?_
      refine ih.type.bind h2 (fun h => hf (by omega)) fun ty s3 h3 l3 g3 => ?_
      refine B.ordinal' h3 ?_
      refine B.eatKwP h3 fun t4 s4 c4 h4 e4 => ?_
      have l4 : s3.ts.length = s4.ts.length + 1 := by rw [e4]; rfl
      refine ih.variants.bind h4 (fun h => hf (by omega)) fun vs s5 h5 l5 ⟨g5, he⟩ => ?_
      refine ⟨h5, by omega, ?_, he⟩
      rw [gVariant]
      exact ⟨s1.ts, ⟨t1, e1, c1⟩, s2.ts, g2, s3.ts, g3, s4.ts, ⟨t4, e4, c4⟩, g5⟩
    · -- variants
      intro s hs hf
      rw [parseVariants]
      refine B.isL hs notEof_kw (fun t1 ts1 c1 e1 => ?_) (fun t1 ht1 c1 => ?_)
      · refine ⟨hs, Nat.le_refl _, ?_, t1, ts1, e1, kw_iff.1 c1⟩
        rw [gVariants]
        exact ⟨rfl, t1, ts1, e1, kw_iff.1 c1⟩
      · refine (constExprs_sound B n).bind hs (fun h => hf (by omega)) fun es s1 h1 l1 ⟨g1, c, z, e1, hc⟩ => ?_
        refine B.nextIs h1 (fun t h => sym_ne_eof (symbol_iff.1 h)) fun t0 t2 s2 ts2 c2 h2 e2 e2' => ?_
        have : t0 = c := by rw [e1] at e2; cases e2; rfl
        subst this
        have l2 : s1.ts.length = s2.ts.length + 1 := by rw [e2]; rfl
        refine B.next h2 e2' fun s3 h3 e3 => ?_
        have l3 : s2.ts.length = s3.ts.length + 1 := by rw [e2', e3]; rfl
        refine (ih.fieldList _ notEof_sym).bind h3 (fun h => hf (by omega)) fun fl s4 h4 l4 ⟨g4, t5, z5, e5, c5⟩ => ?_
        rw [symPred] at g4
        have c5 : IsSym r!")" t5 ∨ IsKw u r!"END" t5 := c5.imp symbol_iff.1 id
        refine B.next h4 e5 fun s5 h5 e5' => ?_
        have l5 : s4.ts.length = s5.ts.length + 1 := by rw [e5, e5']; rfl
        refine B.cur? h5 trivial fun t6 ht6 => ?_
        refine wp_ite (fun c6 => ?_) (fun c6 => wp_ite (fun c7 => ?_) (fun _ => trivial))
        · obtain ⟨ts6, hts6⟩ := tok_cons' notEof_kw ht6 c6
          have c6 := kw_iff.1 c6
          refine ⟨h5, by omega, ?_, t6, ts6, hts6, c6⟩
          rw [gVariants]
          exact ⟨s1.ts, g1, s2.ts, ⟨t0, e2, hc⟩, s3.ts, ⟨t2, by rw [e2', e3], symbol_iff.1 c2⟩, s4.ts, g4,
            s5.ts, ⟨t5, by rw [e5, e5'], c5⟩, .inl ⟨rfl, rfl, t6, ts6, hts6, c6⟩⟩
        · obtain ⟨ts6, hts6⟩ := tok_cons' notEof_sym ht6 c7
          refine B.next h5 hts6 fun s6 h6 e6 => ?_
          have l6 : s5.ts.length = s6.ts.length + 1 := by rw [hts6, e6]; rfl
          refine ih.variants.bind h6 (fun h => hf (by omega)) fun rest s7 h7 l7 ⟨g7, he⟩ => ?_
          refine ⟨h7, by omega, ?_, he⟩
          rw [gVariants]
          exact ⟨s1.ts, g1, s2.ts, ⟨t0, e2, hc⟩, s3.ts, ⟨t2, by rw [e2', e3], symbol_iff.1 c2⟩, s4.ts, g4,
            s5.ts, ⟨t5, by rw [e5, e5'], c5⟩, .inr ⟨s6.ts, ⟨t6, by rw [hts6, e6], symbol_iff.1 c7⟩, g7⟩⟩
    · -- procType
      intro s hs hf
      rw [parseProcType]
      refine funcWord_sound B hs fun fn t ts hts hw => ?_
      have hl : s.ts.length = ts.length + 1 := by rw [hts]; rfl
      refine wp_mono (stacked_sound B (n := n) (r := 8) (G := fun a x y => ∀ t z, x = t :: z →
        (Leaf.val (if fn then r!"FUNCTION" else r!"PROCEDURE")).Is u t → gType u a x y) ?_ s hs (fun h => hf (by omega))) ?_ id id
      · intro J B s hs hf
        refine B.skip hs fun s1 h1 e1 => ?_
        have := tail_le s.ts
        have ih := ihAll J B
        have : 20 * s1.ts.length + 2 ≤ 20 * s.ts.length + 8 := by rw [e1]; omega
        refine (ih.optParams _ _).bind h1 (fun h => hf (by omega)) fun ps s2 h2 l2 g2 => ?_
        refine (return_sound B fn n).bind h2 (fun h => hf (by omega)) fun r s3 h3 l3 g3 => ?_
        refine (ofObject_sound B n).bind h3 (fun h => hf (by omega)) fun o s4 h4 l4 g4 => ?_
        refine ⟨h4, by rw [e1] at l2; omega, fun t z e hw => ?_⟩
        rw [gType]
        exact ⟨s1.ts, ⟨t, by rw [e1, e]; rfl, hw⟩, s2.ts, g2, s3.ts, g3, g4⟩
      · rintro a s' ⟨h1, h2, h3⟩
        exact ⟨h1, h2, h3 t ts hts hw⟩
    · -- optParams
      intro op cl s hs hf
      rw [parseOptParams]
      refine B.isL hs notEof_sym (fun _ _ _ _ => ?_) (fun _ _ _ => ⟨hs, Nat.le_refl _, by rw [gOptParams]; rfl⟩)
      refine (ih.params op cl).bind hs (fun h => hf (by omega)) fun ps s1 h1 l1 g1 => ?_
      exact ⟨h1, l1, by rw [gOptParams]; exact g1⟩
    · -- params
      intro op cl s hs hf
      rw [parseParams]
      refine B.eatSym hs fun t1 s1 c1 h1 e1 => ?_
      have l1 : s.ts.length = s1.ts.length + 1 := by rw [e1]; rfl
      refine (ih.paramList cl).bind h1 (fun h => hf (by omega)) fun ps s2 h2 l2 g2 => ?_
      refine B.eatSym h2 fun t3 s3 c3 h3 e3 => ?_
      have l3 : s2.ts.length = s3.ts.length + 1 := by rw [e3]; rfl
      exact ⟨h3, by omega, s1.ts, ⟨t1, e1, c1⟩, s2.ts, g2, t3, e3, c3⟩
    · -- paramList
      intro cl s hs hf
      rw [parseParamList]
      refine (parmOpt_sound B n).bind hs (fun h => hf (by omega)) fun opt s1 h1 l1 g1 => ?_
      have ht : NotEof (Pred.some [sym r!":", sym r!";", sym cl]) := by
        intro t h
        obtain ⟨p, hp, hpt⟩ := some_iff.1 h
        simp only [List.mem_cons, List.not_mem_nil, or_false] at hp
        rcases hp with rfl | rfl | rfl <;> exact notEof_sym t hpt
      refine (idents_sound B ht n).bind h1 (fun h => hf (by omega)) fun is s2 h2 l2 ⟨y, g2, ey, _⟩ => ?_
      subst ey
      have l2' := gIdents_lt g2
      refine ih.paramTy.bind h2 (fun h => hf (by omega)) fun ty s3 h3 l3 g3 => ?_
      refine (parmDefault_sound B n).bind h3 (fun h => hf (by omega)) fun e s4 h4 l4 g4 => ?_
      refine B.current h4 fun t5 ht5 c5 => ?_
      refine B.setDecl h4 fun s5 h5 e5 => ?_
      refine B.cur? h5 trivial fun t6 ht6 => ?_
      refine wp_ite (fun c6 => ?_) (fun c6 => wp_ite (fun c7 => ?_) (fun _ => trivial))
      · obtain ⟨ts, hts⟩ := tok_cons' notEof_sym ht6 c6
        refine ⟨h5, by rw [e5]; omega, ?_⟩
        rw [gParams, e5]
        exact ⟨s1.ts, g1, s2.ts, g2, s3.ts, g3, s4.ts, g4, rfl, t6, ts, by rw [← e5]; exact hts, symbol_iff.1 c6⟩
      · obtain ⟨ts, hts⟩ := tok_cons' notEof_sym ht6 c7
        refine B.next h5 hts fun s6 h6 e6 => ?_
        have l6 : s5.ts.length = s6.ts.length + 1 := by rw [hts, e6]; rfl
        rw [e5] at l6
        refine (ih.paramList cl).bind h6 (fun h => hf (by omega)) fun rest s7 h7 l7 g7 => ?_
        refine ⟨h7, by omega, ?_⟩
        rw [gParams]
        exact ⟨s1.ts, g1, s2.ts, g2, s3.ts, g3, s4.ts, g4, s6.ts, ⟨t6, by rw [← e5, hts, e6], symbol_iff.1 c7⟩, g7⟩
    · -- paramTy
      intro s hs hf
      rw [parseParamTy]
      refine B.opt hs notEof_sym (fun t1 s1 c1 h1 e1 => ?_) (fun _ _ _ => ⟨hs, Nat.le_refl _, by rw [gParamTy]; rfl⟩)
      have l1 : s.ts.length = s1.ts.length + 1 := by rw [e1]; rfl
      refine B.isL h1 notEof_kw (fun t2 ts2 c2 e2 => ?_) (fun t2 ht2 c2 => ?_)
      · refine B.nextIs h1 (fun t h => kw_ne_eof (kw_iff.1 h)) fun t0 t3 s3 ts3 c3 h3 e3 e3' => ?_
        have : t0 = t2 := by rw [e2] at e3; cases e3; rfl
        subst this
        have l3 : s1.ts.length = s3.ts.length + 1 := by rw [e3]; rfl
        refine B.next h3 e3' fun s4 h4 e4 => ?_
        have l4 : s3.ts.length = s4.ts.length + 1 := by rw [e3', e4]; rfl
        have ga : gArrayOf u true s1.ts s4.ts := ⟨s3.ts, ⟨t0, e3, kw_iff.1 c2⟩, t3, by rw [e3', e4], kw_iff.1 c3⟩
        refine B.opt h4 notEof_kw (fun t5 s5 c5 h5 e5 => ?_) (fun _ _ _ => ?_)
        · have l5 : s4.ts.length = s5.ts.length + 1 := by rw [e5]; rfl
          refine ⟨h5, by omega, ?_⟩
          rw [gParamTy]
          exact ⟨s1.ts, ⟨t1, e1, symbol_iff.1 c1⟩, s4.ts, ga, .inr ⟨⟨rfl, rfl⟩, t5, e5, kw_iff.1 c5⟩⟩
        · refine ih.type.bind h4 (fun h => hf (by omega)) fun ty s5 h5 l5 g5 => ?_
          refine ⟨h5, by omega, ?_⟩
          rw [gParamTy]
          exact ⟨s1.ts, ⟨t1, e1, symbol_iff.1 c1⟩, s4.ts, ga, .inl g5⟩
      · refine ih.type.bind h1 (fun h => hf (by omega)) fun ty s5 h5 l5 g5 => ?_
        refine ⟨h5, by omega, ?_⟩
        rw [gParamTy]
        exact ⟨s1.ts, ⟨t1, e1, symbol_iff.1 c1⟩, s1.ts, rfl, .inl g5⟩
    · -- classOrRef
      rw [parseClassOrRef]
      refine traced_sound B ?_
      intro s hs hf
      refine B.eatKw hs fun t1 s1 c1 h1 e1 => ?_
      have l1 : s.ts.length = s1.ts.length + 1 := by rw [e1]; rfl
      refine B.isL h1 notEof_sym (fun t2 ts2 c2 e2 => ?_) (fun t2 ht2 c2 => ?_)
      · refine ⟨h1, by omega, ?_⟩
        rw [gType]
        exact ⟨s1.ts, ⟨t1, e1, c1⟩, rfl, t2, ts2, e2, symbol_iff.1 c2⟩
      refine B.isL h1 notEof_kw (fun t3 ts3 c3 e3 => ?_) (fun t3 ht3 c3 => ?_)
      · unfold parseClassRef
        refine B.nextIs h1 (fun t h => by rw [typ_iff.1 h]; decide) fun t0 t4 s4 ts4 c4 h4 e4 e4' => ?_
        have : t0 = t3 := by rw [e3] at e4; cases e4; rfl
        subst this
        refine wp_declOf ?_
        refine ⟨h4, by rw [e1, e4]; simp; omega, ?_⟩
        rw [gType]
        exact ⟨rfl, s1.ts, ⟨t1, e1, c1⟩, s4.ts, ⟨t0, e4, kw_iff.1 c3⟩, rfl, t4, ts4, e4', typ_iff.1 c4, rfl⟩
      · refine wp_mono (ih.cls s1 h1 (fun h => hf (by omega))) ?_ id id
        rintro a s2 ⟨h2, l2, hh, ms, rfl, g2⟩
        refine ⟨h2, by omega, ?_⟩
        rw [gType]
        exact ⟨s1.ts, ⟨t1, e1, c1⟩, g2⟩
    · -- class
      rw [parseClass]
      refine traced_sound B ?_
      intro s hs hf
      refine (heritage_sound B n).bind hs (fun h => hf (by omega)) fun h s1 h1 l1 g1 => ?_
      refine B.isL h1 notEof_kw (fun t2 ts2 c2 e2 => ?_) (fun t2 ht2 c2 => ?_)
      · exact ⟨h1, l1, h, .nil, rfl, s1.ts, g1, .inl ⟨rfl, rfl, t2, ts2, e2, .inl (kw_iff.1 c2)⟩⟩
      refine B.isL h1 notEof_sym (fun t2 ts2 c2 e2 => ?_) (fun t2 ht2 c2 => ?_)
      · exact ⟨h1, l1, h, .nil, rfl, s1.ts, g1, .inl ⟨rfl, rfl, t2, ts2, e2, .inr (symbol_iff.1 c2)⟩⟩
      refine (traced_sound B (ih.sects h .nil)).bind h1 (fun h => hf (by omega)) fun ms s2 h2 l2 g2 => ?_
      obtain ⟨new, rfl, g2⟩ := g2
      exact ⟨h2, by omega, h, _, rfl, s1.ts, g1, .inr g2⟩
    · -- sects
      intro h prev s hs hf
      rw [parseSects]
      refine (traced_sound B (ih.sect h prev)).bind hs (fun h => hf (by omega)) fun ms s1 h1 l1 ⟨v, fs, md, ps, e, g1, l1'⟩ => ?_
      subst e
      refine B.cur? h1 trivial fun t2 ht2 => ?_
      refine wp_ite (fun c2 => ?_) (fun c2 => ?_)
      · obtain ⟨ts, hts⟩ := tok_cons' notEof_kw ht2 c2
        refine ⟨h1, l1, _, rfl, ?_⟩
        rw [gSects]
        obtain ⟨y, ga, gb⟩ := g1
        exact ⟨y, ga, s1.ts, gb, .inl ⟨rfl, rfl, t2, ts, hts, kw_iff.1 c2⟩⟩
      · refine wp_mono (ih.sects h _ s1 h1 (fun h => hf (by omega))) ?_ id id
        rintro ms s2 ⟨h2, l2, new, rfl, g2⟩
        refine ⟨h2, by omega, .cons v fs md ps new, ?_, ?_⟩
        · rw [Sects.app_assoc]; rfl
        · rw [gSects]
          obtain ⟨y, ga, gb⟩ := g1
          exact ⟨y, ga, s1.ts, gb, .inr g2⟩
    · -- sect
      intro h prev s hs hf
      rw [parseSect]
      refine (visibility_sound B n).bind hs (fun h => hf (by omega)) fun v s1 h1 l1 ⟨g1, g1', g1''⟩ => ?_
      have key : v = .dflt → ∃ t z, s1.ts = t :: z ∧ t.typ = .ident ∧ ¬ IsVisibilityWord u t := by
        intro hv
        subst hv
        obtain ⟨e, t, z, e', ht⟩ := g1
        exact ⟨t, z, by rw [← e, e'], ht.1, g1'' rfl t z e'⟩
      refine B.isL h1 notEof_kw (fun t2 ts2 c2 e2 => ?_) (fun t2 ht2 c2 => ?_)
      · have c2 := kw_iff.1 c2
        have hv : v ≠ .dflt := by
          intro hv
          obtain ⟨t, z, e, ht, _⟩ := key hv
          rw [e] at e2; cases e2
          rw [c2.1] at ht; cases ht
        exact ⟨h1, l1, v, .nil, .nil, .nil, Sects.add_eq _ _ _ _ _, ⟨s1.ts, g1, .inl ⟨⟨rfl, rfl, rfl⟩, rfl, t2, ts2, e2, c2⟩⟩, g1' hv⟩
      · refine (traced_sound B ih.classFields).bind h1 (fun h => hf (by omega)) fun fs s2 h2 l2 ⟨g2, g2'⟩ => ?_
        refine (traced_sound B ih.methods).bind h2 (fun h => hf (by omega)) fun md s3 h3 l3 g3 => ?_
        refine (traced_sound B (ih.props h _)).bind h3 (fun h => hf (by omega)) fun ps s4 h4 l4 g4 => ?_
        refine ⟨h4, by omega, v, fs, md, ps, Sects.add_eq _ _ _ _ _, ⟨s1.ts, g1, .inr ⟨s2.ts, g2, s3.ts, g3, g4⟩⟩, ?_⟩
        by_cases hv : v = .dflt
        · obtain ⟨t, z, e, ht, hn⟩ := key hv
          have hnf : ¬ EndsFields u t := by
            rintro (h | h | h | h | h | h | h)
            all_goals first
              | exact hn h
              | (have := h.1; rw [ht] at this; cases this)
          have := g2' ⟨t, z, e, hnf⟩
          omega
        · have := g1' hv; omega
    · -- classFields
      intro s hs hf
      rw [parseClassFields]
      refine B.isL hs notEof_fields (fun t1 ts1 c1 e1 => ?_) (fun t1 ht1 c1 => ?_)
      · have c1 := fieldListBreak_iff.1 c1
        refine ⟨hs, Nat.le_refl _, ?_, ?_⟩
        · rw [gClassFields]
          exact ⟨rfl, t1, ts1, e1, c1⟩
        · rintro ⟨t, z, e, hn⟩
          rw [e] at e1; cases e1
          exact absurd c1 hn
      · refine (traced_sound B ih.classField).bind hs (fun h => hf (by omega)) fun f s1 h1 l1 ⟨⟨y1, ga, y2, gb, gc⟩, l1'⟩ => ?_
        refine B.cur? h1 trivial fun t2 ht2 => ?_
        refine wp_ite (fun c2 => ?_) (fun _ => wp_ite (fun c2 => ?_) (fun _ => trivial))
        · obtain ⟨ts, hts⟩ := tok_cons' notEof_fields ht2 c2
          refine ⟨h1, l1, ?_, fun _ => l1'⟩
          rw [gClassFields]
          exact ⟨y1, ga, y2, gb, s1.ts, gc, .inl ⟨rfl, rfl, t2, ts, hts, fieldListBreak_iff.1 c2⟩⟩
        · obtain ⟨ts, hts⟩ := tok_cons' notEof_sym ht2 c2
          refine B.next h1 hts fun s2 h2 e2 => ?_
          have l2 : s1.ts.length = s2.ts.length + 1 := by rw [hts, e2]; rfl
          refine ih.classFields.bind h2 (fun h => hf (by omega)) fun rest s3 h3 l3 ⟨g3, _⟩ => ?_
          refine ⟨h3, by omega, ?_, fun _ => by omega⟩
          rw [gClassFields]
          exact ⟨y1, ga, y2, gb, s1.ts, gc, .inr ⟨s2.ts, ⟨t2, by rw [hts, e2], symbol_iff.1 c2⟩, g3⟩⟩
    · -- classField
      intro s hs hf
      rw [parseClassField]
      refine (idents_sound B notEof_sym n).bind hs (fun h => hf (by omega)) fun is s1 h1 l1 ⟨y, g1, ey, t2, ts2, e2, c2⟩ => ?_
      subst ey
      refine B.next h1 e2 fun s2 h2 e3 => ?_
      have l2 : s1.ts.length = s2.ts.length + 1 := by rw [e2, e3]; rfl
      refine ih.type.bind h2 (fun h => hf (by omega)) fun ty s3 h3 l3 g3 => ?_
      exact ⟨h3, by omega, ⟨s1.ts, g1, s2.ts, ⟨t2, by rw [e2, e3], symbol_iff.1 c2⟩, g3⟩, by omega⟩
    · -- methods
      intro s hs hf
      rw [parseMethods]
      refine B.isL hs notEof_methods (fun t1 ts1 c1 e1 => ?_) (fun t1 ht1 c1 => ?_)
      · refine ⟨hs, Nat.le_refl _, ?_⟩
        rw [gMethods]
        exact ⟨rfl, t1, ts1, e1, methodBreak_iff.1 c1⟩
      · refine (traced_sound B ih.method).bind hs (fun h => hf (by omega)) fun m s1 h1 l1 ⟨⟨y1, ga, y2, gb, gc⟩, l1'⟩ => ?_
        refine (optSemi_sound B n).bind h1 (fun h => hf (by omega)) fun _ s2 h2 l2 g2 => ?_
        refine B.cur? h2 trivial fun t3 ht3 => ?_
        refine wp_ite (fun c3 => ?_) (fun _ => ?_)
        · obtain ⟨ts, hts⟩ := tok_cons' notEof_methods ht3 c3
          refine ⟨h2, by omega, ?_⟩
          rw [gMethods]
          refine ⟨y1, ga, y2, gb, s1.ts, gc, s2.ts, g2, ?_⟩
          rw [gMethods]
          exact ⟨rfl, t3, ts, hts, methodBreak_iff.1 c3⟩
        · refine ih.methods.bind h2 (fun h => hf (by omega)) fun rest s3 h3 l3 g3 => ?_
          refine ⟨h3, by omega, ?_⟩
          rw [gMethods]
          exact ⟨y1, ga, y2, gb, s1.ts, gc, s2.ts, g2, g3⟩
    · -- method
      intro s hs hf
      rw [parseMethod]
      refine B.current hs fun t ht c => ?_
      refine stacked_sound B (n := n) (r := 15) ?_ s hs (fun h => hf (by omega))
      intro J B s hs hf
      have ih := ihAll J B
      refine (ih.heading _).bind hs (fun h => hf (by omega)) fun h s1 h1 l1 ⟨g1, l1'⟩ => ?_
      refine (methodDirectiveList_sound B n).bind h1 (fun h => hf (by omega)) fun ds s2 h2 l2 ⟨y, g2, g3⟩ => ?_
      exact ⟨h2, by omega, ⟨s1.ts, g1, y, g2, g3⟩, by omega⟩
    · -- heading
      intro w s hs hf
      rw [parseHeading]
      refine wp_ite (fun _ => ih.funcHeading s hs (fun h => hf (by omega))) (fun _ => ?_)
      refine wp_ite (fun _ => traced_sound B ih.constructor' s hs (fun h => hf (by omega))) (fun _ => ?_)
      refine wp_ite (fun _ => ?_) (fun _ => trivial)
      unfold parseDestructor
      refine traced_sound B (n := n) (r := 1) ?_ s hs (fun h => hf (by omega))
      intro s hs hf
      refine B.eatKw hs fun t s1 ht h1 e1 => ?_
      have l1 : s.ts.length = s1.ts.length + 1 := by rw [e1]; rfl
      refine B.any h1 fun t2 s2 h2 l2 g2 => ?_
      refine ⟨h2, by omega, ?_, by omega⟩
      rw [gHeading]
      exact ⟨s1.ts, ⟨t, e1, ht⟩, g2⟩
    · -- funcHeading
      intro s hs hf
      rw [parseFuncHeading]
      refine funcWord_sound B hs fun fn t ts hts hw => ?_
      refine B.nextIs hs (fun t h => by rw [typ_iff.1 h]; decide) fun t0 t1 s1 ts1 c1 h1 e1 e1' => ?_
      have : t0 = t := by rw [hts] at e1; cases e1; rfl
      subst this
      have l1 : s.ts.length = s1.ts.length + 1 := by rw [e1]; rfl
      refine traced_wp B h1 ?_
      refine B.next h1 e1' fun s2 h2 e2 => ?_
      have l2 : s1.ts.length = s2.ts.length + 1 := by rw [e1', e2]; rfl
      refine (ih.optParams _ _).bind h2 (fun h => hf (by omega)) fun ps s3 h3 l3 g3 => ?_
      refine (return_sound B fn n).bind h3 (fun h => hf (by omega)) fun r s4 h4 l4 g4 => ?_
      refine ⟨h4, h4, by omega, ?_, by omega⟩
      rw [gHeading]
      exact ⟨s1.ts, ⟨t0, e1, hw⟩, s2.ts, ⟨t1, by rw [e1', e2], typ_iff.1 c1, rfl⟩, s3.ts, g3, g4⟩
    · -- constructor
      intro s hs hf
      rw [parseConstructor]
      refine B.eatKw hs fun t1 s1 c1 h1 e1 => ?_
      have l1 : s.ts.length = s1.ts.length + 1 := by rw [e1]; rfl
      refine B.any h1 fun t2 s2 h2 l2 g2 => ?_
      refine (ih.optParams _ _).bind h2 (fun h => hf (by omega)) fun ps s3 h3 l3 g3 => ?_
      refine ⟨h3, by omega, ?_, by omega⟩
      rw [gHeading]
      exact ⟨s1.ts, ⟨t1, e1, c1⟩, s2.ts, g2, g3⟩
    · -- props
      intro h ms s hs hf
      rw [parseProps]
      refine B.isL hs notEof_props (fun t1 ts1 c1 e1 => ?_) (fun t1 ht1 c1 => ?_)
      · refine ⟨hs, Nat.le_refl _, ?_⟩
        rw [gProps]
        exact ⟨rfl, t1, ts1, e1, propertyBreak_iff.1 c1⟩
      · refine (ih.prop h ms).bind hs (fun h => hf (by omega)) fun p s1 h1 l1 ⟨g1, l1'⟩ => ?_
        refine (optSemi_sound B n).bind h1 (fun h => hf (by omega)) fun _ s2 h2 l2 g2 => ?_
        refine B.cur? h2 trivial fun t3 ht3 => ?_
        refine wp_ite (fun c3 => ?_) (fun _ => ?_)
        · obtain ⟨ts, hts⟩ := tok_cons' notEof_props ht3 c3
          refine ⟨h2, by omega, ?_⟩
          rw [gProps]
          refine ⟨s1.ts, g1, s2.ts, g2, ?_⟩
          rw [gProps]
          exact ⟨rfl, t3, ts, hts, propertyBreak_iff.1 c3⟩
        · refine (ih.props h ms).bind h2 (fun h => hf (by omega)) fun rest s3 h3 l3 g3 => ?_
          refine ⟨h3, by omega, ?_⟩
          rw [gProps]
          exact ⟨s1.ts, g1, s2.ts, g2, g3⟩
    · -- prop
      intro h ms s hs hf
      rw [parseProp]
      refine B.eatKw hs fun t1 s1 c1 h1 e1 => ?_
      have l1 : s.ts.length = s1.ts.length + 1 := by rw [e1]; rfl
      refine B.cur h1 fun t ht => ?_
      refine traced_wp B h1 ?_
      refine B.skip h1 fun s2 h2 e2 => ?_
      have l2 := tail_le s1.ts
      rw [← e2] at l2
      have g2 : anyAt (Ident.ofTok t) s1.ts s2.ts := by rw [e2]; exact anyAt_tok ht
      refine ih.intf.bind h2 (fun h => hf (by omega)) fun intf s3 h3 l3 g3 => ?_
      refine (propIndex_sound B n).bind h3 (fun h => hf (by omega)) fun ix s4 h4 l4 g4 => ?_
      refine B.prop' h4 fun d => ?_
      refine (accessor_sound B h ms (by decide) n).bind h4 (fun h => hf (by omega)) fun rd s5 h5 l5 g5 => ?_
      refine (accessor_sound B h ms (by decide) n).bind h5 (fun h => hf (by omega)) fun wr s6 h6 l6 g6 => ?_
      refine (stored_sound B h ms n).bind h6 (fun h => hf (by omega)) fun st s7 h7 l7 g7 => ?_
      refine (propDefault_sound B n).bind h7 (fun h => hf (by omega)) fun df s8 h8 l8 g8 => ?_
      refine (implements_sound B n).bind h8 (fun h => hf (by omega)) fun im s9 h9 l9 g9 => ?_
      refine ⟨h9, h9, by omega, ?_, by omega⟩
      rw [gProp]
      exact ⟨s1.ts, ⟨t1, e1, c1⟩, s2.ts, g2, s3.ts, g3, s4.ts, g4, s5.ts, g5, s6.ts, g6, s7.ts, g7, s8.ts, g8, g9⟩
    · -- intf
      intro s hs hf
      rw [parseIntf]
      refine B.isL hs notEof_sym (fun t1 ts1 c1 e1 => ?_) (fun t1 ht1 c1 => ?_)
      · refine stacked_sound B (n := n) (r := 1) ?_ s hs (fun h => hf (by omega))
        intro J B s hs hf
        have ih := ihAll J B
        refine (ih.params _ _).bind hs (fun h => hf (by omega)) fun ps s2 h2 l2 g2 => ?_
        refine B.eatSym h2 fun t3 s3 c3 h3 e3 => ?_
        have l3 : s2.ts.length = s3.ts.length + 1 := by rw [e3]; rfl
        refine (typeId_sound B n).bind h3 (fun h => hf (by omega)) fun t s4 h4 l4 g4 => ?_
        refine ⟨h4, by omega, ?_⟩
        rw [gIntf]
        exact ⟨s2.ts, by rw [gOptParams]; exact g2, s3.ts, ⟨t3, e3, c3⟩, g4⟩
      · refine B.opt hs notEof_sym (fun t3 s3 c3 h3 e3 => ?_) (fun _ _ _ => ⟨hs, Nat.le_refl _, by rw [gIntf]; rfl⟩)
        have l3 : s.ts.length = s3.ts.length + 1 := by rw [e3]; rfl
        refine (typeId_sound B n).bind h3 (fun h => hf (by omega)) fun t s4 h4 l4 g4 => ?_
        refine ⟨h4, by omega, ?_⟩
        rw [gIntf]
        exact ⟨s.ts, by rw [gOptParams]; rfl, s3.ts, ⟨t3, e3, symbol_iff.1 c3⟩, g4⟩

end

end TP
