import Verif.Lemmas.NamedBase
import Verif.Lemmas.NoPanicUnit

/-!
# Parsing units and programs with ranked types
-/

namespace TP
open Spec Maps

variable {u : Uni} {rank : Str → Nat} {nm rn : List Str} {k : DS} {a b : List Str}

/-- what is stored for the types -/
abbrev NameOf (nm : List Str) (key : Str) (n : Node) : Prop := ∀ i, n = .type i → nm[i]? = some key

namespace Named

/-- declarations that are not types -/
theorem setW (h : Named u rank nm rn k) {k1 k' : DS} {c : Nat} {ds : List (Decl Node)} (h1 : k1.types = k.types) (h2 : k1.refs = k.refs)
    (h3 : k1.pending = k.pending) (hd : ∀ d ∈ ds, ∀ i, d.node ≠ .type i) (e : k1.setR (k.w.set u c ds) = .ok k') :
    Named u rank nm rn k' := by
  rw [setR_ok e]
  refine h.maps ?_ h1 h2 h3
  show Kept _ (k.w.set u c ds).1.maps
  unfold World.set
  split
  · exact h.stored
  · exact h.stored.set _ fun d hd' i hi => (hd d hd' i hi).elim

theorem newMap (h : Named u rank nm rn k) {o : MapObj Node} (ho : ∀ p ∈ objTbl o, NameOf nm p.1 p.2.node) :
    Named u rank nm rn { k with w := (k.w.newMap o).1 } :=
  h.maps (h.stored.cons ho) rfl rfl rfl

theorem setUses (h : Named u rank nm rn k) {i : Ident} {k' : DS} (e : k.setUses u i = .ok k') : Named u rank nm rn k' :=
  h.setW (k1 := { k with items := k.items ++ [none] }) rfl rfl rfl
    (fun d hd i hi => by rw [List.mem_singleton.1 hd] at hi; cases hi) e

theorem setUnit (h : Named u rank nm rn k) {cu : Nat} {hd : UnitHead} {k' : DS} (e : k.setUnit u cu hd = .ok k') :
    Named u rank nm rn k' :=
  h.setW rfl rfl rfl (fun d hd i hi => by rw [List.mem_singleton.1 hd] at hi; cases hi) e

theorem stackAt (h : Named u rank nm rn k) (cu : Nat) : Named u rank nm rn (k.stackAt cu) := by
  unfold DS.stackAt World.stack
  split
  · rename_i w c e
    split at e
    · cases e
    · cases e
      exact h.maps (h.stored.cons (fun p hp => by cases hp)) rfl rfl rfl
  · exact h

theorem assignUnits {cu : Nat} : ∀ {es : List UsesEntry} {k : DS}, Named u rank nm rn k → Named u rank nm rn (k.assignUnits u cu es)
  | [], _, h => h
  | e :: es, k, h => by
    unfold DS.assignUnits
    split
    · exact assignUnits (h.same rfl rfl rfl rfl)
    · exact assignUnits h

theorem importUnits (h : Named u rank nm rn k) {cu : Nat} {es : List UsesEntry} {k' : DS} (e : k.importUnits u cu es = some k') :
    Named u rank nm rn k' := by
  unfold DS.importUnits at e
  simp only at e
  split at e
  · cases e
    have h1 := (h.assignUnits (cu := cu) (es := es)).newMap (o := .impl []) (by intro p hp; cases hp)
    rename_i d ms _ _
    have h2 := h1.newMap (o := .composite ((k.assignUnits u cu es).w.maps.length :: ms ++ [d])) (by intro p hp; cases hp)
    exact h2.same rfl rfl rfl rfl
  · cases e

theorem setUnitDm (h : Named u rank nm rn k) (i : Nat) (d : Option Nat) : Named u rank nm rn { k with w := k.w.setUnitDm i d } :=
  h.same (setUnitDm_eqs k.w i d).1 rfl rfl rfl

theorem openImpl (h : Named u rank nm rn k) {cu unit : Nat} {es : List UsesEntry} {r : DS × Nat} (e : k.openImpl u cu unit es = some r) :
    Named u rank nm rn r.1 := by
  unfold DS.openImpl at e
  simp only at e
  split at e
  · cases e
    rename_i ctxMap unitMap ms _ _ _
    have h1 := (h.assignUnits (cu := cu) (es := es)).newMap (o := .impl []) (by intro p hp; cases hp)
    have h2 := h1.newMap (o := .composite [(k.assignUnits u cu es).w.maps.length, unitMap]) (by intro p hp; cases hp)
    have h3 := h2.setUnitDm unit (some ((k.assignUnits u cu es).w.maps.length + 1))
    have h4 := h3.newMap (o := .composite ((k.assignUnits u cu es).w.maps.length :: ctxMap :: ms)) (by intro p hp; cases hp)
    exact h4.same rfl rfl rfl rfl
  · cases e

theorem newUnitContext (h : Named u rank nm rn k) (cp : Nat) (path : Str) : Named u rank nm rn (k.newUnitContext cp path).1 :=
  (h.newMap (o := .chained 0 []) (by intro p hp; cases hp)).same rfl rfl rfl rfl

theorem usesMap {es : List UsesEntry} : ∀ {hs : List UnitHead} {k : DS} {m : Tbl Node} {r : DS × Tbl Node}, Named u rank nm rn k →
    (∀ p ∈ m, NameOf nm p.1 p.2.node) → k.usesMap u es hs m = some r → Named u rank nm rn r.1 ∧ ∀ p ∈ r.2, NameOf nm p.1 p.2.node
  | [], k, m, r, h, hm, e => by cases e; exact ⟨h, hm⟩
  | x :: hs, k, m, r, h, hm, e => by
    unfold DS.usesMap at e
    split at e
    · cases e
    · rename_i en _
      refine usesMap (k := { k with items := k.items.set en.no (some x.no) }) (h.same rfl rfl rfl rfl) ?_ e
      intro p hp
      rcases tblSet_mem u _ _ p hp with hp | ⟨hp, -⟩
      · exact hm p hp
      · rw [List.mem_singleton.1 hp]
        exact fun i hi => by cases hi

theorem enterProgram (h : Named u rank nm rn k) {cp : Nat} {i : Ident} {hs : List UnitHead} {m : Tbl Node}
    (hm : ∀ p ∈ m, NameOf nm p.1 p.2.node) {k' : DS} (e : k.enterProgram u cp i hs m = some k') : Named u rank nm rn k' := by
  unfold DS.enterProgram at e
  split at e
  · cases e
    rename_i d ms _ _
    have h1 := h.newMap (o := .impl m) hm
    have h2 := h1.newMap (o := .impl (Tbl.set u [] [⟨i.name, Node.program⟩]).1) (by
      intro p hp
      rcases tblSet_mem u _ _ p hp with hp | ⟨hp, -⟩
      · cases hp
      · rw [List.mem_singleton.1 hp]
        exact fun i hi => by cases hi)
    have h3 := h2.newMap (o := .composite ((k.w.maps.length + 1) :: k.w.maps.length :: ms ++ [d])) (by intro p hp; cases hp)
    exact h3.same rfl rfl rfl rfl
  · cases e

/-- another parser -/
theorem switch (h : Named u rank nm rn k) (cur : Nat) {pending : List (Nat × Str)} (hp : ∀ p ∈ pending, rn[p.1]? = some (u.toLower p.2)) :
    Named u rank nm rn { k with cur := cur, pending := pending } := h.pending rfl rfl rfl hp

end Named

theorem NamedBy.uses (c : DS) (h : NamedBy u rank a b c) (i : Ident) : match c.setUses u i with
    | .ok c' => NamedBy u rank a b c'
    | .err => True
    | .panic => True := by
  obtain ⟨nm, rn, h1, h2, h3⟩ := h
  cases e : c.setUses u i with
  | ok c' => exact ⟨nm, rn, h1, h2, h3.setUses e⟩
  | _ => trivial

theorem NamedBy.newUnit (c : DS) (h : NamedBy u rank a b c) (i : Ident) : NamedBy u rank a b (c.newUnit i) := by
  obtain ⟨nm, rn, h1, h2, h3⟩ := h
  exact ⟨nm, rn, h1, h2, h3.same rfl rfl rfl rfl⟩

theorem NamedBy.stackAt (cu : Nat) (c : DS) (h : NamedBy u rank a b c) : NamedBy u rank a b (c.stackAt cu) := by
  obtain ⟨nm, rn, h1, h2, h3⟩ := h
  exact ⟨nm, rn, h1, h2, h3.stackAt cu⟩

theorem Named.by (h : Named u rank nm rn k) : NamedBy u rank nm rn k := ⟨nm, rn, List.prefix_rfl, List.prefix_rfl, h⟩

/-! ## The interface of a unit -/

/-- the numbers of the types in the declaration are those of types with these names -/
def IntfNamed (u : Uni) (nm : List Str) : IntfDecl (Decl Node) → Prop
  | .type first ds => ∀ j d, ds[j]? = some d → nm[first + j]? = some (u.toLower d.ident.name)
  | _ => True

theorem IntfNamed.mono {nm nm' : List Str} (h : nm <+: nm') {d : IntfDecl (Decl Node)} (hd : IntfNamed u nm d) : IntfNamed u nm' d := by
  cases d with
  | type first ds => exact fun j d e => getElem?_pre h (hd j d e)
  | _ => trivial

theorem Named.finishIntf (h : Named u rank nm rn k) {unit : Nat} {ds : List (IntfDecl (Decl Node))} (hd : ∀ d ∈ ds, IntfNamed u nm d) :
    Named u rank nm rn (k.finishIntf u unit ds) := by
  have key : ∀ p ∈ objTbl (.impl (World.intfTable u (ds.flatMap DS.declNodes) [])), NameOf nm p.1 p.2.node := by
    intro p hp
    rcases intfTable_mem u _ [] p hp with hp | ⟨hp, hk⟩
    · cases hp
    · intro i hi
      obtain ⟨l, hl, hpl⟩ := List.mem_flatten.1 hp
      obtain ⟨x, hx, hx'⟩ := List.mem_flatMap.1 hl
      rw [hk]
      cases x with
      | const ds =>
        obtain ⟨a, -, rfl⟩ := List.mem_map.1 hx'
        rw [List.mem_singleton.1 hpl] at hi; cases hi
      | type first ds =>
        obtain ⟨⟨d, j⟩, hj, rfl⟩ := List.mem_map.1 hx'
        rw [List.mem_singleton.1 hpl] at hi ⊢
        cases hi
        exact hd _ hx j d (List.mem_zipIdx_iff_getElem?.1 hj)
      | var ds =>
        obtain ⟨a, -, rfl⟩ := List.mem_map.1 hx'
        obtain ⟨b, -, hb⟩ := List.mem_map.1 hpl
        rw [← hb] at hi; cases hi
      | threadVar ds =>
        obtain ⟨a, -, rfl⟩ := List.mem_map.1 hx'
        obtain ⟨b, -, hb⟩ := List.mem_map.1 hpl
        rw [← hb] at hi; cases hi
      | heading hd o =>
        rw [List.mem_singleton.1 hx'] at hpl
        rw [List.mem_singleton.1 hpl] at hi; cases hi
  exact (h.newMap key).setUnitDm unit (some k.w.maps.length)

variable (u rank) in
/-- the parser works on such tokens, in such a state -/
abbrev NIn (tl : Tail) (nm rn : List Str) (s : PS DS) : Prop := s.tail = tl ∧ Orderly u rank s.ts ∧ Named u rank nm rn s.cx

theorem NIn.in {tl : Tail} {s : PS DS} (h : NIn u rank tl nm rn s) : In' (NamedBy u rank nm rn) (Orderly u rank) tl s :=
  ⟨h.1, h.2.2.by, h.2.1⟩

variable {tl : Tail} (htl : tl ≠ .hang)
include htl

theorem intfTypes_named {n : Nat} {s : PS DS} (hs : NIn u rank tl nm rn s) {t : Token} {ts : List Token} (hts : s.ts = t :: ts)
    (ht : IsKw u r!"TYPE" t) (hf : 20 * ts.length + 11 ≤ n) :
    wp (parseTypeSection u (declEnv u) n) s (fun ds s' => s'.ts.length < s.ts.length ∧ ∃ nm' rn', nm <+: nm' ∧ rn <+: rn' ∧
      NIn u rank tl nm' rn' s' ∧ IntfNamed u nm' (.type s.cx.types.length ds)) True False := by
  obtain ⟨h1, h2, h3⟩ := hs
  have first : SoFar u rank nm rn [] ((declEnv u).openSection s.cx) :=
    ⟨rn, List.prefix_rfl, by
      rw [List.map_nil, List.append_nil]
      exact h3.pending rfl rfl rfl (fun _ h => by cases h)⟩
  have := sectionDecls_sound (namedBase nm rn htl) (soFar_types nm rn) n [] (s := { s with cx := (declEnv u).openSection s.cx })
    ⟨h1, first.by, h2⟩ first hts ht (fun h => by omega)
  unfold wp at this ⊢
  unfold parseTypeSection withSection
  cases e : (do P.next; parseTypeDecls u (declEnv u) n : P DS _) { s with cx := (declEnv u).openSection s.cx } with
  | ok ds s' =>
    rw [e] at this
    obtain ⟨g1, g2, -, rn', g3, g4⟩ := this
    refine ⟨g2, _, rn', List.prefix_append _ _, g3, ⟨g1.tail, g1.good, h3.close g3 g4⟩, ?_⟩
    intro j d hj
    rw [← h3.types, List.getElem?_append_right (by omega)]
    simp [hj]
  | err => trivial
  | panic => trivial
  | wait => rw [e] at this; exact this

omit htl in
/-- a parser that declares no types in the interface -/
theorem intf_of {n r : Nat} {α : Type} {p : P DS α} {G : α → Rd}
    (hp : TSound (NamedBy u rank nm rn) (Orderly u rank) tl True False p G n r) {s : PS DS} (hs : In' (NamedBy u rank nm rn) (Orderly u rank) tl s)
    (hf : 20 * s.ts.length + r ≤ n) : wp p s (fun a s' => s'.ts.length ≤ s.ts.length ∧ G a s.ts s'.ts ∧ ∃ nm' rn', nm <+: nm' ∧ rn <+: rn' ∧
      NIn u rank tl nm' rn' s') True False := by
  refine wp_mono (hp s hs (fun h => by omega)) ?_ id id
  rintro x s' ⟨h1, h2, h3⟩
  obtain ⟨nm', rn', p1, p2, h4⟩ := h1.cx
  exact ⟨h2, h3, nm', rn', p1, p2, h1.tail, h1.good, h4⟩

theorem intfDecl_named {n : Nat} {s : PS DS} (hs : NIn u rank tl nm rn s) {t : Token} {ts : List Token} (hts : s.ts = t :: ts)
    (ht : t.typ = .reserved) (hf : 20 * s.ts.length + 14 ≤ n) :
    wp (parseIntfDecl u n t) s (fun o s' => ∃ nm' rn', nm <+: nm' ∧ rn <+: rn' ∧ NIn u rank tl nm' rn' s' ∧
      match o with
      | none => s'.ts = s.ts
      | some d => s'.ts.length < s.ts.length ∧ IntfNamed u nm' d) True False := by
  have kwOf : ∀ {c : Str}, t.value u = c → IsKw u c t := fun h => ⟨ht, by rw [← h]; unfold Token.value; rw [ht]⟩
  have B := namedBase (u := u) (rank := rank) nm rn htl
  have l0 : s.ts.length = ts.length + 1 := by rw [hts]; rfl
  unfold parseIntfDecl
  refine wp_ite (fun c => ?_) (fun _ => wp_ite (fun c => ?_) (fun _ => wp_ite (fun c => ?_) (fun _ => wp_ite (fun c => ?_)
    (fun _ => wp_ite (fun c => ?_) (fun _ => ⟨nm, rn, List.prefix_rfl, List.prefix_rfl, hs, rfl⟩)))))
  · refine wp_askP ?_
    refine wp_then (intfTypes_named htl hs hts (kwOf c) (by omega)) ?_
    rintro ds s1 ⟨l1, nm', rn', p1, p2, h1, h2⟩
    exact ⟨nm', rn', p1, p2, h1, l1, h2⟩
  · refine B.next hs.in hts fun s1 h1 e1 => ?_
    have l1 : s.ts.length = s1.ts.length + 1 := by rw [hts, e1]; rfl
    refine wp_then (intf_of (varDecls_sound B n) h1 (by omega)) ?_
    rintro ds s2 ⟨l2, -, nm', rn', p1, p2, h2⟩
    exact ⟨nm', rn', p1, p2, h2, by omega, trivial⟩
  · refine B.next hs.in hts fun s1 h1 e1 => ?_
    have l1 : s.ts.length = s1.ts.length + 1 := by rw [hts, e1]; rfl
    refine wp_then (intf_of (threadVarDecls_sound B n) h1 (by omega)) ?_
    rintro ds s2 ⟨l2, -, nm', rn', p1, p2, h2⟩
    exact ⟨nm', rn', p1, p2, h2, by omega, trivial⟩
  · refine B.next hs.in hts fun s1 h1 e1 => ?_
    have l1 : s.ts.length = s1.ts.length + 1 := by rw [hts, e1]; rfl
    refine wp_then (intf_of (constDecls_sound B n) h1 (by omega)) ?_
    rintro ds s2 ⟨l2, -, nm', rn', p1, p2, h2⟩
    exact ⟨nm', rn', p1, p2, h2, by omega, trivial⟩
  · refine wp_then (intf_of (exportedHeading_sound B n) hs.in (by omega)) ?_
    rintro h s1 ⟨-, ⟨-, l1⟩, nm', rn', p1, p2, h2⟩
    exact ⟨nm', rn', p1, p2, h2, l1, trivial⟩

theorem intfDecls_named : ∀ (n : Nat) {nm rn : List Str} {s : PS DS}, NIn u rank tl nm rn s → 20 * s.ts.length + 15 ≤ n →
    wp (parseIntfDecls u n) s (fun ds s' => s'.ts.length ≤ s.ts.length ∧ ∃ nm' rn', nm <+: nm' ∧ rn <+: rn' ∧ NIn u rank tl nm' rn' s' ∧
      ∀ d ∈ ds, IntfNamed u nm' d) True False := by
  intro n
  induction n with
  | zero => intro nm rn s hs hf; exact absurd hf (by omega)
  | succ n ih =>
    intro nm rn s hs hf
    rw [parseIntfDecls]
    refine (namedBase (u := u) (rank := rank) nm rn htl).cur hs.in fun t ht => ?_
    refine wp_ite (fun _ => ⟨Nat.le_refl _, nm, rn, List.prefix_rfl, List.prefix_rfl, hs, fun _ h => by cases h⟩)
      (fun _ => wp_ite (fun _ => trivial) (fun c => ?_))
    have c : t.typ = .reserved := Decidable.not_not.1 c
    obtain ⟨ts, hts⟩ := tok_cons ht (by rw [c]; decide)
    refine wp_then (intfDecl_named htl (n := n) hs hts c (by omega)) ?_
    rintro o s1 ⟨nm1, rn1, p1, q1, h1, g1⟩
    cases o with
    | none => exact ⟨by rw [g1], nm1, rn1, p1, q1, h1, fun _ h => by cases h⟩
    | some d =>
      refine wp_then (ih h1 (by have := g1.1; omega)) ?_
      rintro rest s2 ⟨l2, nm2, rn2, p2, q2, h2, g2⟩
      refine ⟨by have := g1.1; omega, nm2, rn2, p1.trans p2, q1.trans q2, h2, ?_⟩
      intro x hx
      rcases List.mem_cons.1 hx with rfl | hx
      · exact g1.2.mono p2
      · exact g2 x hx

theorem intfBody_named {unit n : Nat} {s : PS DS} (hs : NIn u rank tl nm rn s) (hf : 20 * s.ts.length + 15 ≤ n) :
    wp (parseIntfBody u unit n) s (fun _ s' => s'.ts.length ≤ s.ts.length ∧ ∃ nm' rn', nm <+: nm' ∧ rn <+: rn' ∧ NIn u rank tl nm' rn' s')
      True False := by
  unfold parseIntfBody
  refine wp_then (intfDecls_named htl n hs hf) ?_
  rintro ds s1 ⟨l1, nm', rn', p, q, h1, g1⟩
  exact ⟨l1, nm', rn', p, q, h1.1, h1.2.1, h1.2.2.finishIntf g1⟩

/-- `ParseUnit` returns -/
theorem unit_named {cu n : Nat} {s : PS DS} (hs : NIn u rank tl nm rn s) (hf : 20 * s.ts.length + 17 ≤ n) :
    wp (parseUnit u cu n) s (fun _ _ => True) True False := by
  unfold parseUnit
  refine wp_then (intf_of (identAndUses_sound (namedBase nm rn htl) NamedBy.uses NamedBy.newUnit n) hs.in (by omega)) ?_
  rintro h s1 ⟨l1, -, nm1, rn1, p1, q1, h1⟩
  refine wp_then (intfBody_named htl h1 (n := n) (by omega)) ?_
  rintro ds s2 ⟨l2, nm2, rn2, p2, q2, h2⟩
  refine wp_then (intf_of (implUses_sound (namedBase nm2 rn2 htl) NamedBy.uses (NamedBy.stackAt cu) n) h2.in (by omega)) ?_
  rintro es s3 ⟨l3, -, nm3, rn3, p3, q3, h3⟩
  refine wp_then (intf_of (implAndEnd_sound (namedBase nm3 rn3 htl) n) h3.in (by omega)) ?_
  intros; trivial

omit htl

/-! ## Programs -/

/-- the parser of a unit between its parts -/
structure Tame (u : Uni) (rank : Str → Nat) (n : Nat) (rn : List Str) (l : Loader) : Prop where
  tail : l.tail ≠ .hang
  good : Orderly u rank l.ts
  fuel : 20 * l.ts.length + 17 ≤ n
  pend : ∀ p ∈ l.pending, rn[p.1]? = some (u.toLower p.2)

theorem Tame.mono {n : Nat} {rn rn' : List Str} (h : rn <+: rn') {l : Loader} (hl : Tame u rank n rn l) : Tame u rank n rn' l :=
  ⟨hl.tail, hl.good, hl.fuel, fun p hp => getElem?_pre h (hl.pend p hp)⟩

/-- running the parser of a unit -/
theorem run_named {α : Type} {n : Nat} {l : Loader} {p : P DS α} {s : PS DS} (hs : Named u rank nm rn s.cx) (hl : Tame u rank n rn l)
    (h : wp p ⟨l.ts, l.tail, { s.cx with cur := l.cur, pending := l.pending }⟩ (fun _ s' => s'.ts.length ≤ l.ts.length ∧
      ∃ nm' rn', nm <+: nm' ∧ rn <+: rn' ∧ NIn u rank l.tail nm' rn' s') True False) :
    wp (l.run p) s (fun r s' => Still s s' ∧ r.2.path = l.path ∧ ∃ nm' rn', nm <+: nm' ∧ rn <+: rn' ∧ Named u rank nm' rn' s'.cx ∧
      Tame u rank n rn' r.2) True False := by
  refine wp_run (wp_mono h ?_ id id)
  rintro x s' ⟨l1, nm', rn', p1, q1, h1, h2, h3⟩
  refine ⟨⟨rfl, rfl⟩, rfl, nm', rn', p1, q1, ?_, ⟨by rw [h1]; exact hl.tail, h2, ?_, h3.pend⟩⟩
  · exact h3.switch _ fun p hp => getElem?_pre q1 (hs.pend p hp)
  · have := hl.fuel
    show 20 * s'.ts.length + 17 ≤ n
    omega

theorem intfStep_named {n : Nat} {l : Loader} {s : PS DS} (hs : Named u rank nm rn s.cx) (hl : Tame u rank n rn l) :
    wp (intfStep u n l) s (fun l' s' => Still s s' ∧ ∃ nm' rn', nm <+: nm' ∧ rn <+: rn' ∧ Named u rank nm' rn' s'.cx ∧
      Tame u rank n rn' l') True False := by
  unfold intfStep
  refine wp_then (run_named hs hl ?_) ?_
  · unfold processIntf
    have hs' := hs.switch l.cur hl.pend
    refine wp_stepP (I := Named u rank nm rn) (I' := Named u rank nm rn) (Good := Orderly u rank) (tl := l.tail)
      ⟨rfl, hs', hl.good⟩ ?_ fun s1 h1 e1 => wp_stepR (I' := Named u rank nm rn) h1 ?_ fun s2 h2 e2 => ?_
    · split
      · rename_i e; exact hs'.importUnits e
      · trivial
    · split
      · rename_i e; exact h1.cx.setUnit e
      · trivial
      · trivial
    · rw [e1] at e2
      refine wp_mono (intfBody_named hl.tail ⟨h2.tail, h2.good, h2.cx⟩ (n := n) (by rw [e2]; have := hl.fuel; show 20 * l.ts.length + 15 ≤ n; omega))
        ?_ id id
      rintro ds s3 ⟨l3, h3⟩
      rw [e2] at l3
      exact ⟨l3, h3⟩
  · rintro r s' ⟨g1, -, nm', rn', p1, q1, g2, g3⟩
    exact ⟨g1, nm', rn', p1, q1, g2, g3.tail, g3.good, g3.fuel, g3.pend⟩

theorem implStep_named {n : Nat} {l : Loader} {s : PS DS} (hs : Named u rank nm rn s.cx) (hl : Tame u rank n rn l) :
    wp (implStep u n l) s (fun l' s' => Still s s' ∧ ∃ nm' rn', nm <+: nm' ∧ rn <+: rn' ∧ Named u rank nm' rn' s'.cx ∧
      Tame u rank n rn' l') True False := by
  unfold implStep
  refine wp_then (run_named hs hl ?_) ?_
  · unfold processImpl
    have start : NIn u rank l.tail nm rn ⟨l.ts, l.tail, { s.cx with cur := l.cur, pending := l.pending }⟩ :=
      ⟨rfl, hl.good, hs.switch l.cur hl.pend⟩
    have hf := hl.fuel
    refine wp_then (intf_of (implUses_sound (namedBase nm rn hl.tail) NamedBy.uses (NamedBy.stackAt l.cu) n) start.in
      (by show 20 * l.ts.length + 0 ≤ n; omega)) ?_
    rintro es s1 ⟨l1, -, nm1, rn1, p1, q1, h1⟩
    have l1 : s1.ts.length ≤ l.ts.length := l1
    refine wp_then (Q1 := fun _ s' => s'.ts.length ≤ l.ts.length ∧ ∃ nm' rn', nm <+: nm' ∧ rn <+: rn' ∧ NIn u rank l.tail nm' rn' s')
      (wp_inImpl ?_) (fun _ _ h => h)
    cases e : s1.cx.openImpl u l.cu l.head.no es with
    | none => trivial
    | some r =>
      have h2 : NIn u rank l.tail nm1 rn1 { s1 with cx := r.1 } := ⟨h1.1, h1.2.1, h1.2.2.openImpl e⟩
      refine wp_mono (intf_of (implAndEnd_sound (namedBase nm1 rn1 hl.tail) n) h2.in (by show 20 * s1.ts.length + 17 ≤ n; omega)) ?_ id id
      rintro b s3 ⟨l3, -, nm3, rn3, p3, q3, h3⟩
      exact ⟨Nat.le_trans l3 l1, nm3, rn3, p1.trans p3, q1.trans q3, h3.1, h3.2.1, h3.2.2.setUnitDm _ _⟩
  · rintro r s' ⟨g1, -, nm', rn', p1, q1, g2, g3⟩
    exact ⟨g1, nm', rn', p1, q1, g2, g3.tail, g3.good, g3.fuel, g3.pend⟩

/-- the state between the parsers of the units -/
def Between (u : Uni) (rank : Str → Nat) (n : Nat) (ls : List Loader) (k : DS) : Prop :=
  ∃ nm rn, Named u rank nm rn k ∧ ∀ l ∈ ls, Tame u rank n rn l

theorem Between.step {n : Nat} {ls : List Loader} {rn nm' rn' : List Str} {k' : DS} (h : ∀ l ∈ ls, Tame u rank n rn l)
    (q : rn <+: rn') (h' : Named u rank nm' rn' k') {i : Nat} {l' : Loader} (hl : Tame u rank n rn' l') : Between u rank n (ls.set i l') k' := by
  refine ⟨nm', rn', h', fun l hm => ?_⟩
  rcases List.mem_or_eq_of_mem_set hm with hm | rfl
  · exact (h l hm).mono q
  · exact hl

theorem intfAll_named {n : Nat} : ∀ (is : List Nat) (ls : List Loader) (s : PS DS), Between u rank n ls s.cx →
    wp (intfAll u n is ls) s (fun ls' s' => Still s s' ∧ Between u rank n ls' s'.cx) True False
  | [], ls, s, h => ⟨.refl s, h⟩
  | i :: is, ls, s, h => by
    cases e : ls[i]? with
    | none => rw [intfAll, e]; exact intfAll_named is ls s h
    | some l =>
      rw [intfAll_step e]
      obtain ⟨nm, rn, h1, h2⟩ := h
      refine wp_then (intfStep_named h1 (h2 l (List.mem_of_getElem? e))) ?_
      rintro l' s1 ⟨g1, nm', rn', -, q, g2, g3⟩
      refine wp_mono (intfAll_named is (ls.set i l') s1 (.step h2 q g2 g3)) ?_ id id
      rintro ls' s2 ⟨g4, g5⟩
      exact ⟨g1.trans g4, g5⟩

theorem implAll_named {n : Nat} : ∀ (is : List Nat) (ls : List Loader) (s : PS DS), Between u rank n ls s.cx →
    wp (implAll u n is ls) s (fun ls' s' => Still s s' ∧ Between u rank n ls' s'.cx) True False
  | [], ls, s, h => ⟨.refl s, h⟩
  | i :: is, ls, s, h => by
    cases e : ls[i]? with
    | none => rw [implAll, e]; exact implAll_named is ls s h
    | some l =>
      rw [implAll_step e]
      obtain ⟨nm, rn, h1, h2⟩ := h
      refine wp_then (implStep_named h1 (h2 l (List.mem_of_getElem? e))) ?_
      rintro l' s1 ⟨g1, nm', rn', -, q, g2, g3⟩
      refine wp_mono (implAll_named is (ls.set i l') s1 (.step h2 q g2 g3)) ?_ id id
      rintro ls' s2 ⟨g4, g5⟩
      exact ⟨g1.trans g4, g5⟩

variable {files : Str → FileR} {cp : Nat} {sep : Char} {lib : TopoLib} {it : List UParser → List Str}

theorem newLoaders_named : ∀ (es : List UsesEntry) {s : PS DS}, Named u rank nm rn s.cx →
    wp (newLoaders sep cp es) s (fun cs s' => Still s s' ∧ Named u rank nm rn s'.cx ∧ ∀ x ∈ cs, x.1 ∈ usedFiles sep es) True False
  | [], s, h => ⟨.refl s, h, fun _ h => by cases h⟩
  | e :: es, s, h => by
    unfold newLoaders
    refine wp_ite (fun c => ?_) (fun c => ?_)
    · refine wp_mono (newLoaders_named es h) ?_ id id
      rintro cs s' ⟨h1, h2, h3⟩
      refine ⟨h1, h2, fun x hx => ?_⟩
      have := h3 x hx
      unfold usedFiles at this ⊢
      rw [List.map_cons, List.filter_cons_of_neg (by simpa using c)]
      exact this
    · refine wp_askP ?_
      rw [wp_bind]
      show wp (newLoaders sep cp es >>= _) _ _ _ _
      refine wp_then (newLoaders_named es (s := { s with cx := (s.cx.newUnitContext cp (UsesItem.effectivePath sep e.path)).1 })
        (h.newUnitContext cp _)) ?_
      rintro cs s2 ⟨h1, h2, h3⟩
      refine ⟨⟨h1.1, h1.2⟩, h2, fun x hx => ?_⟩
      unfold usedFiles
      rw [List.map_cons, List.filter_cons_of_pos (by simpa using c)]
      rcases List.mem_cons.1 hx with rfl | hx
      · exact List.mem_cons_self
      · exact List.mem_cons_of_mem _ (h3 x hx)

theorem loadUnit_named {n m : Nat} (hm : 20 * m + 17 ≤ n) {path : Str} {ctx : Nat} {s : PS DS} (hs : Named u rank nm rn s.cx)
    (hf : TameFile u files rank m path) : wp (loadUnit u files n path ctx) s (fun l s' => Still s s' ∧
      ∃ nm' rn', nm <+: nm' ∧ rn <+: rn' ∧ Named u rank nm' rn' s'.cx ∧ Tame u rank n rn' l) True False := by
  unfold loadUnit
  cases e : files path with
  | missing => trivial
  | unreadable => trivial
  | tokens ts tl =>
    obtain ⟨f1, f2, f3, f4⟩ := hf ts tl e
    refine wp_then (run_named (n := n) hs ⟨f1, ⟨f2, f3⟩, by show 20 * ts.length + 17 ≤ n; omega, fun _ h => by cases h⟩ ?_) ?_
    · have start : NIn u rank tl nm rn ⟨ts, tl, { s.cx with cur := ctx, pending := [] }⟩ :=
        ⟨rfl, ⟨f2, f3⟩, hs.switch ctx fun _ h => by cases h⟩
      have B := namedBase (u := u) (rank := rank) nm rn f1
      have body := intf_of (identAndUses_sound B NamedBy.uses NamedBy.newUnit n) start.in (by show 20 * ts.length + 0 ≤ n; omega)
      refine B.cur? start.in ?_ fun t _ => ?_
      all_goals
        refine wp_mono body ?_ id id
        rintro r s' ⟨l1, -, h1⟩
        exact ⟨l1, h1⟩
    · rintro r s' ⟨g1, -, nm', rn', p1, q1, g2, g3⟩
      exact ⟨g1, nm', rn', p1, q1, g2, g3.tail, g3.good, g3.fuel, g3.pend⟩

theorem loadAll_named {n m : Nat} (hm : 20 * m + 17 ≤ n) : ∀ (cs : List (Str × Nat)) {nm rn : List Str} {s : PS DS},
    Named u rank nm rn s.cx → (∀ x ∈ cs, TameFile u files rank m x.1) → wp (loadAll u files cp n cs) s
      (fun ls s' => Still s s' ∧ ∃ nm' rn', rn <+: rn' ∧ Named u rank nm' rn' s'.cx ∧ ∀ l ∈ ls, Tame u rank n rn' l) True False
  | [], nm, rn, s, h, _ => ⟨.refl s, nm, rn, List.prefix_rfl, h, fun _ h => by cases h⟩
  | (path, ctx) :: cs, nm, rn, s, h, hf => by
    unfold loadAll
    refine wp_then (loadUnit_named hm h (hf (path, ctx) List.mem_cons_self)) ?_
    rintro l s1 ⟨g1, nm1, rn1, -, q1, h1, h2⟩
    rw [wp_bind]
    show wp (loadAll u files cp n cs >>= _) _ _ _ _
    refine wp_then (loadAll_named hm cs (s := { s1 with cx := s1.cx.addUnit cp l.head.no }) (h1.same rfl rfl rfl rfl)
      (fun x hx => hf x (List.mem_cons_of_mem _ hx))) ?_
    rintro ls s2 ⟨g3, nm2, rn2, q2, h3, h4⟩
    refine ⟨⟨g3.1.trans g1.1, g3.2.trans g1.2⟩, nm2, rn2, q1.trans q2, h3, fun x hx => ?_⟩
    rcases List.mem_cons.1 hx with rfl | hx
    · exact h2.mono q2
    · exact h4 x hx

theorem enterP_named {i : Ident} {es : List UsesEntry} {hs : List UnitHead} {s : PS DS} (h : Named u rank nm rn s.cx) :
    wp (enterP u cp i es hs) s (fun _ s' => Still s s' ∧ Named u rank nm rn s'.cx) True False := by
  unfold wp enterP
  cases e : s.cx.usesMap u es hs [] with
  | none => trivial
  | some km =>
    obtain ⟨h1, h2⟩ := h.usesMap (fun _ h => by cases h) e
    cases e2 : km.1.enterProgram u cp i hs km.2 with
    | none => simp only [e2]
    | some c => simp only [e2]; exact ⟨⟨rfl, rfl⟩, h1.enterProgram h2 e2⟩

theorem loadUnits_named {n m : Nat} (hm : 20 * m + 17 ≤ n) {i : Ident} {es : List UsesEntry} {s : PS DS} (h : Named u rank nm rn s.cx)
    (hf : ∀ p ∈ usedFiles sep es, TameFile u files rank m p) : wp (loadUnits u sep files lib it cp i es n) s
      (fun _ s' => Still s s' ∧ ∃ nm' rn', Named u rank nm' rn' s'.cx) True False := by
  unfold loadUnits
  refine wp_then (newLoaders_named es h) ?_
  rintro cs s1 ⟨t1, h1, u1⟩
  refine wp_then (loadAll_named hm cs h1 fun x hx => hf _ (u1 x hx)) ?_
  rintro ls s2 ⟨t2, nm2, rn2, -, h2, g2⟩
  cases hsort : UnitParsers.sort u lib (it (uparsers ls)) (uparsers ls) with
  | none => trivial
  | some sorted =>
    show wp (intfAll u n _ _ >>= _) _ _ _ _
    refine wp_then (intfAll_named _ ls s2 ⟨nm2, rn2, h2, g2⟩) ?_
    rintro ls1 s3 ⟨t3, h3⟩
    refine wp_then (implAll_named _ ls1 s3 h3) ?_
    rintro ls2 s4 ⟨t4, nm4, rn4, h4, -⟩
    refine wp_then (enterP_named h4) ?_
    rintro _ s5 ⟨t5, h5⟩
    exact ⟨(((t1.trans t2).trans t3).trans t4).trans t5, nm4, rn4, h5⟩

/-- `ParseProgram` returns -/
theorem program_named {n m : Nat} (hm : 20 * m + 18 ≤ n) {s : PS DS} (h : Named u rank nm rn s.cx) (htl : s.tail ≠ .hang)
    (hg : Orderly u rank s.ts) (hl : s.ts.length ≤ m)
    (hf : ∀ es x y, x <:+ s.ts → (kwR u r!"USES" ▹ gUsesEntries u es) x y → ∀ p ∈ usedFiles sep es, TameFile u files rank m p) :
    wp (parseProgram u sep files lib it cp n) s (fun _ _ => True) True False := by
  have B0 := namedBase (u := u) (rank := rank) nm rn htl
  have B : DBase u (declEnv u) (NamedBy u rank nm rn) (fun x => Orderly u rank x ∧ x <:+ s.ts) s.tail True False := B0.from s.ts
  have hs : In' (NamedBy u rank nm rn) (fun x => Orderly u rank x ∧ x <:+ s.ts) s.tail s := ⟨rfl, h.by, hg, List.suffix_rfl⟩
  unfold parseProgram
  refine B.current hs fun t ht c => ?_
  refine B.nextIs hs (fun t h => by rw [typ_iff.1 h]; decide) fun t0 t1 s1 ts1 c1 h1 e1 e1' => ?_
  refine B.nextIs h1 (fun t h => sym_ne_eof (symbol_iff.1 h)) fun t2 t3 s3 ts3 c3 h3 e3 e3' => ?_
  refine B.next h3 e3' fun s4 h4 e4 => ?_
  have len : ∀ {x : List Token}, x <:+ s.ts → x.length ≤ m := fun hx => Nat.le_trans hx.length_le hl
  refine wp_then (Q1 := fun _ s' => s'.tail = s.tail ∧ Orderly u rank s'.ts ∧ s'.ts <:+ s.ts ∧ ∃ nm' rn', Named u rank nm' rn' s'.cx) ?_ ?_
  · unfold parseProgramUses
    have out : ∀ {s' : PS DS}, In' (NamedBy u rank nm rn) (fun x => Orderly u rank x ∧ x <:+ s.ts) s.tail s' →
        s'.tail = s.tail ∧ Orderly u rank s'.ts ∧ s'.ts <:+ s.ts ∧ ∃ nm' rn', Named u rank nm' rn' s'.cx := by
      intro s' h'
      obtain ⟨nm', rn', -, -, h''⟩ := h'.cx
      exact ⟨h'.tail, h'.good.1, h'.good.2, nm', rn', h''⟩
    refine B.isL h4 notEof_kw (fun _ _ _ _ => ?_) (fun _ _ _ => out h4)
    have := len h4.good.2
    refine (uses_sound B NamedBy.uses n).bind h4 (fun h => by omega) fun es s5 h5 _ ⟨t6, z, e5, hne, g5⟩ => ?_
    refine B.next h5 e5 fun s6 h6 e6 => ?_
    obtain ⟨a1, a2, a3, nm', rn', a4⟩ := out h6
    refine wp_then (loadUnits_named (m := m) (by omega) a4 (hf es _ _ h4.good.2 g5)) ?_
    rintro ls s7 ⟨t7, nm7, rn7, h7⟩
    exact ⟨t7.2.trans a1, by rw [t7.1]; exact a2, by rw [t7.1]; exact a3, nm7, rn7, h7⟩
  rintro us s5 ⟨g1, g2, g3, nm5, rn5, h5⟩
  have B5 := namedBase (u := u) (rank := rank) nm5 rn5 htl
  have := len g3
  refine (allDecls B5 n).block.bind ⟨g1, h5.by, g2⟩ (fun h => by omega) fun b s6 h6 _ g8 => ?_
  exact B5.current h6 fun t7 ht7 c7 => trivial

end TP
