import Verif.Lemmas.DeclSound
import Verif.Spec.Goal

/-!
# Soundness of the parser of units and programs
-/

namespace TP
open Spec

variable {u : Uni} {I I' : DS → Prop} {Good : List Token → Prop} {tl : Tail} {Pp Pw : Prop} {α : Type}
  {Q : α → PS DS → Prop}

theorem wp_stepR {f : DS → SetR DS} {s : PS DS} {g : Unit → P DS α} (hs : In' I Good tl s)
    (hf : match f s.cx with
      | .ok c => I' c
      | .err => True
      | .panic => Pp)
    (h : ∀ s', In' I' Good tl s' → s'.ts = s.ts → wp (g ()) s' Q Pp Pw) : wp (stepR f >>= g) s Q Pp Pw := by
  rw [wp_bind]
  unfold wp stepR
  cases e : f s.cx with
  | ok c => rw [e] at hf; exact h _ ⟨hs.tail, hf, hs.good⟩ rfl
  | err => trivial
  | panic => rw [e] at hf; exact hf

theorem wp_stepP {f : DS → Option DS} {s : PS DS} {g : Unit → P DS α} (hs : In' I Good tl s)
    (hf : match f s.cx with
      | some c => I' c
      | none => Pp)
    (h : ∀ s', In' I' Good tl s' → s'.ts = s.ts → wp (g ()) s' Q Pp Pw) : wp (stepP f >>= g) s Q Pp Pw := by
  rw [wp_bind]
  unfold wp stepP
  cases e : f s.cx with
  | some c => rw [e] at hf; exact h _ ⟨hs.tail, hf, hs.good⟩ rfl
  | none => rw [e] at hf; exact hf

theorem wp_askP {β : Type} {f : DS → β} {s : PS DS} {g : β → P DS α} (h : wp (g (f s.cx)) s Q Pp Pw) :
    wp (askP f >>= g) s Q Pp Pw := h

/-! ## Uses clauses -/

variable (u) in
/-- the items up to and including the semicolon -/
def gUsesPairs : List (Ident × Option Str) → Rd
  | [] => fun _ _ => False
  | e :: rest => (tk u (.ident e.1) ▹ (match e.2 with
    | none => eps
    | some p => kwR u r!"IN" ▹ gStr u p)) ▹ (given (rest = []) (symR u r!";") ∣∣ symR u r!"," ▹ gUsesPairs rest)

theorem gUsesEntries_of : ∀ {es : List UsesEntry} {x y : List Token}, gUsesPairs u (es.map fun e => (e.ident, e.path)) x y →
    gUsesEntries u es x y
  | [], _, _, h => h
  | e :: es, x, y, h => by
    obtain ⟨z, h1, h2⟩ := h
    refine ⟨z, h1, ?_⟩
    rcases h2 with ⟨e1, h2⟩ | ⟨z2, h2, h3⟩
    · exact .inl ⟨by simpa using e1, h2⟩
    · exact .inr ⟨z2, h2, gUsesEntries_of h3⟩

section
variable (B : DBase u (declEnv u) I Good tl Pp Pw)
include B

theorem usesItem_sound (n : Nat) : TSound I Good tl Pp Pw (parseUsesItem u) (fun e => tk u (.ident e.1) ▹ (match e.2 with
    | none => eps
    | some p => kwR u r!"IN" ▹ gStr u p)) n 0 := by
  intro s hs hf
  unfold parseUsesItem
  refine B.eatIdent hs fun t s1 c h1 e1 => ?_
  have l1 : s.ts.length = s1.ts.length + 1 := by rw [e1]; rfl
  refine B.opt h1 notEof_kw (fun t2 s2 c2 h2 e2 => ?_) (fun _ _ _ => ⟨h1, by omega, s1.ts, ⟨t, e1, c, rfl⟩, rfl⟩)
  have l2 : s1.ts.length = s2.ts.length + 1 := by rw [e2]; rfl
  refine (stringFactor_sound B n).bind h2 (fun h => hf (by omega)) fun v s3 h3 l3 g3 => ?_
  exact ⟨h3, by omega, s1.ts, ⟨t, e1, c, rfl⟩, s2.ts, ⟨t2, e2, kw_iff.1 c2⟩, g3⟩

/-- the items end in front of the semicolon -/
theorem usesItems_sound : ∀ n, TSound I Good tl Pp Pw (parseUsesItems u n)
    (fun is x y => ∃ t z, y = t :: z ∧ gUsesPairs u is x z) n 1 := by
  intro n
  induction n with
  | zero => intro s hs hf; exact hf (by omega)
  | succ n ih =>
    intro s hs hf
    rw [parseUsesItems]
    refine (usesItem_sound B n).bind hs (fun h => hf (by omega)) fun i s1 h1 l1 g1 => ?_
    refine B.cur? h1 trivial fun t ht => ?_
    refine wp_ite (fun c => ?_) (fun _ => wp_ite (fun c => ?_) (fun _ => trivial))
    · obtain ⟨ts, hts⟩ := tok_cons' notEof_sym ht c
      exact ⟨h1, l1, t, ts, hts, s1.ts, g1, .inl ⟨rfl, t, hts, symbol_iff.1 c⟩⟩
    · obtain ⟨ts, hts⟩ := tok_cons' notEof_sym ht c
      refine B.next h1 hts fun s2 h2 e2 => ?_
      have l2 : s1.ts.length = s2.ts.length + 1 := by rw [hts, e2]; rfl
      refine ih.bind h2 (fun h => hf (by omega)) fun rest s3 h3 l3 ⟨t', z, e3, g3⟩ => ?_
      exact ⟨h3, by omega, t', z, e3, s1.ts, g1, .inr ⟨s2.ts, ⟨t, by rw [hts, e2], symbol_iff.1 c⟩, g3⟩⟩

variable (hu : ∀ c, I c → ∀ i, match c.setUses u i with
    | .ok c' => I c'
    | .err => True
    | .panic => Pp)
include hu

omit B in
theorem declareUses_wp : ∀ (is : List (Ident × Option Str)) {s : PS DS}, In' I Good tl s → wp (declareUses u is) s
    (fun es s' => In' I Good tl s' ∧ s'.ts = s.ts ∧ es.map (fun e => (e.ident, e.path)) = is) Pp Pw
  | [], s, hs => ⟨hs, rfl, rfl⟩
  | (i, p) :: is, s, hs => by
    unfold declareUses
    refine wp_askP ?_
    refine wp_stepR hs (hu s.cx hs.cx i) fun s1 h1 e1 => ?_
    refine wp_then (declareUses_wp is h1) ?_
    rintro es s2 ⟨h2, e2, g2⟩
    exact ⟨h2, e2.trans e1, by rw [List.map_cons, g2]⟩

/-- the clause ends in front of the semicolon -/
theorem uses_sound (n : Nat) : TSound I Good tl Pp Pw (parseUses u n)
    (fun es x y => ∃ t z, y = t :: z ∧ es ≠ [] ∧ (kwR u r!"USES" ▹ gUsesEntries u es) x z) n 0 := by
  intro s hs hf
  unfold parseUses
  refine B.eatKw hs fun t s1 c h1 e1 => ?_
  have l1 : s.ts.length = s1.ts.length + 1 := by rw [e1]; rfl
  refine (usesItems_sound B n).bind h1 (fun h => hf (by omega)) fun is s2 h2 l2 ⟨t', z, e2, g2⟩ => ?_
  refine wp_mono (declareUses_wp hu is h2) ?_ id id
  rintro es s3 ⟨h3, e3, g3⟩
  refine ⟨h3, by rw [e3]; omega, t', z, e3.trans e2, ?_, s1.ts, ⟨t, e1, c⟩, gUsesEntries_of (by rw [g3]; exact g2)⟩
  rintro rfl
  subst g3
  exact g2

theorem optUses_sound (n : Nat) : TSound I Good tl Pp Pw (parseOptUses u n) (gOptUses u) n 0 := by
  intro s hs hf
  unfold parseOptUses
  refine B.isL hs notEof_kw (fun _ _ _ _ => ?_) (fun _ _ _ => ⟨hs, Nat.le_refl _, rfl⟩)
  refine (uses_sound B hu n).bind hs hf fun es s1 h1 l1 ⟨t, z, e1, hne, g1⟩ => ?_
  refine B.next h1 e1 fun s2 h2 e2 => ?_
  refine ⟨h2, by rw [e2]; rw [e1] at l1; simp at l1; omega, ?_⟩
  cases es with
  | nil => exact absurd rfl hne
  | cons e es => rw [e2]; exact g1

end

/-! ## Units -/

section
variable (B : DBase u (declEnv u) I Good tl Pp Pw)
include B

/-- the head of a unit; without the semicolon there is none behind the name -/
theorem unitIdent_sound (hn : ∀ c, I c → ∀ i, I (c.newUnit i)) (n : Nat) : TSound I Good tl Pp Pw (parseUnitIdent u)
    (fun h x y => ∃ z, gUnitName u h.1 x z ∧ if h.2 then symR u r!";" z y else z = y ∧ ∀ t, y.head? = some t → ¬ IsSym r!";" t)
    n 0 := by
  intro s hs hf
  unfold parseUnitIdent
  refine B.current hs fun t ht c => ?_
  obtain ⟨ts, hts⟩ := tok_cons' notEof_kw ht c
  refine B.nextIs hs (fun t h => by rw [typ_iff.1 h]; decide) fun t0 t1 s1 ts1 c1 h1 e1 e1' => ?_
  have : t0 = t := by rw [hts] at e1; cases e1; rfl
  subst this
  have l1 : s.ts.length = s1.ts.length + 1 := by rw [e1]; rfl
  refine wp_askP ?_
  refine wp_stepR (I' := I) h1 (hn _ h1.cx _) fun s2 h2 e2 => ?_
  refine B.next h2 (e2.trans e1') fun s3 h3 e3 => ?_
  have l3 : s1.ts.length = s3.ts.length + 1 := by rw [e1', e3]; rfl
  refine wp_then (Q1 := fun p s' => In' I Good tl s' ∧ s'.ts.length ≤ s3.ts.length ∧ gOptPort u p s3.ts s'.ts) ?_ ?_
  · refine B.cur h3 fun t4 ht4 => ?_
    refine wp_ite (fun c4 => ?_) (fun _ => ⟨h3, Nat.le_refl _, rfl⟩)
    have c4 := directive_iff.1 c4
    obtain ⟨ts4, hts4⟩ := tok_cons_raw ht4 (wordOf_raw (by decide) c4)
    refine B.next h3 hts4 fun s4 h4 e4 => ?_
    exact ⟨h4, by rw [hts4, e4]; simp, t4, by rw [hts4, e4], c4, rfl⟩
  rintro pd s4 ⟨h4, l4, g4⟩
  have key : gUnitName u ⟨Ident.ofTok t1, pd, s1.cx.w.units.length⟩ s.ts s4.ts :=
    ⟨s1.ts, ⟨t0, e1, kw_iff.1 c⟩, s3.ts, ⟨t1, by rw [e1', e3], typ_iff.1 c1, rfl⟩, g4⟩
  refine B.opt h4 notEof_sym (fun t5 s5 c5 h5 e5 => ?_) (fun t5 ht5 c5 => ?_)
  · have l5 : s4.ts.length = s5.ts.length + 1 := by rw [e5]; rfl
    exact ⟨h5, by omega, s4.ts, key, t5, e5, symbol_iff.1 c5⟩
  · refine ⟨h4, by omega, s4.ts, key, ?_⟩
    show s4.ts = s4.ts ∧ _
    refine ⟨rfl, fun t' h => ?_⟩
    cases hs' : s4.ts with
    | nil => rw [hs'] at h; cases h
    | cons a l =>
      rw [hs'] at h; cases h
      have := tok_of_cons hs'
      rw [ht5] at this; cases this
      exact fun h => c5 (symbol_iff.2 h)

theorem intfDecl_sound (n : Nat) {s : PS DS} (hs : In' I Good tl s) (hf : n < 20 * s.ts.length + 14 → Pw) {t : Token}
    {ts : List Token} (hts : s.ts = t :: ts) (ht : t.typ = .reserved) :
    wp (parseIntfDecl u n t) s (fun o s' => In' I Good tl s' ∧ s'.ts.length ≤ s.ts.length ∧ match o with
      | none => s.ts = s'.ts
      | some d => gIntfDecl u d s.ts s'.ts ∧ s'.ts.length < s.ts.length) Pp Pw := by
  have kwOf : ∀ {c : Str}, t.value u = c → IsKw u c t := fun h => ⟨ht, by rw [← h]; unfold Token.value; rw [ht]⟩
  unfold parseIntfDecl
  refine wp_ite (fun c => ?_) (fun _ => wp_ite (fun c => ?_) (fun _ => wp_ite (fun c => ?_) (fun _ => wp_ite (fun c => ?_)
    (fun _ => wp_ite (fun c => ?_) (fun _ => ⟨hs, Nat.le_refl _, rfl⟩)))))
  · refine wp_askP ?_
    have l0 : s.ts.length = ts.length + 1 := by rw [hts]; rfl
    refine wp_then (typeSection_sound B n hs hts (kwOf c) (fun h => hf (by omega))) fun ds s1 ⟨h1, l1, g1⟩ => ?_
    exact ⟨h1, Nat.le_of_lt l1, ⟨ts, ⟨t, hts, kwOf c⟩, g1⟩, l1⟩
  · refine B.next hs hts fun s1 h1 e1 => ?_
    have l1 : s.ts.length = s1.ts.length + 1 := by rw [hts, e1]; rfl
    refine (varDecls_sound B n).bind h1 (fun h => hf (by omega)) fun ds s2 h2 l2 g2 => ?_
    exact ⟨h2, by omega, ⟨s1.ts, ⟨t, by rw [hts, e1], kwOf c⟩, g2⟩, by omega⟩
  · refine B.next hs hts fun s1 h1 e1 => ?_
    have l1 : s.ts.length = s1.ts.length + 1 := by rw [hts, e1]; rfl
    refine (threadVarDecls_sound B n).bind h1 (fun h => hf (by omega)) fun ds s2 h2 l2 g2 => ?_
    exact ⟨h2, by omega, ⟨s1.ts, ⟨t, by rw [hts, e1], kwOf c⟩, g2⟩, by omega⟩
  · refine B.next hs hts fun s1 h1 e1 => ?_
    have l1 : s.ts.length = s1.ts.length + 1 := by rw [hts, e1]; rfl
    refine (constDecls_sound B n).bind h1 (fun h => hf (by omega)) fun ds s2 h2 l2 g2 => ?_
    exact ⟨h2, by omega, ⟨s1.ts, ⟨t, by rw [hts, e1], kwOf c⟩, g2⟩, by omega⟩
  · refine (exportedHeading_sound B n).bind hs hf fun h s1 h1 l1 ⟨g1, l1'⟩ => ?_
    exact ⟨h1, l1, g1, l1'⟩

theorem intfDecls_sound : ∀ n, TSound I Good tl Pp Pw (parseIntfDecls u n) (gIntfDecls u) n 15 := by
  intro n
  induction n with
  | zero => intro s hs hf; exact hf (by omega)
  | succ n ih =>
    intro s hs hf
    rw [parseIntfDecls]
    refine B.cur hs fun t ht => ?_
    refine wp_ite (fun _ => ⟨hs, Nat.le_refl _, rfl⟩) (fun _ => wp_ite (fun _ => trivial) (fun c => ?_))
    have c : t.typ = .reserved := Decidable.not_not.1 c
    obtain ⟨ts, hts⟩ := tok_cons ht (by rw [c]; decide)
    refine wp_then (intfDecl_sound B n hs (fun h => hf (by omega)) hts c) ?_
    rintro o s1 ⟨h1, l1, g1⟩
    cases o with
    | none => exact ⟨h1, l1, g1⟩
    | some d =>
      refine ih.bind h1 (fun h => hf (by have := g1.2; omega)) fun rest s2 h2 l2 g2 => ?_
      exact ⟨h2, by omega, s1.ts, g1.1, g2⟩

theorem intfBody_sound {unit n : Nat} (hfin : ∀ c, I c → ∀ ds, I' (c.finishIntf u unit ds)) {s : PS DS}
    (hs : In' I Good tl s) (hf : n < 20 * s.ts.length + 15 → Pw) : wp (parseIntfBody u unit n) s
      (fun ds s' => In' I' Good tl s' ∧ s'.ts.length ≤ s.ts.length ∧ gIntfDecls u ds s.ts s'.ts) Pp Pw := by
  unfold parseIntfBody
  refine (intfDecls_sound B n).bind hs hf fun ds s1 h1 l1 g1 => ?_
  refine wp_stepR h1 (hfin _ h1.cx ds) fun s2 h2 e2 => ?_
  exact ⟨h2, by rw [e2]; exact l1, by rw [e2]; exact g1⟩

theorem implBody_sound (n : Nat) : TSound I Good tl Pp Pw (parseImplBody u n)
    (fun b => gDeclSects u ((declEnv u).senv u) b.1 ▹ gExports u b.2 ▹ optSemiR u) n 17 := by
  intro s hs hf
  unfold parseImplBody
  refine (allDecls B n).sects.bind hs hf fun ds s1 h1 l1 g1 => ?_
  refine (exports_sound B n).bind h1 (fun h => hf (by omega)) fun ex s2 h2 l2 g2 => ?_
  refine (optSemi_sound B n).bind h2 (fun h => hf (by omega)) fun _ s3 h3 l3 g3 => ?_
  exact ⟨h3, by omega, s1.ts, g1, s2.ts, g2, g3⟩

omit B in
theorem stmts_of {p : P DS (Stmts (Decl Node) (PType (Decl Node)))} {F : Stmts (Decl Node) (PType (Decl Node)) → PS DS → Prop} {n : Nat}
    (hp : SSound (fun _ c => I c) Good tl Pp Pw p
      (DStmts u ((declEnv u).senv u) False fun _ ty used _ => typeTokens u ty used) F n 10) :
    TSound I Good tl Pp Pw p (gStmts u) n 10 := by
  intro s hs hf
  refine wp_mono (hp s s.cx hs.at (fun h => hf (by omega))) ?_ id id
  rintro b s' ⟨used, k', h1, h2, h3, -⟩
  exact ⟨⟨h2.tail, h2.cx, h2.good⟩, by have := h1.len; omega, used, s.cx, k', h1.ts, h3⟩

theorem init_sound (n : Nat) : TSound I Good tl Pp Pw (parseInit u n) (gInitSection u) n 0 := by
  intro s hs hf
  unfold parseInit
  refine B.eatKw hs fun t s1 c h1 e1 => ?_
  have l1 : s.ts.length = s1.ts.length + 1 := by rw [e1]; rfl
  refine (stmts_of ((stmt_sound B.s n).stmts _ ?_)).bind h1 (fun h => hf (by omega)) fun l s2 h2 l2 g2 => ?_
  · intro t h
    obtain ⟨p, hp, hpt⟩ := some_iff.1 h
    simp only [List.mem_cons, List.not_mem_nil, or_false] at hp
    rcases hp with rfl | rfl <;> exact kw_not_semi _ t hpt
  refine B.opt h2 notEof_kw (fun t3 s3 c3 h3 e3 => ?_) (fun _ _ _ => ⟨h2, by omega, s1.ts, ⟨t, e1, c⟩, s2.ts, g2, rfl⟩)
  have l3 : s2.ts.length = s3.ts.length + 1 := by rw [e3]; rfl
  refine (stmts_of ((stmt_sound B.s n).stmts _ (kw_not_semi _))).bind h3 (fun h => hf (by omega)) fun l' s4 h4 l4 g4 => ?_
  exact ⟨h4, by omega, s1.ts, ⟨t, e1, c⟩, s2.ts, g2, s3.ts, ⟨t3, e3, kw_iff.1 c3⟩, g4⟩

theorem unitEnd_sound (n : Nat) : TSound I Good tl Pp Pw (parseUnitEnd u n)
    (fun i => (match i with
      | none => eps
      | some i => gInitSection u i) ▹ kwR u r!"END" ▹ look (IsSym r!".")) n 0 := by
  intro s hs hf
  unfold parseUnitEnd
  refine wp_then (Q1 := fun i s' => In' I Good tl s' ∧ s'.ts.length ≤ s.ts.length ∧ (match i with
      | none => eps
      | some i => gInitSection u i) s.ts s'.ts) ?_ ?_
  · refine B.isL hs notEof_kw (fun _ _ _ _ => ?_) (fun _ _ _ => ⟨hs, Nat.le_refl _, rfl⟩)
    exact (init_sound B n).bind hs hf fun i s1 h1 l1 g1 => ⟨h1, l1, g1⟩
  rintro i s1 ⟨h1, l1, g1⟩
  refine B.current h1 fun t ht c => ?_
  obtain ⟨ts, hts⟩ := tok_cons' notEof_kw ht c
  refine B.nextIs h1 (fun t h => sym_ne_eof (symbol_iff.1 h)) fun t0 t2 s2 ts2 c2 h2 e2 e2' => ?_
  have : t0 = t := by rw [hts] at e2; cases e2; rfl
  subst this
  exact ⟨h2, by rw [e2] at l1; simp at l1; omega, s1.ts, g1, s2.ts, ⟨t0, e2, kw_iff.1 c⟩, rfl, t2, ts2, e2', symbol_iff.1 c2⟩

theorem implAndEnd_sound (n : Nat) : TSound I Good tl Pp Pw (parseImplAndEnd u n) (gUnitBody u) n 17 := by
  intro s hs hf
  unfold parseImplAndEnd
  refine (implBody_sound B n).bind hs hf fun b s1 h1 l1 ⟨x, ga, y, gb, gc⟩ => ?_
  refine (unitEnd_sound B n).bind h1 (fun h => hf (by omega)) fun i s2 h2 l2 g2 => ?_
  obtain ⟨z, gd, ge⟩ := g2
  exact ⟨h2, by omega, x, ga, y, gb, s1.ts, gc, z, gd, ge⟩

variable (hu : ∀ c, I c → ∀ i, match c.setUses u i with
    | .ok c' => I c'
    | .err => True
    | .panic => Pp)
include hu

theorem intfUses_sound (n : Nat) : TSound I Good tl Pp Pw (parseIntfUses u n) (fun es => kwR u r!"INTERFACE" ▹ gOptUses u es) n 0 := by
  intro s hs hf
  unfold parseIntfUses
  refine B.eatKw hs fun t s1 c h1 e1 => ?_
  have l1 : s.ts.length = s1.ts.length + 1 := by rw [e1]; rfl
  refine wp_mono (optUses_sound B hu n s1 h1 (fun h => hf (by omega))) ?_ id id
  rintro es s2 ⟨h2, l2, g2⟩
  exact ⟨h2, by omega, s1.ts, ⟨t, e1, c⟩, g2⟩

variable (u) in
/-- the head of a unit and the uses clause of its interface -/
def gHeadUses (h : (UnitHead × Bool) × List UsesEntry) : Rd := fun x y => ∃ z z', gUnitName u h.1.1 x z ∧
  (if h.1.2 then symR u r!";" z z' else z = z' ∧ ∀ t, z'.head? = some t → ¬ IsSym r!";" t) ∧
  (kwR u r!"INTERFACE" ▹ gOptUses u h.2) z' y

theorem identAndUses_sound (hn : ∀ c, I c → ∀ i, I (c.newUnit i)) (n : Nat) :
    TSound I Good tl Pp Pw (parseIdentAndUses u n) (gHeadUses u) n 0 := by
  intro s hs hf
  unfold parseIdentAndUses
  refine (unitIdent_sound B hn n).bind hs hf fun h s1 h1 l1 ⟨z, ga, gb⟩ => ?_
  refine (intfUses_sound B hu n).bind h1 (fun h => hf (by omega)) fun es s2 h2 l2 g2 => ?_
  exact ⟨h2, by omega, z, s1.ts, ga, gb, g2⟩

theorem implUses_sound {cu : Nat} (hst : ∀ c, I c → I (c.stackAt cu)) (n : Nat) : TSound I Good tl Pp Pw (parseImplUses u cu n)
    (fun es => kwR u r!"IMPLEMENTATION" ▹ gOptUses u es) n 0 := by
  intro s hs hf
  unfold parseImplUses
  refine B.eatKw hs fun t s1 c h1 e1 => ?_
  have l1 : s.ts.length = s1.ts.length + 1 := by rw [e1]; rfl
  refine wp_stepR (I' := I) h1 (hst _ h1.cx) fun s2 h2 e2 => ?_
  refine wp_mono (optUses_sound B hu n s2 h2 (fun h => hf (by rw [e2] at h; omega))) ?_ id id
  rintro es s3 ⟨h3, l3, g3⟩
  rw [e2] at l3 g3
  exact ⟨h3, by omega, s1.ts, ⟨t, e1, c⟩, g3⟩

end

/-- `ParseUnit` -/
theorem unit_sound {cu n : Nat} (B : DBase u (declEnv u) I Good tl Pp Pw) (B' : DBase u (declEnv u) I' Good tl Pp Pw)
    (hu : ∀ c, I c → ∀ i, match c.setUses u i with
      | .ok c' => I c'
      | .err => True
      | .panic => Pp)
    (hu' : ∀ c, I' c → ∀ i, match c.setUses u i with
      | .ok c' => I' c'
      | .err => True
      | .panic => Pp)
    (hn : ∀ c, I c → ∀ i, I (c.newUnit i)) (hfin : ∀ c, I c → ∀ unit ds, I' (c.finishIntf u unit ds))
    (hst : ∀ c, I' c → I' (c.stackAt cu)) {s : PS DS} (hs : In' I Good tl s) (hf : n < 20 * s.ts.length + 17 → Pw) :
    wp (parseUnit u cu n) s (fun o s' => In' I' Good tl s' ∧ s'.ts.length ≤ s.ts.length ∧ match o with
      | some t => gUnit u t s.ts s'.ts
      | none => ∃ h z, gUnitName u h s.ts z ∧ kwR u r!"INTERFACE" z z.tail) Pp Pw := by
  unfold parseUnit
  refine (identAndUses_sound B hu hn n).bind hs (fun h => hf (by omega)) fun h s1 h1 l1 ⟨z, z', ga, gb, z2, gc, gd⟩ => ?_
  refine wp_then (intfBody_sound B (hfin · · h.1.1.no) h1 (fun h => hf (by omega))) ?_
  rintro ds s2 ⟨h2, l2, g2⟩
  refine (implUses_sound B' hu' hst n).bind h2 (fun h => hf (by omega)) fun es s3 h3 l3 g3 => ?_
  refine (implAndEnd_sound B' n).bind h3 (fun h => hf (by omega)) fun b s4 h4 l4 g4 => ?_
  refine ⟨h4, by omega, ?_⟩
  by_cases c : h.1.2 = true
  · rw [if_pos c] at gb ⊢
    obtain ⟨z3, ge, gf⟩ := g3
    exact ⟨z, ga, z', gb, z2, gc, s1.ts, gd, s2.ts, g2, z3, ge, s3.ts, gf, g4⟩
  · rw [if_neg c] at gb ⊢
    obtain ⟨rfl, _⟩ := gb
    obtain ⟨t, rfl, ht⟩ := gc
    exact ⟨_, _, ga, t, rfl, ht⟩

end TP
