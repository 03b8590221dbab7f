import Verif.Lemmas.VisitDecl
import Verif.Props.C03
import Verif.Props.C49

/-!
# C52  A walk over the tree of a program shows the names and literals of the source, in order, each once

False: the name of a variant part comes after its type; exports written after the body come before it; a token in front of the
semicolon of a type declaration may not be shown at all; the last name of the type of a property may be shown twice.
-/

namespace TP.Props
open TP Spec Cursor

/-! ## Lemmas -/

mutual
theorem walk_noPanic {σ ε : Type} (f : σ → NodeVal → σ × Option ε) : ∀ (t : Tree NodeVal) (s : σ), t.Clean →
    (walkDown f t s).2 ≠ .panic
  | .node a cs, s, h => by
    rw [Tree.Clean] at h
    rw [walkDown]
    cases f s a with
    | mk s1 o =>
      cases o with
      | some e => simp
      | none => exact walkL_noPanic f cs s1 h
  | .nilptr a, s, h => by rw [Tree.Clean] at h; exact h.elim
theorem walkL_noPanic {σ ε : Type} (f : σ → NodeVal → σ × Option ε) : ∀ (t : Forest NodeVal) (s : σ), t.Clean →
    (walkChildren f t s).2 ≠ .panic
  | .nil, s, h => by simp [walkChildren]
  | .skip ts, s, h => by
    rw [Forest.Clean] at h
    rw [walkChildren]
    exact walkL_noPanic f ts s h
  | .cons t ts, s, h => by
    rw [Forest.Clean] at h
    rw [walkChildren]
    have := walk_noPanic f t s h.1
    cases e : walkDown f t s with
    | mk s1 r =>
      rw [e] at this
      cases r with
      | ok => exact walkL_noPanic f ts s1 h.2
      | err e => simp
      | panic => exact this
end

theorem reads_sub {ok : Token → Prop} {n : Nat} {is : List Item} {ts : List Token} (h : Reads ok n is ts) :
    ∃ sub, sub.Sublist ts ∧ List.Forall₂ Item.Is is sub := by
  induction h with
  | nil => exact ⟨[], .slnil, .nil⟩
  | hit h _ ih => obtain ⟨s, h1, h2⟩ := ih; exact ⟨_, h1.cons_cons _, .cons h h2⟩
  | skip _ _ ih => obtain ⟨s, h1, h2⟩ := ih; exact ⟨_, h1.cons _, h2⟩
  | lose _ ih => obtain ⟨s, h1, h2⟩ := ih; exact ⟨_, h1.cons _, h2⟩

/-- a token as a name -/
def identOf (t : Token) : Ident := ⟨t.raw, t.start, t.stop⟩

theorem names_sub {vs : List NodeVal} {sub : List Token} (h : List.Forall₂ Item.Is (vs.filterMap itemOf) sub) :
    (namesOf vs).Sublist (sub.map identOf) := by
  induction vs generalizing sub with
  | nil => simp [namesOf]
  | cons v vs ih =>
    cases v with
    | ident i => cases h with | cons h h' => cases h; exact (ih h').cons_cons _
    | absolute i => cases h with | cons h h' => cases h; exact (ih h').cons_cons _
    | value v => cases h with | cons h h' => exact (ih h').cons _
    | number v => cases h with | cons h h' => exact (ih h').cons _
    | string v => cases h with | cons h h' => exact (ih h').cons _
    | other v => exact ih h

/-- the tokens of a text follow each other -/
theorem lexFrom_sorted {u : Uni} {order : List (Char × Char)} (ho : IsOrder order) {fuel : Nat} :
    ∀ {n : Nat} {c : Cursor} {ts : List Token} {tl : Tail}, Reachable c → lexFrom u order fuel n c = some (ts, tl) →
      (∀ t ∈ ts, c.pos.index ≤ t.start.index ∧ t.start.index < t.stop.index) ∧
      ts.Pairwise fun t t' => t.stop.index ≤ t'.start.index := by
  intro n
  induction n with
  | zero => intro c ts tl _ h; cases h
  | succ n ih =>
    intro c ts tl hc h
    rw [lexFrom] at h
    cases e : getNext u order ⟨false, false⟩ fuel c with
    | none => rw [e] at h; cases h
    | some r =>
      obtain ⟨c', o⟩ := r
      rw [e] at h
      have hg : Gets u order ⟨false, false⟩ c c' o := ⟨fuel, e⟩
      cases o with
      | none =>
        simp only [Option.some.injEq, Prod.mk.injEq] at h
        obtain ⟨rfl, rfl⟩ := h
        exact ⟨by simp, .nil⟩
      | some t =>
        simp only at h
        split at h
        · simp only [Option.some.injEq, Prod.mk.injEq] at h
          obtain ⟨rfl, rfl⟩ := h
          exact ⟨by simp, .nil⟩
        · rename_i ht
          have h3 := C03_progress u order ho _ c c' hc t hg ht
          obtain ⟨j, k, h4, h5, -⟩ := gets_tok_pos ho hc.wf hg
          have h6 : c.pos.index ≤ t.start.index := by rw [h5, adv_index (by omega)]; omega
          cases e2 : lexFrom u order fuel n c' with
          | none => rw [e2] at h; cases h
          | some r =>
            obtain ⟨ts', tl'⟩ := r
            rw [e2] at h
            simp only [Option.some.injEq, Prod.mk.injEq] at h
            obtain ⟨rfl, rfl⟩ := h
            obtain ⟨i1, i2⟩ := ih (gets_reachable ho hc hg) e2
            rw [← h3.2.1] at i1
            refine ⟨?_, .cons (fun t' ht' => (i1 t' ht').1) i2⟩
            intro t' ht'
            rcases List.mem_cons.mp ht' with rfl | ht'
            · exact ⟨h6, h3.1⟩
            · have := i1 t' ht'
              exact ⟨by omega, this.2⟩

theorem lex_sorted {u : Uni} {text : Str} {n : Nat} {ts : List Token} {tl : Tail} (h : lex u text n = some (ts, tl)) :
    ts.Pairwise fun t t' => t.start.index < t.stop.index ∧ t.stop.index ≤ t'.start.index := by
  obtain ⟨h1, h2⟩ := lexFrom_sorted (List.Perm.refl _) (.new text) h
  exact (List.pairwise_and_iff.mpr ⟨List.Pairwise.imp_of_mem (fun ha _ _ => (h1 _ ha).2) h2, h2⟩)

/-! ## Theorems -/

section
variable (u : Uni) (sep : Char) (files : Str → FileR) (lib : TopoLib) (it : List UParser → List Str)

/-- `WalkDown` never panics on the tree of a program or a unit, whatever the visitor. -/
theorem C52_walk {σ ε : Type} (f : σ → NodeVal → σ × Option ε) (s : σ) (p : ProgramTree (Decl Node)) (d : UnitTree (Decl Node)) :
    (walkDown f (programNode p) s).2 ≠ .panic ∧ (walkDown f (unitNode d) s).2 ≠ .panic :=
  ⟨walk_noPanic f _ s (clean_program p), walk_noPanic f _ s (clean_unit d)⟩

theorem program_reads {ok : Token → Prop} (K : Passes u ok) {A : Prop} (hA : A → ∀ t, ok t) {t : ProgramTree (Decl Node)}
    {ts rest : List Token} (h : gProgram u t ts rest) (r : RegProgram A t) : ∃ used vs, ts = used ++ rest ∧
      Visits (programNode t) vs ∧ Reads ok (typesBlock t.block) (vs.filterMap itemOf) used := by
  have hz : rest ≠ [] := by
    obtain ⟨_, -, _, -, _, -, _, -, _, -, rfl, t, z, e, -⟩ := h
    rw [e]; simp
  obtain ⟨used, e, hr⟩ := (v_program K hA t r).reads h hz
  exact ⟨used, _, e, visits_vals (clean_program t), hr⟩

theorem unit_reads {ok : Token → Prop} (K : Passes u ok) {A : Prop} (hA : A → ∀ t, ok t) {t : UnitTree (Decl Node)}
    {ts rest : List Token} (h : gUsedUnit u t ts rest ∨ gUnit u t ts rest) (r : RegUnit A t) : ∃ used vs, ts = used ++ rest ∧
      Visits (unitNode t) vs ∧ Reads ok (typesUnit t) (vs.filterMap itemOf) used := by
  have hz : rest ≠ [] := by
    have key : ∀ x, gUnitBody u t.body x rest → rest ≠ [] := by
      rintro x ⟨_, -, _, -, _, -, _, -, _, -, rfl, t, z, e, -⟩
      rw [e]; simp
    rcases h with ⟨_, -, _, -, _, -, _, -, _, -, _, -, _, -, h⟩ | ⟨_, -, _, -, _, -, _, -, _, -, _, -, _, -, h⟩
    · exact key _ h
    · exact key _ h
  rcases h with h | h
  · obtain ⟨used, e, hr⟩ := (v_usedUnit K hA t r).reads h hz
    exact ⟨used, _, e, visits_vals (clean_unit t), hr⟩
  · obtain ⟨used, e, hr⟩ := (v_unit K hA t r).reads h hz
    exact ⟨used, _, e, visits_vals (clean_unit t), hr⟩

/-- The names and literals that a walk over the tree of a parsed program shows are tokens of the file in front of the period, in
the order of the file.

What is missing: programs with a named variant part, with exports in a block, with a qualified type of a property with
`IMPLEMENTS`, or with an exception handler that names a unit (`RegProgram True`). -/
theorem C52_order_partial (hlib : TopoCorrect lib) (hit : IterOK u it) (path : Str) (n : Nat) (s' : PS DS)
    (t : ProgramTree (Decl Node)) (h : parseProgramFile u sep files lib it path n = .ok t s') (r : RegProgram True t) :
    ∃ ts tl used vs sub, files path = .tokens ts tl ∧ ts = used ++ s'.ts ∧ Visits (programNode t) vs ∧
      sub.Sublist used ∧ List.Forall₂ Item.Is (vs.filterMap itemOf) sub := by
  obtain ⟨ts, tl, h1, -, h3, -⟩ := program_ok u sep files lib it hlib hit h
  obtain ⟨used, vs, e, h4, h5⟩ := program_reads u (ok := fun _ => True) ⟨fun _ _ => trivial⟩ (fun _ _ => trivial) h3 r
  obtain ⟨sub, h6, h7⟩ := reads_sub h5
  exact ⟨ts, tl, used, vs, sub, h1, e, h4, h6, h7⟩

/-- If the tokens are those of a text, the visitor sees the names from left to right: each one begins where the one before it
has ended, or later.  In particular it sees no name twice.  The same is missing. -/
theorem C52_once_partial (hlib : TopoCorrect lib) (hit : IterOK u it) (path : Str) (n : Nat) (s' : PS DS)
    (t : ProgramTree (Decl Node)) (h : parseProgramFile u sep files lib it path n = .ok t s') (r : RegProgram True t)
    (text : Str) (k : Nat) (ts : List Token) (tl : Tail) (hl : lex u text k = some (ts, tl)) (hf : files path = .tokens ts tl) :
    ∃ vs, Visits (programNode t) vs ∧
      (namesOf vs).Pairwise (fun i j => i.start.index < i.stop.index ∧ i.stop.index ≤ j.start.index) ∧ (namesOf vs).Nodup := by
  obtain ⟨ts', tl', used, vs, sub, h1, e, h4, h6, h7⟩ := C52_order_partial u sep files lib it hlib hit path n s' t h r
  rw [hf] at h1
  injection h1 with h1 _
  subst h1
  have hs : (ts.map identOf).Pairwise fun i j => i.start.index < i.stop.index ∧ i.stop.index ≤ j.start.index :=
    List.pairwise_map.mpr (lex_sorted hl)
  have hn : (namesOf vs).Sublist (ts.map identOf) :=
    (names_sub h7).trans ((h6.trans (by rw [e]; exact List.sublist_append_left _ _)).map _)
  refine ⟨vs, h4, hs.sublist hn, (hs.sublist hn).imp ?_⟩
  rintro a b ⟨h1, h2⟩ rfl
  omega

/-- The names and literals that are shown are all that there are in front of the period, except for at most one token for each
type declaration: every other token that is passed over is neither a name nor a number, or it is a word with a meaning of its own
(`NoName`).

What is missing: as before, and programs with assembler blocks (`RegProgram False`). -/
theorem C52_all_partial (hlib : TopoCorrect lib) (hit : IterOK u it) (path : Str) (n : Nat) (s' : PS DS)
    (t : ProgramTree (Decl Node)) (h : parseProgramFile u sep files lib it path n = .ok t s') (r : RegProgram False t) :
    ∃ ts tl used vs, files path = .tokens ts tl ∧ ts = used ++ s'.ts ∧ Visits (programNode t) vs ∧
      Reads (NoName u) (typesBlock t.block) (vs.filterMap itemOf) used := by
  obtain ⟨ts, tl, h1, -, h3, -⟩ := program_ok u sep files lib it hlib hit h
  obtain ⟨used, vs, e, h4, h5⟩ := program_reads u (ok := NoName u) ⟨fun _ h => h⟩ (fun h => h.elim) h3 r
  exact ⟨ts, tl, used, vs, h1, e, h4, h5⟩

/-- The same for units: the order, and that nothing is left out.  The same is missing, except that the exports of a unit are in
order. -/
theorem C52_unit_partial (cu n : Nat) (s s' : PS DS) (t : UnitTree (Decl Node)) (h : parseUnit u cu n s = .ok (some t) s') :
    ∃ used vs, s.ts = used ++ s'.ts ∧ Visits (unitNode t) vs ∧
      (RegUnit True t → ∃ sub, sub.Sublist used ∧ List.Forall₂ Item.Is (vs.filterMap itemOf) sub) ∧
      (RegUnit False t → Reads (NoName u) (typesUnit t) (vs.filterMap itemOf) used) := by
  obtain ⟨-, ⟨used, e⟩, h1⟩ := C49_unit_partial u cu n s s' t h
  refine ⟨used, _, e.symm, visits_vals (clean_unit t), fun r => ?_, fun r => ?_⟩
  · obtain ⟨used', vs, e', h4, h5⟩ := unit_reads u (ok := fun _ => True) ⟨fun _ _ => trivial⟩ (fun _ _ => trivial) (.inr h1) r
    have e1 : used' = used := List.append_cancel_right (e'.symm.trans e.symm)
    subst e1
    have : vs = (unitNode t).vals := congrArg Prod.fst (h4.symm.trans (visits_vals (clean_unit t)))
    subst this
    exact reads_sub h5
  · obtain ⟨used', vs, e', h4, h5⟩ := unit_reads u (ok := NoName u) ⟨fun _ h => h⟩ (fun h => h.elim) (.inr h1) r
    have e1 : used' = used := List.append_cancel_right (e'.symm.trans e.symm)
    subst e1
    have : vs = (unitNode t).vals := congrArg Prod.fst (h4.symm.trans (visits_vals (clean_unit t)))
    subst this
    exact h5

/-- The units that come with a program are shown in the same way, if they have different names. -/
theorem C52_units_partial (hlib : TopoCorrect lib) (hit : IterOK u it) (path : Str) (n : Nat) (s' : PS DS)
    (t : ProgramTree (Decl Node)) (h : parseProgramFile u sep files lib it path n = .ok t s')
    (hd : DistinctUnits u (t.units.map UnitTree.head)) (d : UnitTree (Decl Node)) (hm : d ∈ t.units) :
    ∃ p ts tl rest vs, files p = .tokens ts tl ∧ Visits (unitNode d) vs ∧
      (RegUnit True d → ∃ used sub, ts = used ++ rest ∧ sub.Sublist used ∧ List.Forall₂ Item.Is (vs.filterMap itemOf) sub) ∧
      (RegUnit False d → ∃ used, ts = used ++ rest ∧ Reads (NoName u) (typesUnit d) (vs.filterMap itemOf) used) := by
  obtain ⟨-, -, -, -, -, -, h5, -⟩ := program_ok u sep files lib it hlib hit h
  have key : ∀ {l : List Str} {ds : List (UnitTree (Decl Node))},
      List.Forall₂ (fun p d => ∃ ts tl rest, files p = .tokens ts tl ∧ gUsedUnit u d ts rest) l ds → d ∈ ds →
      ∃ p ts tl rest, files p = .tokens ts tl ∧ gUsedUnit u d ts rest := by
    intro l ds hf
    induction hf with
    | nil => intro h; cases h
    | @cons p d' l ds h1 _ ih =>
      intro h
      rcases List.mem_cons.mp h with rfl | h
      · exact ⟨p, h1⟩
      · exact ih h
  obtain ⟨p, ts, tl, rest, h1, h2⟩ := key (h5 hd) hm
  refine ⟨p, ts, tl, rest, _, h1, visits_vals (clean_unit d), fun r => ?_, fun r => ?_⟩
  · obtain ⟨used, vs, e, h4, h5⟩ := unit_reads u (ok := fun _ => True) ⟨fun _ _ => trivial⟩ (fun _ _ => trivial) (.inl h2) r
    have : vs = (unitNode d).vals := congrArg Prod.fst (h4.symm.trans (visits_vals (clean_unit d)))
    subst this
    obtain ⟨sub, h6⟩ := reads_sub h5
    exact ⟨used, sub, e, h6⟩
  · obtain ⟨used, vs, e, h4, h5⟩ := unit_reads u (ok := NoName u) ⟨fun _ h => h⟩ (fun h => h.elim) (.inl h2) r
    have : vs = (unitNode d).vals := congrArg Prod.fst (h4.symm.trans (visits_vals (clean_unit d)))
    subst this
    exact ⟨used, e, h5⟩

end

/-! ## Examples -/

/-- the names that a walk shows -/
def namesShown : R (PS DS) (ProgramTree (Decl Node)) → Option (List Str)
  | .ok t _ => some ((namesOf (walkDown recorder (programNode t) []).1).map Ident.name)
  | _ => none

/-- only constants, variables and types that are names, and assignments and calls -/
def simpleProgram (t : ProgramTree (Decl Node)) : Bool :=
  match t.block with
  | .mk ds [] (some (.compound l)) => decls ds && stmts l
  | _ => false
where
  decls : DeclSects (Decl Node) → Bool
    | .nil => true
    | .cons (.const ds) rest => ds.all (·.type.isNone) && decls rest
    | .cons (.type ds) rest => ds.all (isId ·.type) && decls rest
    | .cons (.var ds) rest => ds.all (isId ·.type) && decls rest
    | .cons _ _ => false
  isId : PType (Decl Node) → Bool
    | .id _ => true
    | _ => false
  stmts : Stmts (Decl Node) (PType (Decl Node)) → Bool
    | .one s => stmt s
    | .cons s rest => stmt s && stmts rest
  stmt : Stmt (Decl Node) (PType (Decl Node)) → Bool
    | .mk _ (.assign _ _) => true
    | .mk _ (.callArgs _ _) => true
    | _ => false

theorem simpleProgram_isId {t : PType (Decl Node)} (h : simpleProgram.isId t = true) : RegType t := by
  cases t with
  | id => rw [RegType] <;> simp
  | _ => cases h

theorem simpleProgram_decls : ∀ {ds : DeclSects (Decl Node)}, simpleProgram.decls ds = true → RegDecls False ds
  | .nil, _ => by simp [RegDecls]
  | .cons (.const ds) rest, h => by
    simp only [simpleProgram.decls, Bool.and_eq_true, List.all_eq_true] at h
    rw [RegDecls, RegDecl]
    refine ⟨fun d hd t e => ?_, simpleProgram_decls h.2⟩
    have := h.1 d hd
    rw [e] at this; cases this
  | .cons (.type ds) rest, h => by
    simp only [simpleProgram.decls, Bool.and_eq_true, List.all_eq_true] at h
    rw [RegDecls, RegDecl]
    exact ⟨fun d hd => simpleProgram_isId (h.1 d hd), simpleProgram_decls h.2⟩
  | .cons (.var ds) rest, h => by
    simp only [simpleProgram.decls, Bool.and_eq_true, List.all_eq_true] at h
    rw [RegDecls, RegDecl]
    exact ⟨fun d hd => simpleProgram_isId (h.1 d hd), simpleProgram_decls h.2⟩
  | .cons (.label _) _, h => by cases h
  | .cons (.threadVar _) _, h => by cases h
  | .cons (.func _ _ _) _, h => by cases h

theorem simpleProgram_stmt {s : Stmt (Decl Node) (PType (Decl Node))} (h : simpleProgram.stmt s = true) : RegStmt False s := by
  unfold simpleProgram.stmt at h
  split at h
  · rw [RegStmt, RegBody] <;> simp
  · rw [RegStmt, RegBody] <;> simp
  · cases h

theorem simpleProgram_stmts : ∀ {s : Stmts (Decl Node) (PType (Decl Node))}, simpleProgram.stmts s = true → RegStmts False s
  | .one s, h => by
    rw [RegStmts]
    exact simpleProgram_stmt h
  | .cons s rest, h => by
    simp only [simpleProgram.stmts, Bool.and_eq_true] at h
    rw [RegStmts]
    exact ⟨simpleProgram_stmt h.1, simpleProgram_stmts h.2⟩

theorem simpleProgram_reg {t : ProgramTree (Decl Node)} (h : simpleProgram t = true) : RegProgram False t := by
  unfold simpleProgram at h
  split at h
  · rename_i ds l e
    simp only [Bool.and_eq_true] at h
    rw [RegProgram, e, RegBlock]
    refine ⟨simpleProgram_decls h.1, rfl, ?_⟩
    rintro c ⟨⟩
    rw [RegBody]
    exact simpleProgram_stmts h.2
  · cases h

def exShown : R (PS DS) (ProgramTree (Decl Node)) := exProgram [(r!"p", r!"program P; uses A in 'a'; const k = 2 + A.c; type T = Integer;
  var v, w: T absolute k; begin A.c[v].f := G(w) + 'x'; H(T(v), not [k, 1]); end."),
  (r!"a", r!"unit A; interface const c = 1; implementation end.")]

example : namesShown exShown = some [r!"P", r!"A", r!"k", r!"A", r!"c", r!"T", r!"Integer", r!"v", r!"w", r!"T", r!"k", r!"A",
    r!"c", r!"v", r!"f", r!"G", r!"w", r!"H", r!"T", r!"v", r!"k"] ∧
    ((treeRead exShown).map simpleProgram) = some true := by
  refine ⟨?_, ?_⟩ <;> krfl

/-- The hypotheses of the theorems are met by this program. -/
example : ∃ t s', exShown = .ok t s' ∧ RegProgram False t := by
  have h : ((treeRead exShown).map simpleProgram) = some true := by krfl
  cases e : exShown with
  | ok t s' => rw [e] at h; exact ⟨t, s', rfl, simpleProgram_reg (by simpa [treeRead] using h)⟩
  | _ => rw [e] at h; cases h

/-- The type of a variant part is shown before its name; exports written after the body are shown before it; `Foo` is not shown;
`implements` is shown twice. -/
theorem C52_refuted :
    namesShown (exProgram [(r!"p", r!"program P; type T = record case k: Boolean of 1: (a: Integer); end; begin x := 1; end.")]) =
      some [r!"P", r!"T", r!"Boolean", r!"k", r!"a", r!"Integer", r!"x"] ∧
    namesShown (exProgram [(r!"p", r!"program P; procedure Q; begin x := 1; end; begin y := 1; end exports Q;.")]) =
      some [r!"P", r!"Q", r!"x", r!"Q", r!"y"] ∧
    namesShown (exProgram [(r!"p", r!"program P; type T = Integer Foo; begin y := 1; end.")]) =
      some [r!"P", r!"T", r!"Integer", r!"y"] ∧
    namesShown (exProgram [(r!"p", r!"program P; uses A in 'a'; type T = class x: Integer; property p: A.implements; end;
        begin y := 1; end."), (r!"a", r!"unit A; interface type implements = Integer; implementation end.")]) =
      some [r!"P", r!"A", r!"T", r!"x", r!"Integer", r!"p", r!"A", r!"implements", r!"implements", r!"y"] := by
  refine ⟨?_, ?_, ?_, ?_⟩ <;> krfl

end TP.Props
