import Verif.Lemmas.PlacedGoal
import Verif.Props.C01
import Verif.Props.C03
import Verif.Props.C57

/-!
# C60  Every name in a tree stands in the text, at the place the tree says

`ids` (`Verif/Spec/Idents.lean`) lists the identifiers of a tree: the names of what is declared and the names that refer to
something.
-/

namespace TP.Props
open TP Spec Cursor

/-- The identifier has the text of the token and the places where it begins and ends. -/
def IsNameOf (t : Token) (i : Ident) : Prop := i.name = t.raw ∧ i.start = t.start ∧ i.stop = t.stop

/-- Each identifier is one of a token of the list, or of the token at the end of the text. -/
def NamesFrom (ts : List Token) (tl : Tail) (l : List Ident) : Prop :=
  ∀ i ∈ l, ∃ t, IsNameOf t i ∧ (t ∈ ts ∨ ∃ x p, tl = .eof x p ∧ t = eofTok x p)

/-- Each identifier is one of a token of the list. -/
def NamesIn (ts : List Token) (l : List Ident) : Prop := ∀ i ∈ l, ∃ t ∈ ts, IsNameOf t i

/-- The name is the part of the text between the two places; lines and columns are those of the indices (if the first rune of the text
is a line feed it does not begin a new line, see C01). -/
structure StandsIn (x : Str) (i : Ident) : Prop where
  order : i.start.index ≤ i.stop.index
  ends : i.stop.index ≤ x.length
  name : i.name = (x.drop i.start.index).take (i.stop.index - i.start.index)
  start : i.start = posAt (maskFirst x) i.start.index
  stop : i.stop = posAt (maskFirst x) i.stop.index

/-! ## Lemmas -/

theorem namesFrom {ts : List Token} {tl : Tail} {l : List Ident} (h : AllFrom (InFile ts tl) l) : NamesFrom ts tl l := by
  intro i hi
  obtain ⟨t, h1, rfl⟩ := h i hi
  exact ⟨t, ⟨rfl, rfl, rfl⟩, h1⟩

theorem namesIn {ts : List Token} {tl : Tail} (htl : ∀ x p, tl ≠ .eof x p) {l : List Ident} (h : NamesFrom ts tl l) : NamesIn ts l := by
  intro i hi
  obtain ⟨t, h1, h2 | ⟨x, p, h2, -⟩⟩ := h i hi
  · exact ⟨t, h2, h1⟩
  · exact absurd h2 (htl x p)

theorem stands_tok {u : Uni} {o : List (Char × Char)} (ho : IsOrder o) {fl : Flags} {x : Str} {k : Nat} {c' : Cursor} {t : Token}
    (h : Gets u o fl (adv k (Cursor.new x)) c' (some t)) : StandsIn x ⟨t.raw, t.start, t.stop⟩ ∧ ∃ k', c' = adv k' (Cursor.new x) := by
  obtain ⟨j, l, h1, h2, h3, h4, h5⟩ := gets_tok_pos ho (adv_wf (new_wf x) k) h
  rw [adv_text] at h5
  have h5 : t.text = x := h5
  rw [← adv_add] at h2 h4
  rw [h4] at h3
  rw [C01_cursor_exact] at h2 h3
  have e1 : t.start.index = min (k + j) x.length := by rw [h2]; rfl
  have e2 : t.stop.index = min (k + (j + l)) x.length := by rw [h3]; rfl
  refine ⟨⟨?_, ?_, ?_, ?_, ?_⟩, _, h4⟩
  · show t.start.index ≤ t.stop.index
    omega
  · show t.stop.index ≤ _
    omega
  · show t.raw = _
    unfold Token.raw
    rw [h5, List.drop_take]
  · show t.start = posAt _ t.start.index
    rw [e1, h2]
  · show t.stop = posAt _ t.stop.index
    rw [e2, h3]

theorem reachable_adv : ∀ (k : Nat) {c : Cursor}, Reachable c → Reachable (adv k c)
  | 0, _, h => h
  | k + 1, _, h => by rw [adv_succ]; exact reachable_adv k h.next

theorem stands_run {u : Uni} {o : List (Char × Char)} (ho : IsOrder o) {fl : Flags} {x : Str} {c c' : Cursor} {ts : List Token}
    (h : Run u o fl c ts c') : ∀ k, c = adv k (Cursor.new x) →
      (∀ t ∈ ts, StandsIn x ⟨t.raw, t.start, t.stop⟩ ∧ (t.typ ≠ .eof → t.start.index < t.stop.index)) ∧ ∃ k', c' = adv k' (Cursor.new x) := by
  induction h with
  | nil => exact fun k e => ⟨fun _ h => (nomatch h), k, e⟩
  | cons hg _ ih =>
    rintro k rfl
    obtain ⟨h1, k', rfl⟩ := stands_tok ho hg
    obtain ⟨h2, h3⟩ := ih k' rfl
    refine ⟨fun t ht => ?_, h3⟩
    rcases List.mem_cons.1 ht with rfl | ht
    · exact ⟨h1, fun ht => (C03_progress u o ho _ _ _ (reachable_adv k (.new x)) _ hg ht).1⟩
    · exact h2 t ht

/-- the identifiers of the tokens of a text stand in the text -/
theorem stands_file {u : Uni} {ts : List Token} {tl : Tail} {x : Str} (h : TextOf u (.tokens ts tl) x) {l : List Ident}
    (hl : NamesFrom ts tl l) : ∀ i ∈ l, StandsIn x i := by
  obtain ⟨o, ts', tl', ho, ⟨-, c', hr, ht⟩, e⟩ := h
  cases e
  obtain ⟨h1, k, rfl⟩ := stands_run ho hr 0 rfl
  rintro ⟨n, a, b⟩ hi
  obtain ⟨t, ⟨rfl, rfl, rfl⟩, h2 | ⟨y, p, rfl, rfl⟩⟩ := hl _ hi
  · exact (h1 t h2).1
  · obtain ⟨c2, hg, -⟩ := ht
    exact (stands_tok ho hg).1

theorem proper_file {u : Uni} {ts : List Token} {tl : Tail} {x : Str} (h : TextOf u (.tokens ts tl) x) {l : List Ident}
    (hl : NamesIn ts l) : ∀ i ∈ l, StandsIn x i ∧ i.start.index < i.stop.index := by
  obtain ⟨o, ts', tl', ho, ⟨hn, c', hr, ht⟩, e⟩ := h
  cases e
  obtain ⟨h1, -⟩ := stands_run ho hr 0 rfl
  rintro ⟨n, a, b⟩ hi
  obtain ⟨t, h2, rfl, rfl, rfl⟩ := hl _ hi
  exact ⟨(h1 t h2).1, (h1 t h2).2 (hn t h2)⟩

/-! ## Programs and units -/

section
variable (u : Uni) (sep : Char) (files : Str → FileR) (lib : TopoLib) (it : List UParser → List Str)

/-- Each name in the tree of a program is a token of the file of the program, and each name in the tree of a unit is a token of the file
of the unit: for all files, every library and every order of the map of units.  The units are those of the items of the uses clause
that have a path, in this order. -/
theorem C60_program (path : Str) (n : Nat) (s : PS DS) (t : ProgramTree (Decl Node))
    (h : parseProgramFile u sep files lib it path n = .ok t s) :
    (∃ ts tl, files path = .tokens ts tl ∧ NamesFrom ts tl t.ids) ∧
    List.Forall₂ (fun p (t : UnitTree (Decl Node)) => ∃ ts tl, files p = .tokens ts tl ∧ NamesFrom ts tl t.ids)
      ((t.uses.map fun e => UsesItem.effectivePath sep e.path).filter (· ≠ [])) t.units := by
  unfold parseProgramFile at h
  split at h
  · cases h
  · cases h
  · rename_i ts tl hf
    obtain ⟨h1, h2⟩ := ((PL.cur? u).bind (fun _ _ => PL.parseProgram 0 n) _ _ _ (among_file ts tl) h).1
    exact ⟨⟨ts, tl, hf, namesFrom h1⟩, h2.imp fun p t ⟨ts, tl, h3, h4⟩ => ⟨ts, tl, h3, namesFrom h4⟩⟩

/-- The token at the end of the text is not among them, if the units have different names. -/
theorem C60_inside (hlib : TopoCorrect lib) (hit : IterOK u it) (path : Str) (n : Nat) (s : PS DS) (t : ProgramTree (Decl Node))
    (h : parseProgramFile u sep files lib it path n = .ok t s) (hd : DistinctUnits u (t.units.map UnitTree.head)) :
    (∃ ts tl, files path = .tokens ts tl ∧ NamesIn ts t.ids) ∧
    List.Forall₂ (fun p (t : UnitTree (Decl Node)) => ∃ ts tl, files p = .tokens ts tl ∧ NamesIn ts t.ids)
      ((t.uses.map fun e => UsesItem.effectivePath sep e.path).filter (· ≠ [])) t.units := by
  obtain ⟨k, -, h2, h3⟩ := C57_program u sep files lib it hlib hit path n s t h hd
  let files' : Str → FileR := fun p => match files p with
    | .tokens ts _ => .tokens ts .hang
    | f => f
  have hf : ∀ {p ts tl}, files' p = .tokens ts tl → tl = .hang ∧ ∃ tl', files p = .tokens ts tl' := by
    intro p ts tl e
    cases e' : files p with
    | missing => simp only [files', e'] at e; cases e
    | unreadable => simp only [files', e'] at e; cases e
    | tokens ts' tl' => simp only [files', e'] at e; cases e; exact ⟨rfl, tl', rfl⟩
  have ha : ∀ p, AgreeFile (k p) (files p) (files' p) := by
    intro p
    cases e : files p with
    | missing => exact .inl (by simp only [files', e])
    | unreadable => exact .inl (by simp only [files', e])
    | tokens ts tl =>
      refine .inr ⟨ts, tl, ts, .hang, rfl, by simp only [files', e], ?_, rfl⟩
      by_cases hk : 0 < k p
      · obtain ⟨ts', tl', e', t0, -, h5, -⟩ := h2 p hk
        rw [e] at e'
        cases e'
        have := (List.getElem?_eq_some_iff.1 h5).1
        omega
      · omega
  obtain ⟨s', h'⟩ := h3 files' ha
  obtain ⟨⟨ts, tl, h4, h5⟩, h6⟩ := C60_program u sep files' lib it path n s' t h'
  obtain ⟨rfl, tl', h7⟩ := hf h4
  refine ⟨⟨ts, tl', h7, namesIn (tl := .hang) (fun _ _ h => nomatch h) h5⟩, h6.imp fun p t => ?_⟩
  rintro ⟨ts, tl, h4, h5⟩
  obtain ⟨rfl, tl', h7⟩ := hf h4
  exact ⟨ts, tl', h7, namesIn (tl := .hang) (fun _ _ h => nomatch h) h5⟩

/-- The same for a unit that is parsed on its own, in any context. -/
theorem C60_unit (cu n : Nat) (s s' : PS DS) (t : UnitTree (Decl Node)) (h : parseUnit u cu n s = .ok (some t) s') : NamesIn s.ts t.ids := by
  obtain ⟨k, ⟨t0, -, h5, -⟩, h2⟩ := C57_unit u cu n s s' t h
  have := (List.getElem?_eq_some_iff.1 h5).1
  obtain ⟨s'', h3⟩ := h2 s.ts .hang ⟨by omega, rfl⟩
  exact namesIn (tl := .hang) (fun _ _ h => nomatch h) (namesFrom ((PL.parseUnit cu n _ _ _ (among_file s.ts .hang) h3).1 t rfl))

/-! ## Texts -/

/-- If the file of the program is this text, each name in the tree of the program is the part of the text between its places. -/
theorem C60_text (path : Str) (n : Nat) (s : PS DS) (t : ProgramTree (Decl Node))
    (h : parseProgramFile u sep files lib it path n = .ok t s) (x : Str) (hx : TextOf u (files path) x) : ∀ i ∈ t.ids, StandsIn x i := by
  obtain ⟨⟨ts, tl, h1, h2⟩, -⟩ := C60_program u sep files lib it path n s t h
  exact stands_file (h1 ▸ hx) h2

/-- The same for the units, if their files are these texts. -/
theorem C60_texts (path : Str) (n : Nat) (s : PS DS) (t : ProgramTree (Decl Node))
    (h : parseProgramFile u sep files lib it path n = .ok t s) (xs : Str → Str) (hx : ∀ p, (∃ ts tl, files p = .tokens ts tl) → TextOf u (files p) (xs p)) :
    List.Forall₂ (fun p (t : UnitTree (Decl Node)) => ∀ i ∈ t.ids, StandsIn (xs p) i)
      ((t.uses.map fun e => UsesItem.effectivePath sep e.path).filter (· ≠ [])) t.units := by
  refine (C60_program u sep files lib it path n s t h).2.imp fun p t => ?_
  rintro ⟨ts, tl, h1, h2⟩
  exact stands_file (h1 ▸ hx p ⟨ts, tl, h1⟩) h2

/-- If the units have different names, no name is empty. -/
theorem C60_proper (hlib : TopoCorrect lib) (hit : IterOK u it) (path : Str) (n : Nat) (s : PS DS) (t : ProgramTree (Decl Node))
    (h : parseProgramFile u sep files lib it path n = .ok t s) (hd : DistinctUnits u (t.units.map UnitTree.head))
    (xs : Str → Str) (hx : ∀ p, (∃ ts tl, files p = .tokens ts tl) → TextOf u (files p) (xs p)) :
    (∀ i ∈ t.ids, StandsIn (xs path) i ∧ i.start.index < i.stop.index) ∧
    List.Forall₂ (fun p (t : UnitTree (Decl Node)) => ∀ i ∈ t.ids, StandsIn (xs p) i ∧ i.start.index < i.stop.index)
      ((t.uses.map fun e => UsesItem.effectivePath sep e.path).filter (· ≠ [])) t.units := by
  obtain ⟨⟨ts, tl, h1, h2⟩, h3⟩ := C60_inside u sep files lib it hlib hit path n s t h hd
  refine ⟨proper_file (h1 ▸ hx path ⟨ts, tl, h1⟩) h2, h3.imp fun p t => ?_⟩
  rintro ⟨ts, tl, h1, h2⟩
  exact proper_file (h1 ▸ hx p ⟨ts, tl, h1⟩) h2

/-! ## Parts -/

/-- The same for blocks, types and expressions, in any context. -/
theorem C60_block (n : Nat) (s s' : PS DS) (b : Block (Decl Node)) (h : parseBlock u (declEnv u) n s = .ok b s') :
    NamesFrom s.ts s.tail b.ids := namesFrom (PL.block n s b s' (among_file _ _) h).1

theorem C60_type (n : Nat) (s s' : PS DS) (b : PType (Decl Node)) (h : parseType u (declEnv u) n s = .ok b s') :
    NamesFrom s.ts s.tail b.ids := namesFrom (PL.type n s b s' (among_file _ _) h).1

theorem C60_expr (n : Nat) (s s' : PS DS) (e : Expr (Decl Node)) (h : parseExpr u (declEnv u).toEnv n s = .ok e s') :
    NamesFrom s.ts s.tail e.ids := namesFrom (PL.expr n s e s' (among_file _ _) h).1

end

/-! ## Examples -/

/-- the names of a program and of its units, with the indices, lines and columns where they begin -/
def idsRead : R (PS DS) (ProgramTree (Decl Node)) → Option (List (Str × Nat × Nat × Nat) × List (List (Str × Nat × Nat × Nat)))
  | .ok t _ => some (t.ids.map one, t.units.map fun t => t.ids.map one)
  | _ => none
where one (i : Ident) := (i.name, i.start.index, i.start.line, i.start.col)

example : idsRead (exProgram [(r!"p", r!"program P; uses A in 'a';
label l1; type C = class private f: Integer; end; E = (e1, e2);
var v: C; w: string[5] absolute v;
procedure r(i: Integer); begin v.f[i] := i; end;
begin goto l1; r(e2); end."),
    (r!"a", r!"unit A; interface uses B; type T = Integer; implementation uses D; end.")]) =
    some ([(r!"P", 8, 1, 9), (r!"A", 16, 1, 17), (r!"l1", 32, 2, 7), (r!"C", 41, 2, 16), (r!"f", 59, 2, 34), (r!"Integer",
      62, 2, 37), (r!"E", 76, 2, 51), (r!"e1", 81, 2, 56), (r!"e2", 85, 2, 60), (r!"v", 94, 3, 5), (r!"C", 97, 3, 8),
      (r!"w", 100, 3, 11), (r!"string", 103, 3, 14), (r!"v", 122, 3, 33), (r!"r", 135, 4, 11), (r!"i", 137, 4, 13),
      (r!"Integer", 140, 4, 16), (r!"v", 156, 4, 32), (r!"f", 158, 4, 34), (r!"i", 160, 4, 36), (r!"i", 166, 4, 42),
      (r!"l1", 185, 5, 12), (r!"r", 189, 5, 16), (r!"e2", 191, 5, 18)],
      [[(r!"A", 5, 1, 6), (r!"B", 23, 1, 24), (r!"T", 31, 1, 32), (r!"Integer", 35, 1, 36), (r!"D", 64, 1, 65)]]) := by krfl

/-- a name on the second line, and one that does not stand where it says -/
example : StandsIn r!"ab\n cd" ⟨r!"cd", ⟨2, 2, 4⟩, ⟨2, 4, 6⟩⟩ ∧ ¬ StandsIn r!"ab\n cd" ⟨r!"cd", ⟨2, 1, 3⟩, ⟨2, 4, 6⟩⟩ :=
  ⟨⟨by decide, by decide, by decide, by decide, by decide⟩, fun h => absurd h.name (by decide)⟩

end TP.Props
