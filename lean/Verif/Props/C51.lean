import Verif.Lemmas.AccWhole
import Verif.Props.C33
import Verif.Props.C49

/-!
# C51  Programs of a sublanguage are accepted

The other direction of C47 and C49: a text that is a program is not refused, whatever it declares.
-/

namespace TP.Props
open TP Spec

section
variable (u : Uni)

/-- A block of the grammar `OkBlock` is accepted, up to its last token, and what is returned is the text of the block.
The fuel of the model does not run out when it is large enough, that is to say, parsing terminates.

What is missing: the parts of the language that the grammar does not have (`Verif/Spec/Accept.lean`). -/
theorem C51_block_partial (path : Str) (x rest : List Token) (tl : Tail) (Γ : NameEnv) (h : OkBlock u .empty x Γ)
    (hr : Nxt tl rest fun t => ¬ IsKw u r!"EXPORTS" t) :
    ∃ b s', s'.ts = rest ∧ s'.tail = tl ∧ gBlock u ((declEnv u).senv u) b (x ++ rest) rest ∧
      ∃ N, ∀ n, N ≤ n → parseBlock u (declEnv u) n ⟨x ++ rest, tl, DS.init path⟩ = .ok b s' := by
  obtain ⟨b, s', h1, -, h2, -, -, N, h3⟩ := acc_block (u := u) (tl := tl) h hr ⟨x ++ rest, tl, DS.init path⟩ rfl
    (agrees_init path) rfl
  have := (C47_block_partial u (declEnv u) N _ s' b (h3 N (Nat.le_refl _))).2.2
  rw [h2] at this
  exact ⟨b, s', h2, h1, this, N, h3⟩

variable (sep : Char) (files : Str → FileR) (lib : TopoLib) (it : List UParser → List Str)

/-- `ParseProgram` returns the program when the file begins with a program of the grammar `OkProgram`: there is no
error, no panic and no endless loop.  The period is the current token then, and no unit has been read.  The library that
sorts units and the order in which Go iterates over a map do not matter.

What is missing: the parts of the language that the grammar does not have (`Verif/Spec/Accept.lean`), in particular uses
clauses. -/
theorem C51_program_partial (path : Str) (ts rest : List Token) (tl : Tail) (hf : files path = .tokens (ts ++ rest) tl)
    (h : OkProgram u ts) :
    ∃ t s', t.uses = [] ∧ t.units = [] ∧ (∃ d, s'.ts = d :: rest ∧ IsSym r!"." d) ∧
      ∃ N, ∀ n, N ≤ n → parseProgramFile u sep files lib it path n = .ok t s' := by
  obtain ⟨h1, h2, h3, h4, h5⟩ := h
  rename_i p t s x Γ' d
  have key := acc_program (u := u) (tl := tl) (rest := rest) (sep := sep) (files := files) (lib := lib) (it := it) (cp := 0)
    h1 h2 h3 h4 h5 ⟨p :: t :: s :: (x ++ d :: rest), tl, DS.init path⟩ rfl (agrees_init path) rfl
  obtain ⟨a, s', -, -, h6, -, h7, N, h8⟩ := key
  refine ⟨a, s', h7.1, h7.2.1, ⟨d, h6, h5⟩, N, fun n hn => ?_⟩
  unfold parseProgramFile
  rw [hf]
  simp only [List.cons_append, List.append_assoc, List.nil_append]
  exact h8 n hn

/-- What is returned then is the text of the program.  The same is missing. -/
theorem C51_text_partial (hlib : TopoCorrect lib) (hit : IterOK u it) (path : Str) (ts rest : List Token) (tl : Tail)
    (hf : files path = .tokens (ts ++ rest) tl) (h : OkProgram u ts) :
    ∃ t s', (∃ d, s'.ts = d :: rest ∧ IsSym r!"." d) ∧ gProgram u t (ts ++ rest) s'.ts ∧
      ∃ N, ∀ n, N ≤ n → parseProgramFile u sep files lib it path n = .ok t s' := by
  obtain ⟨t, s', -, -, h1, N, h2⟩ := C51_program_partial u sep files lib it path ts rest tl hf h
  obtain ⟨ts', tl', h3, -, h4, -⟩ := program_ok u sep files lib it hlib hit (h2 N (Nat.le_refl _))
  rw [hf] at h3
  injection h3 with h3 _
  subst h3
  exact ⟨t, s', h1, h4, N, h2⟩

/-- `ParseProgram` also returns the program when it has a uses clause without file names: the used units are not read, their
names are visible in the block, and that of the program.  For every library that sorts correctly and every order in which
Go iterates over a map.

What is missing: the parts of the language that the grammar does not have, in particular uses clauses with file names. -/
theorem C51_uses_partial (hlib : TopoCorrect lib) (hit : IterOK u it) (path : Str) (ts rest : List Token) (tl : Tail)
    (hf : files path = .tokens (ts ++ rest) tl) (h : OkUsing u ts) :
    ∃ t s', t.units = [] ∧ (∃ d, s'.ts = d :: rest ∧ IsSym r!"." d) ∧ gProgram u t (ts ++ rest) s'.ts ∧
      ∃ N, ∀ n, N ≤ n → parseProgramFile u sep files lib it path n = .ok t s' := by
  obtain ⟨h1, h2, h3, h4, h5, h6, h7, h8⟩ := h
  rename_i p t s w x Γ e y Γ' d
  obtain ⟨a, k', -, h9, N, h10⟩ := using_rets (tl := tl) (rest := rest) (sep := sep) (files := files) (lib := lib) (it := it) hlib hit
    h1 h2 h3 h4 h5 h6 h7 h8 (agrees_init path)
  have hrun : ∀ n, N ≤ n → parseProgramFile u sep files lib it path n = .ok a ⟨d :: rest, tl, k'⟩ := by
    intro n hn
    unfold parseProgramFile
    rw [hf]
    simp only [List.cons_append, List.append_assoc, List.nil_append]
    exact h10 n hn
  obtain ⟨ts', tl', h11, -, h12, -⟩ := program_ok u sep files lib it hlib hit (hrun N (Nat.le_refl _))
  rw [hf] at h11
  injection h11 with h11 _
  subst h11
  exact ⟨a, _, h9, ⟨d, rfl, h8⟩, h12, N, hrun⟩

/-- `ParseProgram` returns the program with its units when the uses clause names files that contain units of the grammar
`OkParts`, every unit has the name of an item, no two have the same name, and the interfaces do not use each other in a
circle: there is no error, no panic and no endless loop.  The units are those of the files, in the order of the uses clause.
What a unit declares in its interface may be used by the units that name it and by the program; a unit has to be named in
front of no other, the order is found by sorting.  For every library that sorts correctly and every order in which Go
iterates over a map.

What is missing: the parts of the language that the grammar does not have, and uses clauses with file names inside of units,
whose files `ParseProgram` never reads. -/
theorem C51_units_partial (hlib : TopoCorrect lib) (hit : IterOK u it) (path : Str) (ts : List Token) (tl : Tail) (us : List UnitParts)
    (hf : files path = .tokens ts tl) (h : OkWhole u sep files ts us) :
    ∃ t s', t.units.map (fun x => x.head.ident.name) = us.map UnitParts.name ∧ (∃ d rest, s'.ts = d :: rest ∧ IsSym r!"." d) ∧
      gProgram u t ts s'.ts ∧ ∃ N, ∀ n, N ≤ n → parseProgramFile u sep files lib it path n = .ok t s' := by
  have hne : ∃ t0 ts0, ts = t0 :: ts0 := by cases h; exact ⟨_, _, rfl⟩
  obtain ⟨t0, ts0, rfl⟩ := hne
  obtain ⟨a, d, rest, k', h1, -, h2, N, h3⟩ := whole_rets (tl := tl) (lib := lib) (it := it) hlib hit path h
  have hrun : ∀ n, N ≤ n → parseProgramFile u sep files lib it path n = .ok a ⟨d :: rest, tl, k'⟩ := by
    intro n hn
    unfold parseProgramFile
    rw [hf]
    exact h3 n hn
  obtain ⟨ts', tl', h11, -, h12, -⟩ := program_ok u sep files lib it hlib hit (hrun N (Nat.le_refl _))
  rw [hf] at h11
  injection h11 with h11 _
  subst h11
  exact ⟨a, _, h2, ⟨d, rest, rfl, h1⟩, h12, N, hrun⟩

/-- `ParseUnit`, called in a new context, returns the unit when the text begins with a unit of the grammar `OkUnit`; the
period is the current token then.

What is missing: the parts of the language that the grammar does not have, and used units that are read. -/
theorem C51_unit_partial (program path : Str) (ts rest : List Token) (tl : Tail) (h : OkUnit u ts) :
    ∃ t s', t.head.ident.name ∈ (ts[1]?).map Token.raw ∧ (∃ d, s'.ts = d :: rest ∧ IsSym r!"." d) ∧
      ∃ N, ∀ n, N ≤ n → parseUnit u 1 n ⟨ts ++ rest, tl, { ((DS.init program).newUnitContext 0 path).1 with cur := 1 }⟩ = .ok (some t) s' := by
  obtain ⟨h1, h2, h3, h4, h5, h6, h7, h8, h9, h10, h11, h12⟩ := h
  rename_i w t s i x Γ1 y Γ2 m z Γ3 v Γ4 q e d
  obtain ⟨a, k', h13, h14⟩ := unit_rets (tl := tl) (rest := rest) h1 h2 h3 h4 h5 h6 h7 h8 h9 h10 h11 h12 (agrees_unit program path) 1
  refine ⟨a, ⟨d :: rest, tl, k'⟩, ?_, ⟨d, rfl, h12⟩, ?_⟩
  · rw [h13]; rfl
  · simp only [List.cons_append, List.append_assoc, List.nil_append]
    exact h14

end

/-! ## Examples -/

/-- `program P; type T = (a, b); var v: set of T; begin v := a; end.` -/
def okTokens : List Token := [exTok .reserved r!"program", exTok .ident r!"P", exTok .symbol r!";", exTok .reserved r!"type",
  exTok .ident r!"T", exTok .symbol r!"=", exTok .symbol r!"(", exTok .ident r!"a", exTok .symbol r!",", exTok .ident r!"b",
  exTok .symbol r!")", exTok .symbol r!";", exTok .reserved r!"var", exTok .ident r!"v", exTok .symbol r!":",
  exTok .reserved r!"set", exTok .reserved r!"of", exTok .ident r!"T", exTok .symbol r!";",
  exTok .reserved r!"begin", exTok .ident r!"v", exTok .symbol r!":=", exTok .ident r!"a", exTok .symbol r!";",
  exTok .reserved r!"end", exTok .symbol r!"."]

theorem okSym {s : Str} (h : (exTok .symbol s).raw = s) : IsSym s (exTok .symbol s) := ⟨rfl, h⟩
theorem okKw {s raw : Str} (h : asciiUni.toUpper (exTok .reserved raw).raw = s) : IsKw asciiUni s (exTok .reserved raw) :=
  ⟨rfl, h⟩

/-- a variable -/
def exD (name : Str) : Desig What := .mk ⟨none, ⟨⟨name, ⟨1, 1, 0⟩, ⟨1, 1, 1⟩⟩, none⟩⟩ .nil

theorem okFits {Γ : NameEnv} {name : Str} (h : Γ.get asciiUni name = none) : FitsQual (NameEnv.env asciiUni).toEnv Γ
    ⟨none, ⟨⟨name, ⟨1, 1, 0⟩, ⟨1, 1, 1⟩⟩, none⟩⟩ :=
  ⟨fun ⟨_, h1, _⟩ => (by cases h.symm.trans h1), h.symm⟩

/-- the names before `begin` -/
def okEnv : NameEnv :=
  (((NameEnv.empty.declare asciiUni [r!"a"]).declare asciiUni [r!"b"]).declareType asciiUni r!"T" .ord).declare asciiUni [r!"v"]

/-- without labels nothing is unclear about them -/
theorem okNoLabels {Γ : NameEnv} {x : List Token} (h : ∀ p ∈ Γ.seen, p.2 ≠ .label) : Γ.LabelsKnown asciiUni x :=
  ⟨fun _ _ hs => absurd rfl (h _ hs), fun _ _ hs => h _ hs rfl⟩

/-- nor does a statement begin with one -/
theorem okNotLabel {Γ : NameEnv} {x : List Token} (h : (x.head?.bind fun t => Γ.get asciiUni (t.value asciiUni)) ≠ some .label) :
    True → ∀ t, x.head? = some t → ¬ IsLabelName (NameEnv.env asciiUni) Γ (t.value asciiUni) := by
  rintro - t e ⟨w, h1, h2⟩
  rw [e] at h
  cases w with
  | label => exact h h1
  | _ => cases h2

/-- a compound statement is a body -/
theorem okBody {Γ Γ' : NameEnv} {x : List Token} (h : OkCompound asciiUni Γ x Γ') : OkBody asciiUni Γ x Γ' := by
  have := OkBody.mk (u := asciiUni) (z := []) .nil (.compound h) .nil
  simpa using this

example : OkProgram asciiUni okTokens := by
  refine .mk (x := (okTokens.drop 3).take 22) (Γ' := okEnv) (okKw (by krfl)) rfl (okSym (by krfl)) (.mk (x := (okTokens.drop 3).take 16)
    (y := (okTokens.drop 19).take 6) (.cons (.type (okKw (by krfl)) (.one rfl (okSym (by krfl)) (.type (.simple
      (.enum (okSym (by krfl)) (.cons (x := []) rfl (.inl rfl) ?_ (okSym (by krfl)) (.one rfl (.inl rfl) ?_)) (okSym (by krfl))))) (.new ?_) (okSym (by krfl))))
      (.cons (y := []) (.var (okKw (by krfl)) (.one (.plain (.one rfl) (okSym (by krfl))
        (.set (p := []) (.inl rfl) (okKw (by krfl)) (okKw (by krfl)) (.name rfl ?_ ?_ ?_)) ?_) (okSym (by krfl)))) .nil)) ?_) (okSym (by krfl))
  · unfold NameEnv.New; decide +kernel
  · unfold NameEnv.New; decide +kernel
  · unfold NameEnv.Unseen
    exact ⟨by krfl, by decide +kernel, fun w => by cases w <;> decide +kernel⟩
  · decide +kernel
  · krfl
  · decide +kernel
  · unfold NameEnv.New; decide +kernel
  · refine okBody ⟨okNoLabels (by decide +kernel), .one (.mk none (.assign (exD r!"v") (.mk (.mk none (.mk (.desig (exD r!"a")) .nil) .nil) .nil))), ?_⟩
    simp only [DBody, DStmts, DStmt]
    refine ⟨_, (okTokens.drop 20).take 4, _, rfl, okKw (by krfl), .inr ⟨(okTokens.drop 20).take 3, _, rfl,
      ⟨⟨by krfl, [exTok .ident r!"v"], _, [exTok .ident r!"a"], rfl, ⟨⟨⟨rfl, by krfl⟩, trivial⟩, fun _ => ⟨?_, trivial⟩⟩, by krfl,
        ⟨⟨⟨rfl, by krfl⟩, trivial⟩, fun _ => ?_⟩⟩, okNotLabel (by decide +kernel)⟩, okSym (by krfl)⟩, okKw (by krfl)⟩
    · exact okFits (by krfl)
    · refine ⟨⟨fun _ h => (by cases h), ⟨⟨⟨okFits (by krfl), trivial⟩, ?_⟩, trivial⟩, trivial⟩, trivial⟩
      rintro (h | h)
      · exact absurd h (by decide +kernel)
      · exact absurd h (by decide +kernel)

/-- The same text, as `ParseProgram` reads it. -/
example : unitsRead (exProgram [(r!"p", r!"program P; type T = (a, b); var v: set of T; begin v := a; end.")]) = some [] := by
  krfl

/-- `program P; type R = record case a: l..h of b: (c: Integer); end; var v: Integer absolute w; exports v name n; asm nop; ret end.` -/
def okForms : List Token := [exTok .reserved r!"program", exTok .ident r!"P", exTok .symbol r!";", exTok .reserved r!"type",
  exTok .ident r!"R", exTok .symbol r!"=", exTok .reserved r!"record", exTok .reserved r!"case", exTok .ident r!"a", exTok .symbol r!":",
  exTok .ident r!"l", exTok .symbol r!"..", exTok .ident r!"h", exTok .reserved r!"of", exTok .ident r!"b", exTok .symbol r!":",
  exTok .symbol r!"(", exTok .ident r!"c", exTok .symbol r!":", exTok .ident r!"Integer", exTok .symbol r!")", exTok .symbol r!";",
  exTok .reserved r!"end", exTok .symbol r!";", exTok .reserved r!"var", exTok .ident r!"v", exTok .symbol r!":", exTok .ident r!"Integer",
  exTok .ident r!"absolute", exTok .ident r!"w", exTok .symbol r!";", exTok .reserved r!"exports", exTok .ident r!"v",
  exTok .ident r!"name", exTok .ident r!"n", exTok .symbol r!";", exTok .reserved r!"asm", exTok .ident r!"nop", exTok .symbol r!";",
  exTok .ident r!"ret", exTok .reserved r!"end", exTok .symbol r!"."]

/-- the names at the end -/
def okFormsEnv : NameEnv :=
  (NameEnv.empty.declareType asciiUni (exTok .ident r!"R").raw .plain).declare asciiUni [(exTok .ident r!"v").raw]

/-- a name is an expression -/
theorem okName {Γ : NameEnv} {name : Str} (h : Γ.get asciiUni name = none) (hn : Ident.ofTok (exTok .ident name) = ⟨name, ⟨1, 1, 0⟩, ⟨1, 1, 1⟩⟩)
    (hb : asciiUni.toUpper name ≠ r!"TRUE" ∧ asciiUni.toUpper name ≠ r!"FALSE") : OkExpr asciiUni Γ [exTok .ident name] := by
  refine ⟨.mk (.mk none (.mk (.desig (exD name)) .nil) .nil) .nil, ⟨⟨rfl, ?_⟩, trivial⟩, fun _ => ?_⟩
  · exact hn.symm
  refine ⟨⟨fun _ h => (by cases h), ⟨⟨⟨okFits h, trivial⟩, ?_⟩, trivial⟩, trivial⟩, trivial⟩
  rintro (h | h)
  · exact hb.1 h
  · exact hb.2 h

example : OkProgram asciiUni okForms := by
  refine .mk (x := (okForms.drop 3).take 38) (Γ' := okFormsEnv) (okKw (by krfl)) rfl (okSym (by krfl)) (.mk (x := (okForms.drop 3).take 28)
    (y := (okForms.drop 31).take 10) (Γ1 := okFormsEnv) (.cons (x := (okForms.drop 3).take 21) (y := (okForms.drop 24).take 7) (.type (okKw (by krfl))
      (.one (x := (okForms.drop 6).take 17) (o := .plain) (Γ1 := .empty) rfl (okSym (by krfl)) ?_ (.new ?_) (okSym (by krfl))))
      (.cons (x := (okForms.drop 24).take 7) (y := []) (.var (okKw (by krfl)) (.one (x := (okForms.drop 25).take 5)
        (.absolute (x := [exTok .ident r!"v"]) (y := [exTok .ident r!"Integer"]) (.one rfl) (okSym (by krfl)) (.simple (.name ⟨.inl rfl, ?_⟩)) ?_ rfl ?_)
        (okSym (by krfl)))) .nil)) ?_) (okSym (by krfl))
  · refine .variant (p := []) (x := []) (Γ1 := .empty) (y := (okForms.drop 8).take 5) (Γ2 := .empty) (z := (okForms.drop 14).take 8) (.inl rfl)
      (okKw (by krfl)) .nil (okKw (by krfl)) (.named rfl (okSym (by krfl)) (.simple (.identRange rfl ?_ ?_ (okSym (by krfl)) ?_))) (okKw (by krfl))
      (.cons (x := [exTok .ident r!"b"]) (y := (okForms.drop 17).take 3) (z := []) (Γ1 := .empty) (.one ?_) (okSym (by krfl)) (okSym (by krfl))
        (.last (x := [exTok .ident r!"c"]) (.one rfl) (okSym (by krfl)) (.simple (.name ⟨.inl rfl, ?_⟩))) (okSym (by krfl)) (okSym (by krfl)) .nil)
      (okKw (by krfl))
    · decide +kernel
    · krfl
    · exact okName (by krfl) (by krfl) (by decide +kernel)
    · exact okName (by krfl) (by krfl) (by decide +kernel)
    · decide +kernel
  · unfold NameEnv.Unseen
    exact ⟨by krfl, by decide +kernel, fun w => by cases w <;> decide +kernel⟩
  · decide +kernel
  · show asciiUni.toUpper _ = _; krfl
  · unfold NameEnv.New; decide +kernel
  · exact .mk (x := (okForms.drop 31).take 5) (y := (okForms.drop 36).take 5) (z := []) (.cons (x := (okForms.drop 32).take 3) (y := []) (okKw (by krfl))
      (.one (.named rfl (.inl (by show asciiUni.toUpper _ ∈ _; decide +kernel)) (okName (by krfl) (by krfl) (by decide +kernel)))) (okSym (by krfl)) .nil)
      (.asm (x := (okForms.drop 38).take 2) (okKw (by krfl)) (by rintro t ht ⟨h, -⟩; revert t; decide +kernel) (okKw (by krfl))) .nil

/-- The same text, as `ParseProgram` reads it. -/
example : unitsRead (exProgram [(r!"p", r!"program P; type R = record case a: l..h of b: (c: Integer); end; var v: Integer absolute w; exports v name n; asm nop; ret end.")]) =
    some [] := by krfl

/-- `program P; type C = class; C = class(B) f: Integer; public destructor g; property q: Integer read f write g stored true; end; asm nop end.` -/
def okClass : List Token := [exTok .reserved r!"program", exTok .ident r!"P", exTok .symbol r!";", exTok .reserved r!"type", exTok .ident r!"C",
  exTok .symbol r!"=", exTok .reserved r!"class", exTok .symbol r!";", exTok .ident r!"C", exTok .symbol r!"=", exTok .reserved r!"class", exTok .symbol r!"(", exTok .ident r!"B", exTok .symbol r!")",
  exTok .ident r!"f", exTok .symbol r!":", exTok .ident r!"Integer", exTok .symbol r!";", exTok .ident r!"public",
  exTok .reserved r!"destructor", exTok .ident r!"g", exTok .symbol r!";", exTok .reserved r!"property", exTok .ident r!"q",
  exTok .symbol r!":", exTok .ident r!"Integer", exTok .ident r!"read", exTok .ident r!"f", exTok .ident r!"write",
  exTok .ident r!"g", exTok .ident r!"stored", exTok .ident r!"true", exTok .symbol r!";", exTok .reserved r!"end",
  exTok .symbol r!";", exTok .reserved r!"asm", exTok .ident r!"nop", exTok .reserved r!"end", exTok .symbol r!"."]

/-- the names after the forward declaration -/
def okFwdEnv : NameEnv := NameEnv.empty.declareType asciiUni (exTok .ident r!"C").raw .fwd

/-- the names at the end -/
def okClassEnv : NameEnv := (okFwdEnv.closed okFwdEnv.opened).completeType asciiUni (exTok .ident r!"C").raw .cls

example : OkProgram asciiUni okClass := by
  refine .mk (x := (okClass.drop 3).take 35) (Γ' := okClassEnv) (okKw (by krfl)) rfl (okSym (by krfl)) (.mk (x := (okClass.drop 3).take 32)
    (y := (okClass.drop 35).take 3) (Γ1 := okClassEnv) (.cons (x := (okClass.drop 3).take 32) (y := []) (.type (okKw (by krfl))
      (.cons (x := [exTok .reserved r!"class"]) rfl (okSym (by krfl)) (.forward (okKw (by krfl))) (.new ?_) (okSym (by krfl))
        (.one (x := (okClass.drop 10).take 24) (o := .cls) (Γ1 := okFwdEnv.closed okFwdEnv.opened) rfl (okSym (by krfl)) ?_ (.complete ?_ (.inl rfl)) (okSym (by krfl))))) .nil) ?_) (okSym (by krfl))
  · unfold NameEnv.Unseen
    exact ⟨by krfl, by decide +kernel, fun w => by cases w <;> decide +kernel⟩
  · refine .cls (h := (okClass.drop 11).take 3) (x := (okClass.drop 14).take 19) (okKw (by krfl))
      (.some (x := [exTok .ident r!"B"]) (okSym (by krfl)) (.one ⟨.inl rfl, by decide +kernel⟩) (okSym (by krfl)))
      (.fields (x := (okClass.drop 14).take 4) (fs := [(exTok .ident r!"f").raw]) (Γ1 := okFwdEnv) (y := []) (ns := []) (Γ2 := okFwdEnv) (w := [])
        (Γ3 := okFwdEnv) (z := (okClass.drop 18).take 15) (by simp [okClass])
        (.cons (x := []) (ns := [(exTok .ident r!"f").raw]) (y := [exTok .ident r!"Integer"]) (z := []) (ms := []) (Γ1 := okFwdEnv) (.one rfl)
          (by unfold IsVisibilityWord IsUp; decide +kernel) (okSym (by krfl)) (.simple (.name ⟨.inl rfl, by decide +kernel⟩)) (okSym (by krfl)) .nil)
        .nil .nil (fun h => (h rfl).elim)
        (.cons (x := []) (fs := []) (Γ1 := okFwdEnv) (y := (okClass.drop 19).take 3) (ns := [(exTok .ident r!"g").raw]) (Γ2 := okFwdEnv.closed okFwdEnv.opened)
          (w := (okClass.drop 22).take 11) (Γ3 := okFwdEnv.closed okFwdEnv.opened) (z := []) rfl (by unfold IsVisibilityWord IsUp; decide +kernel) .nil
          (.cons (x := (okClass.drop 19).take 2) (d := []) (y := []) (ns := []) (Γ1 := okFwdEnv.opened) (.dtor (okKw (by krfl)) rfl)
            (okSym (by krfl)) .nil .nil)
          (.cons (x := (okClass.drop 24).take 2) (Γ1 := okFwdEnv.closed okFwdEnv.opened) (i := []) (r := (okClass.drop 26).take 2) (v := (okClass.drop 28).take 2)
            (d := (okClass.drop 30).take 2) (e := []) (y := []) (okKw (by krfl)) rfl (.name (okSym (by krfl)) ⟨.inl rfl, by decide +kernel⟩) (.inl rfl)
            (.inr ⟨_, _, rfl, rfl, ?_, rfl, ?_, ?_⟩) (.inr ⟨_, _, rfl, rfl, ?_, rfl, ?_, ?_⟩) (.inr ⟨_, _, rfl, rfl, ?_, .inl ⟨?_, rfl⟩⟩) (.inl rfl)
            (okSym (by krfl)) .nil)
          (fun _ o t x e => ?_) .nil)) (okKw (by krfl))
    · unfold IsUp; decide +kernel
    · decide +kernel
    · decide +kernel
    · unfold IsUp; decide +kernel
    · decide +kernel
    · decide +kernel
    · unfold IsUp; decide +kernel
    · decide +kernel
    · cases e; decide +kernel
  · decide +kernel
  · exact .mk (x := []) (y := (okClass.drop 35).take 3) (z := []) .nil
      (.asm (x := []) (okKw (by krfl)) (fun _ h => by cases h) (okKw (by krfl))) .nil

/-- The same text, as `ParseProgram` reads it. -/
example : unitsRead (exProgram [(r!"p", r!"program P; type C = class; C = class(B) f: Integer; public destructor g; property q: Integer read f write g stored true; end; asm nop end.")]) =
    some [] := by krfl

/-- `program P; type A = class f: Integer; end; B = class(A) g: Integer; property q: Integer read g; end; asm nop end.` -/
def okSub : List Token := [exTok .reserved r!"program", exTok .ident r!"P", exTok .symbol r!";", exTok .reserved r!"type", exTok .ident r!"A",
  exTok .symbol r!"=", exTok .reserved r!"class", exTok .ident r!"f", exTok .symbol r!":", exTok .ident r!"Integer", exTok .symbol r!";",
  exTok .reserved r!"end", exTok .symbol r!";", exTok .ident r!"B", exTok .symbol r!"=", exTok .reserved r!"class", exTok .symbol r!"(",
  exTok .ident r!"A", exTok .symbol r!")", exTok .ident r!"g", exTok .symbol r!":", exTok .ident r!"Integer", exTok .symbol r!";",
  exTok .reserved r!"property", exTok .ident r!"q", exTok .symbol r!":", exTok .ident r!"Integer", exTok .ident r!"read", exTok .ident r!"g",
  exTok .symbol r!";", exTok .reserved r!"end", exTok .symbol r!";", exTok .reserved r!"asm", exTok .ident r!"nop", exTok .reserved r!"end",
  exTok .symbol r!"."]

/-- the names after the first class -/
def okRootEnv : NameEnv := NameEnv.empty.declareType asciiUni (exTok .ident r!"A").raw .rooted

/-- the names at the end -/
def okSubEnv : NameEnv := okRootEnv.declareType asciiUni (exTok .ident r!"B").raw .rooted

example : OkProgram asciiUni okSub := by
  have field : ∀ {Γ : NameEnv} {f : Token}, f.typ = .ident → ¬ IsVisibilityWord asciiUni f → Γ.get asciiUni r!"Integer" ≠ some .space →
      OkClassFields asciiUni Γ [f, exTok .symbol r!":", exTok .ident r!"Integer", exTok .symbol r!";"] [f.raw] Γ := fun h1 h2 h3 =>
    .cons (x := []) (y := [exTok .ident r!"Integer"]) (z := []) (ms := []) (.one h1) h2 (okSym (by krfl)) (.simple (.name ⟨.inl rfl, h3⟩)) (okSym (by krfl)) .nil
  refine .mk (x := (okSub.drop 3).take 32) (Γ' := okSubEnv) (okKw (by krfl)) rfl (okSym (by krfl)) (.mk (x := (okSub.drop 3).take 29)
    (y := (okSub.drop 32).take 3) (Γ1 := okSubEnv) (.cons (x := (okSub.drop 3).take 29) (y := []) (.type (okKw (by krfl))
      (.cons (x := (okSub.drop 6).take 6) (o := .rooted) (Γ1 := .empty) rfl (okSym (by krfl)) ?_ (.new ?_) (okSym (by krfl))
        (.one (x := (okSub.drop 15).take 16) (o := .rooted) (Γ1 := okRootEnv) rfl (okSym (by krfl)) ?_ (.new ?_) (okSym (by krfl))))) .nil) ?_) (okSym (by krfl))
  · exact .rooted (h := []) (x := (okSub.drop 7).take 4) (okKw (by krfl)) .none (.inl rfl)
      (.fields (x := (okSub.drop 7).take 4) (fs := [(exTok .ident r!"f").raw]) (Γ1 := .empty) (y := []) (ns := []) (Γ2 := .empty) (w := [])
        (Γ3 := .empty) (z := []) (by simp [okSub]) (field rfl (by unfold IsVisibilityWord IsUp; decide +kernel) (by decide +kernel)) .nil .nil
        (fun _ => trivial) .nil) (okKw (by krfl))
  · unfold NameEnv.Unseen
    exact ⟨by krfl, by decide +kernel, fun w => by cases w <;> decide +kernel⟩
  · refine .rooted (h := (okSub.drop 16).take 3) (x := (okSub.drop 19).take 11) (okKw (by krfl))
      (.some (x := [exTok .ident r!"A"]) (okSym (by krfl)) (.one ⟨.inl rfl, by decide +kernel⟩) (okSym (by krfl)))
      (.inr ⟨_, _, _, rfl, .inl (by decide +kernel)⟩)
      (.fields (x := (okSub.drop 19).take 4) (fs := [(exTok .ident r!"g").raw]) (Γ1 := okRootEnv) (y := []) (ns := []) (Γ2 := okRootEnv)
        (w := (okSub.drop 23).take 7) (Γ3 := okRootEnv) (z := []) (by simp [okSub])
        (field rfl (by unfold IsVisibilityWord IsUp; decide +kernel) (by decide +kernel)) .nil
        (.cons (x := (okSub.drop 25).take 2) (Γ1 := okRootEnv) (i := []) (r := (okSub.drop 27).take 2) (v := []) (d := []) (e := []) (y := [])
          (okKw (by krfl)) rfl (.name (okSym (by krfl)) ⟨.inl rfl, by decide +kernel⟩) (.inl rfl) (.inr ⟨_, _, rfl, rfl, ?_, rfl, ?_, ?_⟩) (.inl rfl)
          (.inl rfl) (.inl rfl) (okSym (by krfl)) .nil) (fun _ => trivial) .nil) (okKw (by krfl))
    · unfold IsUp; decide +kernel
    · decide +kernel
    · decide +kernel
  · unfold NameEnv.Unseen
    exact ⟨by krfl, by decide +kernel, fun w => by cases w <;> decide +kernel⟩
  · exact .mk (x := []) (y := (okSub.drop 32).take 3) (z := []) .nil
      (.asm (x := []) (okKw (by krfl)) (fun _ h => by cases h) (okKw (by krfl))) .nil

/-- The same text, as `ParseProgram` reads it. -/
example : unitsRead (exProgram [(r!"p", r!"program P; type A = class f: Integer; end; B = class(A) g: Integer; property q: Integer read g; end; asm nop end.")]) =
    some [] := by krfl

/-- `program P; label L; begin L: goto L; end.` -/
def okGoto : List Token := [exTok .reserved r!"program", exTok .ident r!"P", exTok .symbol r!";", exTok .reserved r!"label", exTok .ident r!"L",
  exTok .symbol r!";", exTok .reserved r!"begin", exTok .ident r!"L", exTok .symbol r!":", exTok .reserved r!"goto", exTok .ident r!"L",
  exTok .symbol r!";", exTok .reserved r!"end", exTok .symbol r!"."]

example : OkProgram asciiUni okGoto := by
  refine .mk (x := (okGoto.drop 3).take 10) (Γ' := NameEnv.empty.declareLabel asciiUni r!"L") (okKw (by krfl)) rfl (okSym (by krfl)) (.mk (x := (okGoto.drop 3).take 3) (y := (okGoto.drop 6).take 7)
    (.cons (x := (okGoto.drop 3).take 3) (y := []) (.label (okKw (by krfl)) rfl ?_ (okSym (by krfl))) .nil) ?_) (okSym (by krfl))
  · unfold NameEnv.New; decide +kernel
  · refine okBody ⟨⟨?_, by decide +kernel⟩, .one (.mk (some ⟨r!"L", ⟨1, 1, 0⟩, ⟨1, 1, 1⟩⟩) (.goto ⟨r!"L", ⟨1, 1, 0⟩, ⟨1, 1, 1⟩⟩ (some .label))), ?_⟩
    · unfold NameEnv.Clear; decide +kernel
    · simp only [DBody, DStmts, DStmt]
      exact ⟨_, (okGoto.drop 7).take 5, _, rfl, okKw (by krfl), .inr ⟨(okGoto.drop 7).take 4, _, rfl, ⟨_, _, _, rfl, by krfl, okSym (by krfl),
        fun _ => ⟨.label, by krfl, rfl⟩, by krfl, _, _, rfl, okKw (by krfl), rfl, by krfl, fun _ => by krfl⟩, okSym (by krfl)⟩, okKw (by krfl)⟩

/-- The same text, as `ParseProgram` reads it. -/
example : unitsRead (exProgram [(r!"p", r!"program P; label L; begin L: goto L; end.")]) = some [] := by krfl

/-- `program P; uses A, B; begin x := y; end.` -/
def okUsing : List Token := [exTok .reserved r!"program", exTok .ident r!"P", exTok .symbol r!";", exTok .reserved r!"uses",
  exTok .ident r!"A", exTok .symbol r!",", exTok .ident r!"B", exTok .symbol r!";", exTok .reserved r!"begin", exTok .ident r!"x",
  exTok .symbol r!":=", exTok .ident r!"y", exTok .symbol r!";", exTok .reserved r!"end", exTok .symbol r!"."]

example : OkUsing asciiUni okUsing := by
  refine .mk (x := (okUsing.drop 4).take 3) (y := (okUsing.drop 8).take 6) (Γ' := ((NameEnv.empty.declareSpace asciiUni
      (exTok .ident r!"A").raw).declareSpace asciiUni (exTok .ident r!"B").raw).opened.declareSpace asciiUni (exTok .ident r!"P").raw)
    (okKw (by krfl)) rfl (okSym (by krfl)) (okKw (by krfl)) (.cons (ts := [exTok .ident r!"B"]) rfl ?_ (okSym (by krfl)) (.one rfl ?_))
    (okSym (by krfl)) (.mk (x := []) (y := (okUsing.drop 8).take 6) .nil ?_) (okSym (by krfl))
  · unfold NameEnv.New; decide +kernel
  · unfold NameEnv.New; decide +kernel
  · refine okBody ⟨okNoLabels (by decide +kernel), .one (.mk none (.assign (exD r!"x") (.mk (.mk none (.mk (.desig (exD r!"y")) .nil) .nil) .nil))), ?_⟩
    simp only [DBody, DStmts, DStmt]
    refine ⟨_, (okUsing.drop 9).take 4, _, rfl, okKw (by krfl), .inr ⟨(okUsing.drop 9).take 3, _, rfl,
      ⟨⟨trivial, [exTok .ident r!"x"], _, [exTok .ident r!"y"], rfl, ⟨⟨⟨rfl, by krfl⟩, trivial⟩, fun _ => ⟨okFits (by krfl), trivial⟩⟩, by krfl,
        ⟨⟨⟨rfl, by krfl⟩, trivial⟩, fun _ => ?_⟩⟩, okNotLabel (by decide +kernel)⟩, okSym (by krfl)⟩, okKw (by krfl)⟩
    · refine ⟨⟨fun _ h => (by cases h), ⟨⟨⟨okFits (by krfl), trivial⟩, ?_⟩, trivial⟩, trivial⟩, trivial⟩
      rintro (h | h)
      · exact absurd h (by decide +kernel)
      · exact absurd h (by decide +kernel)

/-- The same text, as `ParseProgram` reads it. -/
example : unitsRead (exProgram [(r!"p", r!"program P; uses A, B; begin x := y; end.")]) = some [] := by krfl

/-- `program P; uses V in 'v', U in 'u'; begin b := a; end.` -/
def okWhole : List Token := [exTok .reserved r!"program", exTok .ident r!"P", exTok .symbol r!";", exTok .reserved r!"uses",
  exTok .ident r!"V", exTok .reserved r!"in", exTok .charString r!"'v'", exTok .symbol r!",", exTok .ident r!"U", exTok .reserved r!"in",
  exTok .charString r!"'u'", exTok .symbol r!";", exTok .reserved r!"begin", exTok .ident r!"b", exTok .symbol r!":=", exTok .ident r!"a",
  exTok .symbol r!";", exTok .reserved r!"end", exTok .symbol r!"."]

/-- `var name: Integer;` -/
def okVar (name : Str) : List Token := [exTok .reserved r!"var", exTok .ident name, exTok .symbol r!":", exTok .ident r!"Integer", exTok .symbol r!";"]

/-- `unit U; interface var a: Integer; implementation end.` -/
def okPartsU : UnitParts := ⟨(exTok .ident r!"U").raw, [], okVar r!"a", [], [], [],
  (⟨[r!"u"], [(r!"u", .space)], []⟩ : NameEnv).declare asciiUni [(exTok .ident r!"a").raw]⟩

/-- `unit V; interface uses U; var b: Integer; implementation end.` -/
def okPartsV : UnitParts := ⟨(exTok .ident r!"V").raw, [exTok .reserved r!"uses", exTok .ident r!"U", exTok .symbol r!";"], okVar r!"b", [], [], [],
  (⟨[r!"v"], [(r!"v", .space), (r!"a", .other), (r!"u", .space), (r!"u", .space)], []⟩ : NameEnv).declare asciiUni [(exTok .ident r!"b").raw]⟩

/-- the tokens of a unit -/
def okUnitText (name : Str) (m : UnitParts) : List Token := exTok .reserved r!"unit" :: exTok .ident name :: exTok .symbol r!";" ::
  exTok .reserved r!"interface" :: (m.uses ++ (m.intf ++ exTok .reserved r!"implementation" :: (m.implUses ++ (m.impl ++ (m.init ++
    exTok .reserved r!"end" :: exTok .symbol r!"." :: [])))))

def okFiles (p : Str) : FileR :=
  if p = r!"u" then .tokens (okUnitText r!"U" okPartsU) .hang
  else if p = r!"v" then .tokens (okUnitText r!"V" okPartsV) .hang else .missing

theorem okUnitText_unit {name : Str} {m : UnitParts} (h : m.name = (exTok .ident name).raw) : IsUnitText asciiUni (okUnitText name m) m :=
  ⟨_, _, _, _, _, _, _, [], okKw (by krfl), rfl, okSym (by krfl), okKw (by krfl), okKw (by krfl), okKw (by krfl), okSym (by krfl), h, rfl⟩

/-- the names in the block of the program -/
def okWholeEnv : NameEnv := ⟨[r!"p"], [(r!"p", .space), (r!"b", .other), (r!"v", .space), (r!"a", .other), (r!"u", .space), (r!"u", .space), (r!"v", .space)], []⟩

theorem okVar_sect {Γ : NameEnv} {name : Str} (hn : Γ.New asciiUni [(exTok .ident name).raw]) (hi : Γ.get asciiUni r!"Integer" ≠ some .space) :
    OkIntf asciiUni Γ (okVar name) (Γ.declare asciiUni [(exTok .ident name).raw]) :=
  .cons (x := okVar name) (y := []) (.var (x := (okVar name).drop 1) (okKw (by krfl)) (.one (x := ((okVar name).drop 1).take 3)
    (.plain (x := [exTok .ident name]) (y := [exTok .ident r!"Integer"]) (.one rfl) (okSym (by krfl)) (.simple (.name ⟨.inl rfl, hi⟩)) hn) (okSym (by krfl)))) .nil

example : OkWhole asciiUni '/' okFiles okWhole [okPartsV, okPartsU] := by
  refine .mk (x := (okWhole.drop 4).take 7) (is := [((exTok .ident r!"V").raw, some r!"'v'"), ((exTok .ident r!"U").raw, some r!"'u'")])
    (Γ := (NameEnv.empty.declareSpace asciiUni (exTok .ident r!"V").raw).declareSpace asciiUni (exTok .ident r!"U").raw)
    (y := (okWhole.drop 12).take 6) (Γ' := okWholeEnv) (rest := []) (rank := fun n => if n = r!"V" then 1 else 0)
    (okKw (by krfl)) rfl (okSym (by krfl)) (okKw (by krfl))
    (.cons (x := (okWhole.drop 4).take 3) (y := (okWhole.drop 8).take 3) (.file rfl (okKw (by krfl)) rfl) ?_ (okSym (by krfl)) (.one (.file rfl (okKw (by krfl)) rfl) ?_))
    (okSym (by krfl)) ?_ (by decide +kernel) ?_ ?_ ?_ ?_ (okSym (by krfl))
  · unfold NameEnv.New; decide +kernel
  · unfold NameEnv.New; decide +kernel
  · exact .cons (f := r!"v") (ts := okUnitText r!"V" okPartsV) (tl := .hang) rfl (okUnitText_unit rfl)
      (.cons (f := r!"u") (ts := okUnitText r!"U" okPartsU) (tl := .hang) rfl (okUnitText_unit rfl) .nil)
  · decide +kernel
  · decide +kernel
  · intro m hm
    simp only [List.mem_cons, List.not_mem_nil, or_false] at hm
    rcases hm with rfl | rfl
    · refine .mk (Γ1 := NameEnv.empty.declareSpace asciiUni (exTok .ident r!"U").raw) (.some (x := [exTok .ident r!"U"]) (okKw (by krfl)) (.one rfl ?_) (okSym (by krfl)))
        (okVar_sect (name := r!"b") ?_ ?_) .none (.mk .nil .nil) .none
      · unfold NameEnv.New; decide +kernel
      · unfold NameEnv.New; decide +kernel
      · decide +kernel
    · refine .mk .none (okVar_sect (name := r!"a") ?_ ?_) .none (.mk .nil .nil) .none
      · unfold NameEnv.New; decide +kernel
      · decide +kernel
  · refine .mk (x := []) (y := (okWhole.drop 12).take 6) .nil ?_
    refine okBody ⟨okNoLabels (by decide +kernel), .one (.mk none (.assign (exD r!"b") (.mk (.mk none (.mk (.desig (exD r!"a")) .nil) .nil) .nil))), ?_⟩
    simp only [DBody, DStmts, DStmt]
    refine ⟨_, (okWhole.drop 13).take 4, _, rfl, okKw (by krfl), .inr ⟨(okWhole.drop 13).take 3, _, rfl,
      ⟨⟨(by krfl), [exTok .ident r!"b"], _, [exTok .ident r!"a"], rfl, ⟨⟨⟨rfl, by krfl⟩, trivial⟩, fun _ => ⟨okFits (by krfl), trivial⟩⟩, by krfl,
        ⟨⟨⟨rfl, by krfl⟩, trivial⟩, fun _ => ?_⟩⟩, okNotLabel (by decide +kernel)⟩, okSym (by krfl)⟩, okKw (by krfl)⟩
    · refine ⟨⟨fun _ h => (by cases h), ⟨⟨⟨okFits (by krfl), trivial⟩, ?_⟩, trivial⟩, trivial⟩, trivial⟩
      rintro (h | h)
      · exact absurd h (by decide +kernel)
      · exact absurd h (by decide +kernel)

/-- The same texts, as `ParseProgram` reads them. -/
example : unitsRead (exProgram [(r!"p", r!"program P; uses V in 'v', U in 'u'; begin b := a; end."),
    (r!"v", r!"unit V; interface uses U; var b: Integer; implementation end."),
    (r!"u", r!"unit U; interface var a: Integer; implementation end.")]) = some [(r!"V", [r!"U"]), (r!"U", [])] := by krfl

/-- `unit U; interface uses A; procedure Q; implementation uses B; initialization x := y; end.` -/
def okUnit : List Token := [exTok .reserved r!"unit", exTok .ident r!"U", exTok .symbol r!";", exTok .reserved r!"interface",
  exTok .reserved r!"uses", exTok .ident r!"A", exTok .symbol r!";", exTok .reserved r!"procedure", exTok .ident r!"Q",
  exTok .symbol r!";", exTok .reserved r!"implementation", exTok .reserved r!"uses", exTok .ident r!"B", exTok .symbol r!";",
  exTok .reserved r!"initialization", exTok .ident r!"x", exTok .symbol r!":=", exTok .ident r!"y", exTok .symbol r!";",
  exTok .reserved r!"end", exTok .symbol r!"."]

/-- the names at the end -/
def okEnd : NameEnv :=
  let Γ := NameEnv.empty.declareSpace asciiUni (exTok .ident r!"A").raw
  (Γ.closed (Γ.opened.declare asciiUni [(exTok .ident r!"Q").raw])).declareSpace asciiUni (exTok .ident r!"B").raw

example : OkUnit asciiUni okUnit := by
  refine .mk (x := (okUnit.drop 4).take 3) (y := (okUnit.drop 7).take 3) (z := (okUnit.drop 11).take 3) (v := []) (q := (okUnit.drop 14).take 5)
    (okKw (by krfl)) rfl (okSym (by krfl)) (okKw (by krfl)) (.some (x := [exTok .ident r!"A"]) (okKw (by krfl)) (.one rfl ?_) (okSym (by krfl)))
    (.cons (x := (okUnit.drop 7).take 3) (y := []) (.heading (x := (okUnit.drop 7).take 2) (d := []) (name := (exTok .ident r!"Q").raw)
      (Γ1 := (NameEnv.empty.declareSpace asciiUni (exTok .ident r!"A").raw).opened) ?_ (okSym (by krfl)) ?_ ?_) .nil) (okKw (by krfl))
    (.some (x := [exTok .ident r!"B"]) (okKw (by krfl)) (.one rfl ?_) (okSym (by krfl))) (.mk .nil .nil) (.init (x := (okUnit.drop 15).take 4)
      (Γ1 := okEnd) (okKw (by krfl)) ?_)
    (okKw (by krfl)) (okSym (by krfl))
  · unfold NameEnv.New; decide +kernel
  · exact .mk (x := []) (r := []) (fn := false) (okKw (by krfl)) rfl .none .proc
  · unfold NameEnv.New; decide +kernel
  · exact .nil
  · unfold NameEnv.New; decide +kernel
  · refine ⟨okNoLabels (by decide +kernel), .one (.mk none (.assign (exD r!"x") (.mk (.mk none (.mk (.desig (exD r!"y")) .nil) .nil) .nil))), ?_⟩
    simp only [DBody, DStmts, DStmt]
    refine .inr ⟨(okUnit.drop 15).take 3, _, rfl, ⟨⟨by krfl, [exTok .ident r!"x"], _, [exTok .ident r!"y"], rfl, ⟨⟨⟨rfl, by krfl⟩, trivial⟩,
      fun _ => ⟨okFits (by krfl), trivial⟩⟩, by krfl, ⟨⟨⟨rfl, by krfl⟩, trivial⟩, fun _ => ?_⟩⟩, okNotLabel (by decide +kernel)⟩, okSym (by krfl)⟩
    · refine ⟨⟨fun _ h => (by cases h), ⟨⟨⟨okFits (by krfl), trivial⟩, ?_⟩, trivial⟩, trivial⟩, trivial⟩
      rintro (h | h)
      · exact absurd h (by decide +kernel)
      · exact absurd h (by decide +kernel)

/-- The same text, as `ParseUnit` reads it. -/
example : textLeft (exUnit r!"unit U; interface uses A; procedure Q; implementation uses B; initialization x := y; end.") = some [r!"."] := by
  krfl

/-- the text is not accepted as a program, nor does it make the parser panic or loop -/
def exRefused (text : Str) : Bool :=
  match exProgram [(r!"p", text)] with
  | .err => true
  | _ => false

/-- Programs of the language that are refused: an empty statement, a call without arguments, the operator `as`, an empty
list of parameters, an empty set, a numeric label, a class whose first member is a method, and a record inside of another
type. -/
theorem C51_refuted :
    exRefused r!"program P; begin end." = true ∧
    exRefused r!"program P; begin Halt(); end." = true ∧
    exRefused r!"program P; begin x := y as T; end." = true ∧
    exRefused r!"program P; procedure Q(); begin x := 1; end; begin Q; end." = true ∧
    exRefused r!"program P; begin x := []; end." = true ∧
    exRefused r!"program P; label 1; begin 1: x := 1; end." = true ∧
    exRefused r!"program P; type T = class procedure m; end; begin x := 1; end." = true ∧
    exRefused r!"program P; var r: record a: Integer; end; begin x := 1; end." = true := by
  refine ⟨?_, ?_, ?_, ?_, ?_, ?_, ?_, ?_⟩ <;> krfl

end TP.Props
