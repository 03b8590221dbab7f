import Verif.Lemmas.Case
import Verif.Lemmas.TraceGoal
import Verif.Props.C49

/-!
# C59  Every reference leads to a declaration of the same name

`refs` (`Verif/Spec/Refs.lean`) lists the identifiers of a tree that have a reference, with the declarations these
references lead to.  A type identifier without a declaration gets its reference when the type section is complete; these
references are in the context, and `laterRefs` (`Verif/Spec/AllTypeIds.lean`) lists them.
-/

namespace TP.Props
open TP Spec

/-- a context as parsers build it: in every map the key of a declaration is its name in lower case -/
def KeysAreNames (u : Uni) (k : DS) : Prop := Tidy u k

section
variable (u : Uni) (sep : Char) (files : Str → FileR) (lib : TopoLib) (it : List UParser → List Str)

/-- Every reference of a program and of its units leads to a declaration whose name is that of the identifier, up to the
case of letters: for every text, all files, every library and every order of the map of units.  First the references that
are set when the identifier is met, then those that are set at the end of a type section, as they are in the end. -/
theorem C59_program (path : Str) (n : Nat) (s' : PS DS) (t : ProgramTree (Decl Node))
    (h : parseProgramFile u sep files lib it path n = .ok t s') :
    (∀ r ∈ t.refs, Refers u r.1 r.2) ∧ ∀ r ∈ laterRefs s'.cx (idsProgram t), Refers u r.1 r.2 := by
  unfold parseProgramFile at h
  split at h
  · cases h
  · cases h
  · refine ⟨(TD.cur?.bind (fun _ _ => TD.parseProgram 0 n) _ _ _ (tidy_init path) h).1, laterRefs_ok ?_⟩
    exact ((Tr.step (laterBase (Steady.none u)) quiet_cur? fun _ => program_later (Steady.none u) 0 n) _ ⟨tidy_init path, trivial⟩ (fun _ h => by cases h) _ _ h).2.2

/-- The same for a unit with a parser of its own. -/
theorem C59_unit (path : Str) (ts : List Token) (tl : Tail) (n : Nat) (s' : PS DS) (t : UnitTree (Decl Node))
    (h : parseUnit u 1 n ⟨ts, tl, { ((DS.init path).newUnitContext 0 path).1 with cur := 1 }⟩ = .ok (some t) s') :
    (∀ r ∈ t.refs, Refers u r.1 r.2) ∧ ∀ r ∈ laterRefs s'.cx (idsUnit t), Refers u r.1 r.2 := by
  have hs : Tidy u { ((DS.init path).newUnitContext 0 path).1 with cur := 1 } := ((tidy_init path).newUnitContext 0 path).same rfl
  refine ⟨(TD.parseUnit 1 n _ _ _ hs h).1 t rfl, laterRefs_ok fun x hx => ?_⟩
  exact (unit_later (Steady.none u) 1 n _ ⟨hs, trivial⟩ (fun _ h => by cases h) _ _ h).2.2 x (by simpa using hx)

variable {u}

/-- The same for blocks; and the maps stay as they should be, and so do the references that were there before. -/
theorem C59_block (n : Nat) (s s' : PS DS) (b : Block (Decl Node)) (hs : KeysAreNames u s.cx)
    (h : parseBlock u (declEnv u) n s = .ok b s') : (∀ r ∈ b.refs, Refers u r.1 r.2) ∧
    (∀ r ∈ laterRefs s'.cx (idsBlock b), Refers u r.1 r.2) ∧ KeysAreNames u s'.cx ∧
    ∀ (i : Nat) r, s.cx.refs[i]? = some r → s'.cx.refs[i]? = some r := by
  obtain ⟨h1, h2, h3⟩ := (blocksTr (laterDecl (Steady.none u)) n).block s ⟨hs, trivial⟩ (fun _ h => by cases h) b s' h
  exact ⟨(TD.block n s b s' hs h).1, laterRefs_ok h3, h1.1, h2⟩

/-- The same for types. -/
theorem C59_type (n : Nat) (s s' : PS DS) (ty : PType (Decl Node)) (hs : KeysAreNames u s.cx)
    (h : parseType u (declEnv u) n s = .ok ty s') : (∀ r ∈ ty.refs, Refers u r.1 r.2) ∧
    (∀ r ∈ laterRefs s'.cx (idsType ty), Refers u r.1 r.2) ∧ KeysAreNames u s'.cx ∧
    ∀ (i : Nat) r, s.cx.refs[i]? = some r → s'.cx.refs[i]? = some r := by
  obtain ⟨h1, h2, h3⟩ := (typesTr (laterBase (Steady.none u)) n).type s ⟨hs, trivial⟩ (fun _ h => by cases h) ty s' h
  exact ⟨(TD.type n s ty s' hs h).1, laterRefs_ok h3, h1.1, h2⟩

/-- What a context says about the references of a tree, another one says too if the references are still there: so what is
said above about the references of a part holds in the end. -/
theorem C59_later (k k' : DS) (ts : List (TypeId (Decl Node))) (h : ∀ (i : Nat) r, k.refs[i]? = some r → k'.refs[i]? = some r) :
    ∀ r ∈ laterRefs k ts, r ∈ laterRefs k' ts := by
  intro r hr
  obtain ⟨t, ht, hr⟩ := List.mem_flatMap.1 hr
  refine List.mem_flatMap.2 ⟨t, ht, ?_⟩
  cases e : t.ref with
  | none => rw [e] at hr; cases hr
  | now d => rw [e] at hr; cases hr
  | later i =>
    rw [e] at hr
    simp only [DS.ref] at hr ⊢
    cases e' : k.refs[i]? with
    | none => rw [e'] at hr; cases hr
    | some x => rw [e'] at hr; rw [h i x e']; exact hr

/-- The same for expressions: there are no references that are set later. -/
theorem C59_expr (n : Nat) (s s' : PS DS) (e : Expr (Decl Node)) (hs : KeysAreNames u s.cx)
    (h : parseExpr u (declEnv u).toEnv n s = .ok e s') : (∀ r ∈ e.refs, Refers u r.1 r.2) ∧ KeysAreNames u s'.cx :=
  TD.expr n s e s' hs h

/-- `EmbeddedTypeDecl` returns an embedded type of the kind and with the name, up to case, and nil only if there is none. -/
theorem C59_embedded (kind : EmbKind) (name : Str) :
    (∀ d, DS.emb u kind name = some d → ∃ nm, d = ⟨nm, .embedded kind nm⟩ ∧ (kind, nm) ∈ embeddedTypes ∧ u.toUpper nm = u.toUpper name) ∧
    (DS.emb u kind name = none → ∀ nm, (kind, nm) ∈ embeddedTypes → u.toUpper nm ≠ u.toUpper name) := by
  unfold DS.emb
  cases e : embeddedTypes.find? (fun kn => kn.1 == kind && u.toUpper kn.2 == u.toUpper name) with
  | none =>
    refine ⟨fun d h => (nomatch h), fun _ nm hm hn => ?_⟩
    have := List.find?_eq_none.1 e _ hm
    simp [hn] at this
  | some kn =>
    refine ⟨fun d h => ?_, fun h => (nomatch h)⟩
    have h1 := List.find?_some e
    have h2 := List.mem_of_find?_eq_some e
    obtain ⟨kd, nm⟩ := kn
    simp only [Bool.and_eq_true, beq_iff_eq] at h1
    obtain ⟨rfl, h3⟩ := h1
    exact ⟨nm, (Option.some.inj h).symm, h2, h3⟩

example : DS.emb asciiUni .ordIdent r!"integer" = some ⟨r!"Integer", .embedded .ordIdent r!"Integer"⟩ ∧
    DS.emb asciiUni .ordIdent r!"numbers" = none := by decide

/-- In the context of a new parser the hypothesis holds. -/
theorem C59_start (path : Str) : KeysAreNames u (DS.init path) := tidy_init path

end

/-! ## What equality up to case means -/

/-- If changing the case twice is changing it once, the two names have the same letters. -/
theorem C59_lower {u : Uni} (hl : ∀ c, u.low (u.low c) = u.low c) (hu : ∀ c, u.low (u.up c) = u.low c) {i : Ident}
    {d : Decl Node} (h : Refers u i d) : u.toLower d.name = u.toLower i.name := by
  have key : ∀ {x : Str}, Recased u i.name x → u.toLower x = u.toLower i.name := by
    intro x hx
    induction hx with
    | same => rfl
    | low _ ih => rw [← ih]; simp [Uni.toLower, hl]
    | up _ ih => rw [← ih]; simp [Uni.toLower, Uni.toUpper, hu]
  rw [← key h]
  simp [Uni.toLower, hl]

theorem low_cases (c : Char) : (65 ≤ c.toNat ∧ c.toNat ≤ 90 ∧ (asciiLow c).toNat = c.toNat + 32) ∨
    (¬ (65 ≤ c.toNat ∧ c.toNat ≤ 90) ∧ asciiLow c = c) := by
  by_cases h : 65 ≤ c.toNat ∧ c.toNat ≤ 90
  · exact .inl ⟨h.1, h.2, asciiLow_upper h.1 h.2⟩
  · exact .inr ⟨h, by unfold asciiLow asciiUpper; rw [if_neg]; simpa using h⟩

theorem asciiLow_low (c : Char) : asciiLow (asciiLow c) = asciiLow c := by
  rcases low_cases c with ⟨h1, h2, h⟩ | ⟨h1, h⟩
  · exact asciiLow_lower (by omega)
  · rw [h, h]

theorem asciiLow_up (c : Char) : asciiLow (asciiUp c) = asciiLow c := by
  rcases asciiUp_cases c with ⟨h, -⟩ | ⟨h1, h2, h⟩
  · rw [h]
  · apply char_ext
    rw [asciiLow_upper (by omega) (by omega), asciiLow_lower h1]
    omega

theorem asciiLow_lt {c : Char} (h : c.toNat < 128) : (asciiLow c).toNat < 128 := by
  rcases low_cases c with ⟨h1, h2, h3⟩ | ⟨h1, h3⟩
  · omega
  · rw [h3]; exact h

theorem asciiUp_lt {c : Char} (h : c.toNat < 128) : (asciiUp c).toNat < 128 := by
  rcases asciiUp_cases c with ⟨h1, -⟩ | ⟨h1, h2, h3⟩
  · rw [h1]; exact h
  · omega

/-- For names of ASCII letters no assumption is needed. -/
theorem C59_ascii {u : Uni} {i : Ident} {d : Decl Node} (h : Refers u i d) (hi : ∀ c ∈ i.name, c.toNat < 128)
    (hd : ∀ c ∈ d.name, c.toNat < 128) : d.name.map asciiLow = i.name.map asciiLow := by
  have key : ∀ {x : Str}, Recased u i.name x → x.map asciiLow = i.name.map asciiLow ∧ ∀ c ∈ x, c.toNat < 128 := by
    intro x hx
    induction hx with
    | same => exact ⟨rfl, hi⟩
    | @low x _ ih =>
      have e : u.toLower x = x.map asciiLow := List.map_congr_left fun c hc => u.low_ascii c (ih.2 c hc)
      rw [e]
      refine ⟨by rw [← ih.1]; simp [asciiLow_low], fun c hc => ?_⟩
      obtain ⟨a, ha, rfl⟩ := List.mem_map.1 hc
      exact asciiLow_lt (ih.2 a ha)
    | @up x _ ih =>
      have e : u.toUpper x = x.map asciiUp := List.map_congr_left fun c hc => u.up_ascii c (ih.2 c hc)
      rw [e]
      refine ⟨by rw [← ih.1]; simp [asciiLow_up], fun c hc => ?_⟩
      obtain ⟨a, ha, rfl⟩ := List.mem_map.1 hc
      exact asciiUp_lt (ih.2 a ha)
  have e : u.toLower d.name = d.name.map asciiLow := List.map_congr_left fun c hc => u.low_ascii c (hd c hc)
  have := (key h).1
  rw [e] at this
  rw [← this]
  simp [asciiLow_low]

/-! ## Examples -/

/-- the names that have a reference, with the names they refer to -/
def refsRead : R (PS DS) (ProgramTree (Decl Node)) → Option (List (Str × Str))
  | .ok t _ => some (t.refs.map fun r => (r.1.name, r.2.name))
  | _ => none

example : refsRead (exProgram [(r!"p", r!"program P; uses A in 'a'; type C = class private f: INTEGER; public
    property q: t read F; end; D = class(c) private g: ^t; public property Q; end; var V: d; procedure r(i: Integer);
    begin v := I; end; begin a.X := V.f; end."),
    (r!"a", r!"unit A; interface const x = 1; type T = Integer; implementation end.")]) =
    some [(r!"Integer", r!"Integer"), (r!"INTEGER", r!"Integer"), (r!"t", r!"T"), (r!"F", r!"f"), (r!"c", r!"C"),
      (r!"t", r!"T"), (r!"Q", r!"q"), (r!"d", r!"D"), (r!"Integer", r!"Integer"), (r!"v", r!"V"), (r!"I", r!"i"),
      (r!"a", r!"A"), (r!"X", r!"x"), (r!"V", r!"V")] := by krfl

/-- the same for the references that are set later, with the number of those that are not -/
def laterRead : R (PS DS) (ProgramTree (Decl Node)) → Option (List (Str × Str) × Nat)
  | .ok t s => some ((laterRefs s.cx (idsProgram t)).map fun r => (r.1.name, r.2.name), (s.cx.refs.filter Option.isNone).length)
  | _ => none

example : laterRead (exProgram [(r!"p", r!"program P; uses A in 'a'; type Q = ^R; r = record next: q; other: ^s; end;
    procedure X; type V = ^W; W = ^R; begin y := y; end; var y: ^none; type S = Integer; begin y := y; end."),
    (r!"a", r!"unit A; interface type L = ^M; m = Integer; implementation type K = ^J; J = ^l; end.")]) =
    some ([(r!"M", r!"m"), (r!"J", r!"J"), (r!"R", r!"r"), (r!"W", r!"W")], 2) := by krfl

/-- The hypothesis about contexts is needed: with a map that has a wrong key, references are wrong. -/
def wrongKey : DS := { DS.init [] with w := { (DS.init []).w with maps := [.impl [(r!"y", ⟨r!"x", .uses 0⟩)]] } }

example : ¬ KeysAreNames asciiUni wrongKey := by
  intro h
  have := h 0 (r!"y", ⟨r!"x", .uses 0⟩) (by decide)
  revert this
  decide

end TP.Props
