import Verif.Lemmas.NoPanicUnit
import Verif.Lemmas.Rounds
import Verif.Props.C48
import Verif.Props.C50

/-!
# C36  Invalid source yields an error value, not a panic
-/

namespace TP.Props
open TP Spec

section
variable (u : Uni) (sep : Char) (files : Str → FileR) (lib : TopoLib) (it : List UParser → List Str)

/-- `ParseProgram` panics only if there is no file of that name, or the file or the file of a used unit contains something
the tokenizer does not recognise, or the file of a used unit contains the name of the unit followed by a period, or two
used files contain units of the same name.  For every correct library that sorts the units and every order of map
iteration.  What is missing: in these cases there may be a panic, and a parse may take forever. -/
theorem C36_program_partial (hlib : TopoCorrect lib) (hit : IterOK u it) (path : Str) (n : Nat)
    (h : parseProgramFile u sep files lib it path n = .panic) : BadProgram u sep files path := by
  unfold parseProgramFile at h
  cases e : files path with
  | missing => exact .inl e
  | unreadable => rw [e] at h; cases h
  | tokens ts tl =>
    rw [e] at h
    have hnil : tl = .nil → BadProgram u sep files path := fun ht => .inr (.inl ⟨ts, by rw [e, ht]⟩)
    have hf := fine_init path
    have hc : (DS.init path).cur < (DS.init path).w.ctxs.length := by simp [DS.init]
    have hw := program_fine (u := u) (sep := sep) (files := files) (lib := lib) (it := it) (cp := 0) (n := n)
      (Pp := BadProgram u sep files path) hlib hit (s := ⟨ts, tl, DS.init path⟩) hf ⟨path, 1, rfl⟩ hc hnil
      (fun es x y hx hg hb => .inr (.inr ⟨ts, tl, es, x, y, e, hx, hg, hb⟩))
    have B := hf.base (u := u) (Pp := BadProgram u sep files path) ts (tl := tl) hnil (fun _ _ h => by cases h)
    have : wp (do let _ ← P.cur?
                  parseProgram u sep files lib it 0 n : P DS _) ⟨ts, tl, DS.init path⟩ (fun _ _ => True)
        (BadProgram u sep files path) True :=
      B.cur? ⟨rfl, hf.heap hc, List.suffix_rfl⟩ hw fun _ _ => hw
    unfold wp at this
    change (P.cur? >>= fun _ => parseProgram u sep files lib it 0 n) ⟨ts, tl, DS.init path⟩ = R.panic at h
    rw [h] at this
    exact this

/-- With types that do not lead back to themselves, and closed assembler blocks, `ParseProgram` returns a tree or an error
after a number of steps that depends on the length of the files only.  What is missing: other programs. -/
theorem C36_program_returns_partial (hlib : TopoCorrect lib) (hit : IterOK u it) (path : Str) (hgood : ¬ BadProgram u sep files path)
    (rank : Str → Nat) (m : Nat) (htame : TameProgram u files rank sep m path) (n : Nat) (hn : 20 * m + 18 ≤ n) :
    (∃ t s, parseProgramFile u sep files lib it path n = .ok t s) ∨ parseProgramFile u sep files lib it path n = .err := by
  cases e : parseProgramFile u sep files lib it path n with
  | ok t s => exact .inl ⟨t, s, rfl⟩
  | err => exact .inr rfl
  | panic => exact absurd (C36_program_partial u sep files lib it hlib hit path n e) hgood
  | wait => exact absurd e (C48_program_ranked_partial u rank sep files lib it path m htame n hn)

/-- `ParseUnit` and `ParseBlock` with a parser of their own panic only on something the tokenizer does not recognise.
What is missing: there a panic is possible, and a parse may take forever. -/
theorem C36_unit_partial (ts : List Token) (tl : Tail) (path path' : Str) (n : Nat) (ht : tl ≠ .nil) :
    let k := (DS.init path).newUnitContext 0 path'
    parseUnit u k.2 n ⟨ts, tl, { k.1 with cur := k.2 }⟩ ≠ .panic := by
  intro k h
  have hf : Fine none ({ k.1 with cur := k.2 } : DS) := ((fine_init path).newUnitContext 0 path').switch _ _
  have := unit_fine (u := u) (Pp := False) (cu := k.2) (n := n) (s := ⟨ts, tl, { k.1 with cur := k.2 }⟩) hf
    (by simp [k, DS.newUnitContext, World.newMap]) (by simp [k, DS.newUnitContext, World.newMap]) ht
  unfold wp at this
  rw [h] at this
  exact this

theorem C36_block_partial (ts : List Token) (tl : Tail) (path : Str) (n : Nat) (ht : tl ≠ .nil) :
    parseBlock u (declEnv u) n ⟨ts, tl, DS.init path⟩ ≠ .panic := by
  intro h
  have := block_fine (u := u) (Pp := False) (n := n) (s := ⟨ts, tl, DS.init path⟩) (fine_init path) (by simp [DS.init]) ht
  unfold wp at this
  rw [h] at this
  exact this

end

/-! ## Panics and parses that take forever -/

/-- a question mark is not recognised -/
theorem C36_refuted_text : exProgram [(r!"p", r!"program P; begin x := ?; end.")] matches .panic := by krfl

/-- no such file -/
theorem C36_refuted_missing : exProgram [] matches .panic := by krfl

/-- a unit that mentions itself -/
def exSelf : List (Str × Str) :=
  [(r!"p", r!"program P; uses A in 'a'; begin A.x := 1; end."), (r!"a", r!"unit A; interface const x = A.x; implementation end.")]

/-- the whole file is recognised -/
def recognised : FileR → Bool
  | .tokens _ (.eof _ _) => true
  | _ => false

/-- A panic where everything is recognised: the constant of a unit is another one of the same unit, with its full name. -/
theorem C36_refuted_self : (exProgram exSelf matches .panic) ∧ recognised (exFiles exSelf r!"p") = true ∧
    recognised (exFiles exSelf r!"a") = true := by
  refine ⟨?_, ?_, ?_⟩ <;> krfl

/-- A declaration of a type by itself, and a set of that type: the block of the first line is parsed, the classification
of the type in the second one does not end, however many steps it takes. -/
theorem C36_refuted_loop :
    (exBlock r!"type A = A; type C = set of Integer; begin x := 1; end." matches .ok _ _) ∧
    (exBlock r!"type A = A; type C = set of A; begin x := 1; end." matches .wait) ∧
    match exBlock r!"type A = A; type C = set of Integer; begin x := 1; end." with
    | .ok _ s => ∃ t ∈ s.cx.types, ∀ m, Ty.is s.cx.tys .ordinal m (s.cx.ty t) = none
    | _ => False := by
  refine ⟨by krfl, by krfl, ?_⟩
  have h : (match exBlock r!"type A = A; type C = set of Integer; begin x := 1; end." with
    | .ok _ s => s.cx.types[0]?.map fun t => s.cx.ordinal t
    | _ => none) = some none := by krfl
  split
  · rename_i s e
    rw [e] at h
    obtain ⟨t, ht, hn⟩ := Option.map_eq_some_iff.1 h
    exact ⟨t, List.mem_of_getElem? ht, DS.ordinal_hang hn⟩
  · rename_i he
    revert h
    split
    · rename_i s e
      exact absurd e (he _ _)
    · nofun

/-! ## The conditions are met -/

def exGood : List (Str × Str) :=
  [(r!"p", r!"program P; uses A in 'a'; begin A.x := 1; end."), (r!"a", r!"unit A; interface const x = 1; implementation end.")]

example : exProgram exGood matches .ok _ _ := by krfl

/-- the tokens of a file -/
def toksOf : FileR → List Token
  | .tokens ts _ => ts
  | _ => []

/-- an identifier and a period -/
def dotted : List Token → Bool
  | t1 :: t2 :: ts => (decide (t1.typ = .ident) && decide (t2.raw = r!".")) || dotted (t2 :: ts)
  | _ => false

theorem dotted_of {t1 t2 : Token} (h1 : t1.typ = .ident) (h2 : t2.raw = r!".") : ∀ (a b : List Token), dotted (a ++ t1 :: t2 :: b) = true
  | [], b => by simp [dotted, h1, h2]
  | [x], b => by simp [dotted, h1, h2]
  | x :: y :: a, b => by
    have := dotted_of h1 h2 (y :: a) b
    rw [List.cons_append] at this
    simp [dotted, this]

/-- a program that is not bad and has a unit -/
example : ¬ BadProgram asciiUni '/' (exFiles exGood) r!"p" := by
  have hp : recognised (exFiles exGood r!"p") = true ∧ (toksOf (exFiles exGood r!"p")).all (fun t => t.raw ≠ r!",") = true ∧
      (toksOf (exFiles exGood r!"p")).head?.all (fun t => asciiUni.toUpper t.raw ≠ r!"UNIT") = true := by
    refine ⟨?_, ?_, ?_⟩ <;> krfl
  have ha : recognised (exFiles exGood r!"a") = true ∧ dotted (toksOf (exFiles exGood r!"a")) = false := by
    refine ⟨?_, ?_⟩ <;> krfl
  have hfile : ∀ {p ts tl}, exFiles exGood p = .tokens ts tl → (p = r!"p" ∨ p = r!"a") ∧ recognised (.tokens ts tl) = true := by
    intro p ts tl e
    have : p = r!"p" ∨ p = r!"a" := by
      by_contra hn
      rw [not_or] at hn
      have : exFiles exGood p = .missing := by
        simp [exFiles, exGood, List.find?, beq_eq_false_iff_ne.2 (Ne.symm hn.1), beq_eq_false_iff_ne.2 (Ne.symm hn.2)]
      rw [this] at e; cases e
    refine ⟨this, ?_⟩
    rw [← e]
    rcases this with rfl | rfl
    · exact hp.1
    · exact ha.1
  rintro (h | ⟨ts, h⟩ | ⟨ts, tl, es, x, y, h, hx, ⟨z, ⟨t0, rfl, -⟩, hg⟩, hb⟩)
  · rw [h] at hp; exact absurd hp.1 (by decide)
  · exact absurd (hfile h).2 (by simp [recognised])
  rw [h] at hp
  have comma : ∀ t ∈ t0 :: z, t.raw ≠ r!"," := fun t ht => by
    have := List.all_eq_true.1 hp.2.1 t (hx.subset ht)
    simpa using this
  rcases hb with ⟨p, -, ts', h'⟩ | ⟨p, -, ts', tl', hd, rest, a, t1, t2, b, h', hn, e, c1, -, c2⟩ | ⟨i, j, hij, p, q, h1, h2, -⟩
  · exact absurd (hfile h').2 (by simp [recognised])
  · rcases (hfile h').1 with rfl | rfl
    · rw [h] at h'; cases h'
      obtain ⟨_, ⟨t, rfl, ht⟩, -⟩ := hn
      have := hp.2.2
      simp only [toksOf, List.head?_cons, Option.all_some, decide_eq_true_eq] at this
      exact this ht.2
    · rw [h'] at ha
      have := dotted_of c1 c2.2 a b
      rw [← e] at this
      exact absurd (ha.2.symm.trans this) (by decide)
  · cases es with
    | nil => exact hg
    | cons e1 es =>
      cases es with
      | nil =>
        have hl : (usedFiles '/' [e1]).length ≤ 1 := by
          unfold usedFiles
          exact (List.length_filter_le _ _).trans (by simp)
        have := (List.getElem?_eq_some_iff.1 h2).1
        omega
      | cons e2 es =>
        obtain ⟨w, ⟨_, ⟨t1, rfl, -⟩, hw⟩, ⟨hc, -⟩ | ⟨_, ⟨t3, rfl, ht3⟩, -⟩⟩ := hg
        · cases hc
        refine comma t3 (List.mem_cons_of_mem _ (List.mem_cons_of_mem _ ?_)) ht3.2
        cases hpath : e1.path with
        | none => rw [hpath] at hw; rw [show _ = _ from hw]; exact List.mem_cons_self
        | some pth =>
          rw [hpath] at hw
          obtain ⟨_, ⟨t2, rfl, -⟩, t4, rfl, -⟩ := hw
          simp

/-- a check of a file -/
def tameB (u : Uni) (rank : Str → Nat) (m : Nat) : FileR → Bool
  | .tokens _ .hang => false
  | .tokens ts _ => ts.all (fun t => u.toUpper t.raw != r!"ASM") && rankedB u rank ts && decide (ts.length ≤ m)
  | _ => true

theorem tame_of {u : Uni} {rank : Str → Nat} {m : Nat} {files : Str → FileR} {p : Str} (h : tameB u rank m (files p) = true) :
    TameFile u files rank m p := by
  intro ts tl e
  rw [e] at h
  have key : tl ≠ .hang → (ts.all (fun t => u.toUpper t.raw != r!"ASM") && rankedB u rank ts && decide (ts.length ≤ m)) = true →
      tl ≠ .hang ∧ AsmClosed u ts ∧ Ranked u rank ts ∧ ts.length ≤ m := by
    intro ht h
    simp only [Bool.and_eq_true, decide_eq_true_eq] at h
    refine ⟨ht, fun t rest hs hk => ?_, ranked_of h.1.2, h.2⟩
    have := List.all_eq_true.1 h.1.1 t (hs.mem List.mem_cons_self)
    simp [hk.2] at this
  cases tl with
  | hang => cases h
  | _ => exact key (fun h => by cases h) h

/-- classes and an alias in two files -/
def exTame : List (Str × Str) :=
  [(r!"p", r!"program P; uses A in 'a'; type TSub = class(TBase) end; var x: TSub; begin x := y; end."),
    (r!"a", r!"unit A; interface type TBase = class; TKey = Integer; TBase = class next: TBase; key: TKey; end; implementation end.")]

example : exProgram exTame matches .ok _ _ := by krfl

example : TameProgram asciiUni (exFiles exTame) (placeIn [r!"tkey", r!"tbase", r!"tsub"]) '/' 60 r!"p" := by
  have all : ∀ p, TameFile asciiUni (exFiles exTame) (placeIn [r!"tkey", r!"tbase", r!"tsub"]) 60 p := by
    intro p
    apply tame_of
    by_cases h1 : p = r!"p"
    · subst h1; krfl
    by_cases h2 : p = r!"a"
    · subst h2; krfl
    have : exFiles exTame p = .missing := by
      simp [exFiles, exTame, List.find?, beq_eq_false_iff_ne.2 (Ne.symm h1), beq_eq_false_iff_ne.2 (Ne.symm h2)]
    rw [this]
    rfl
  exact ⟨all _, fun _ _ _ _ _ _ _ _ p _ => all p⟩

example : exProgram [(r!"p", r!"program P; begin x := ; end.")] matches .err := by krfl
example : exUnit r!"unit U; interface type = 1; implementation end." matches .err := by krfl
example : exBlock r!"type A = ; begin x := 1; end." matches .err := by krfl

end TP.Props
