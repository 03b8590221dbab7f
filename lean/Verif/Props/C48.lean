import Verif.Lemmas.Acyclic
import Verif.Lemmas.NamedGoal
import Verif.Props.C46
import Verif.Props.C47

/-!
# C48  Parsing of types, declarations and blocks terminates

False if types refer to each other in a circle: the search for a member of a class, or for the type behind a name, then
runs in that circle.
-/

namespace TP.Props
open TP Spec

section
variable {κ δ : Type} (u : Uni) (D : DEnv κ δ)

/-- The searches through types return in every context. -/
structure Searches : Prop where
  ordinal : ∀ c ty, D.ordinal c ty ≠ none
  findMember : ∀ c h ms name, D.findMember c h ms name ≠ .hang
  findProp : ∀ c h ms name, D.findProp c h ms name ≠ .hang

theorem endsBase (hD : Searches D) {tl : Tail} (htl : tl ≠ .hang) :
    DBase u D (fun _ => True) (AsmClosed u) tl True False :=
  DStep.base {
    roll _ _ := trivial
    nil _ := trivial
    hang := htl
    ns _ _ _ _ _ _ _ _ _ _ _ _ := trivial
    set c _ is k _ := by cases D.set c is k <;> trivial
    newRef _ _ _ := trivial
    ordinal c _ ty h := hD.ordinal c ty h
    findMember c _ a b n h := hD.findMember c a b n h
    findProp c _ a b n h := hD.findProp c a b n h
    good _ _ := asmClosed_tail u
    asm t ts h ht hno := by
      obtain ⟨x, h1, h2⟩ := h t ts List.suffix_rfl ht
      exact hno x h1 h2 }
    (.any (fun c _ i ty => by cases D.set c [i] (.type ty) <;> trivial) (fun c _ d i ty => by cases D.complete c d i ty <;> trivial))
    (fun _ _ => trivial) (fun _ _ _ _ => trivial) (fun _ _ => trivial) (fun _ _ => trivial) (fun _ _ _ _ => trivial)

variable {u D}

theorem sound_ends {α : Type} {p : P κ α} {G : α → Rd} {n r : Nat} {s : PS κ} (hasm : AsmClosed u s.ts)
    (hp : TSound (fun _ => True) (AsmClosed u) s.tail True False p G n r) (hn : 20 * s.ts.length + r ≤ n) :
    p s ≠ .wait := by
  intro e
  have := hp s ⟨rfl, trivial, hasm⟩ (fun h => absurd hn (by omega))
  unfold wp at this
  rw [e] at this
  exact this

variable (u D)

/-- The parser returns from every finite token stream in which the assembler blocks are closed: an explicit number of
steps suffices.  What is missing: the searches through the types have to return (refuted below for the contexts of the
code), and unclosed assembler blocks (C46). -/
theorem C48_block_partial (hD : Searches D) (s : PS κ) (htail : s.tail ≠ .hang) (hasm : AsmClosed u s.ts) (n : Nat)
    (hn : 20 * s.ts.length + 18 ≤ n) : parseBlock u D n s ≠ .wait :=
  sound_ends hasm (allDecls (endsBase u D hD htail) n).block hn

theorem C48_type_partial (hD : Searches D) (s : PS κ) (htail : s.tail ≠ .hang) (hasm : AsmClosed u s.ts) (n : Nat)
    (hn : 20 * s.ts.length + 10 ≤ n) : parseType u D n s ≠ .wait :=
  sound_ends hasm (allTypes (endsBase u D hD htail) n).type hn

/-- Statements with the type parser of the code: what C46 assumes of the type parser holds. -/
theorem C48_statement_partial (hD : Searches D) (s : PS κ) (htail : s.tail ≠ .hang) (hasm : AsmClosed u s.ts) (n : Nat)
    (hn : 10 * s.ts.length + 9 ≤ n) : parseStmt u (D.senv u) n s ≠ .wait := by
  intro e
  have := (stmt_sound (endsBase u D hD htail).s n).stmt s s.cx ⟨rfl, trivial, hasm⟩ (fun h => absurd hn (by omega))
  unfold wp at this
  rw [e] at this
  exact this

end

/-! ## Without type declarations

The searches return in the contexts of the code as long as no types are declared, if no declared type leads back to itself. -/

theorem noTypesBase (u : Uni) {k0 : DS} (hk : Acyclic k0) {tl : Tail} (htl : tl ≠ .hang) :
    DBase u (declEnv u) (SameTypes k0) (fun ts => AsmClosed u ts ∧ NoTypeWord u ts) tl True False :=
  sameBase u hk htl (fun t _ h => ⟨asmClosed_tail u h.1, fun x hx => h.2 x (List.mem_cons_of_mem t hx)⟩) (fun _ h => h.2)
    fun t ts h ht => h.1 t ts List.suffix_rfl ht

theorem noTypes_ends {u : Uni} {α : Type} {p : P DS α} {G : α → Rd} {n r : Nat} {s : PS DS} (hasm : AsmClosed u s.ts)
    (hno : NoTypeWord u s.ts)
    (hp : TSound (SameTypes s.cx) (fun ts => AsmClosed u ts ∧ NoTypeWord u ts) s.tail True False p G n r)
    (hn : 20 * s.ts.length + r ≤ n) : p s ≠ .wait := by
  intro e
  have := hp s ⟨rfl, ⟨rfl, List.prefix_rfl⟩, hasm, hno⟩ (fun h => absurd hn (by omega))
  unfold wp at this
  rw [e] at this
  exact this

/-- A block in which the word `TYPE` does not occur: constants, variables, procedures, statements, with types of any kind.
What is missing: blocks with type sections. -/
theorem C48_block_no_types_partial (u : Uni) (s : PS DS) (hk : Acyclic s.cx) (htail : s.tail ≠ .hang) (hasm : AsmClosed u s.ts)
    (hno : ∀ t ∈ s.ts, ¬ IsKw u r!"TYPE" t) (n : Nat) (hn : 20 * s.ts.length + 18 ≤ n) :
    parseBlock u (declEnv u) n s ≠ .wait :=
  noTypes_ends hasm hno (allDecls (noTypesBase u hk htail) n).block hn

theorem C48_type_no_types_partial (u : Uni) (s : PS DS) (hk : Acyclic s.cx) (htail : s.tail ≠ .hang) (hasm : AsmClosed u s.ts)
    (hno : ∀ t ∈ s.ts, ¬ IsKw u r!"TYPE" t) (n : Nat) (hn : 20 * s.ts.length + 10 ≤ n) :
    parseType u (declEnv u) n s ≠ .wait :=
  noTypes_ends hasm hno (allTypes (noTypesBase u hk htail) n).type hn

theorem C48_statement_no_types_partial (u : Uni) (s : PS DS) (hk : Acyclic s.cx) (htail : s.tail ≠ .hang) (hasm : AsmClosed u s.ts)
    (hno : ∀ t ∈ s.ts, ¬ IsKw u r!"TYPE" t) (n : Nat) (hn : 10 * s.ts.length + 9 ≤ n) :
    parseStmt u ((declEnv u).senv u) n s ≠ .wait := by
  intro e
  have := (stmt_sound (noTypesBase u hk htail).s n).stmt s s.cx ⟨rfl, ⟨rfl, List.prefix_rfl⟩, hasm, hno⟩
    (fun h => absurd hn (by omega))
  unfold wp at this
  rw [e] at this
  exact this

/-! ## With type declarations

The names of the types can be ranked: a type that is another one, a set or a file of one, or a class with ancestors, has
a greater rank than those.  Then no type leads back to itself, whatever else is declared. -/

section
variable (u : Uni) (rank : Str → Nat)

/-- What is missing: texts in which types lead back to their own names (refuted below), and unclosed assembler blocks. -/
theorem C48_block_ranked_partial (ts : List Token) (tl : Tail) (path : Str) (htail : tl ≠ .hang) (hasm : AsmClosed u ts)
    (hr : Ranked u rank ts) (n : Nat) (hn : 20 * ts.length + 18 ≤ n) : parseBlock u (declEnv u) n ⟨ts, tl, DS.init path⟩ ≠ .wait := by
  intro e
  have := (allDecls (namedBase (u := u) (rank := rank) [] [] htail) n).block ⟨ts, tl, DS.init path⟩
    ⟨rfl, (named_init path).by, hasm, hr⟩ (fun h => by have : n < 20 * ts.length + 18 := h; omega)
  unfold wp at this
  rw [e] at this
  exact this

/-- `ParseUnit` with a parser of its own -/
theorem C48_unit_ranked_partial (ts : List Token) (tl : Tail) (path path' : Str) (htail : tl ≠ .hang) (hasm : AsmClosed u ts)
    (hr : Ranked u rank ts) (n : Nat) (hn : 20 * ts.length + 17 ≤ n) :
    let k := (DS.init path).newUnitContext 0 path'
    parseUnit u k.2 n ⟨ts, tl, { k.1 with cur := k.2 }⟩ ≠ .wait := by
  intro k e
  have h : Named u rank [] [] ({ k.1 with cur := k.2 } : DS) := ((named_init path).newUnitContext 0 path').same rfl rfl rfl rfl
  have := unit_named htail (cu := k.2) (n := n) (s := ⟨ts, tl, { k.1 with cur := k.2 }⟩) ⟨rfl, ⟨hasm, hr⟩, h⟩ hn
  unfold wp at this
  rw [e] at this
  exact this

/-- `ParseProgram`: one ranking for the file of the program and the files of the units in its uses clause -/
theorem C48_program_ranked_partial (sep : Char) (files : Str → FileR) (lib : TopoLib) (it : List UParser → List Str) (path : Str)
    (m : Nat) (h : TameProgram u files rank sep m path) (n : Nat) (hn : 20 * m + 18 ≤ n) :
    parseProgramFile u sep files lib it path n ≠ .wait := by
  intro hw
  unfold parseProgramFile at hw
  cases e : files path with
  | missing => rw [e] at hw; cases hw
  | unreadable => rw [e] at hw; cases hw
  | tokens ts tl =>
    rw [e] at hw
    obtain ⟨h1, h2, h3, h4⟩ := h.1 ts tl e
    have start : NIn u rank tl [] [] ⟨ts, tl, DS.init path⟩ := ⟨rfl, ⟨h2, h3⟩, named_init path⟩
    have := (namedBase (u := u) (rank := rank) [] [] h1).cur? start.in (f := fun _ => parseProgram u sep files lib it 0 n)
      (Q := fun _ _ => True) (program_named hn (named_init path) h1 ⟨h2, h3⟩ h4 (fun es x y hx hy => h.2 ts tl es x y e hx hy))
      (fun _ _ => program_named hn (named_init path) h1 ⟨h2, h3⟩ h4 (fun es x y hx hy => h.2 ts tl es x y e hx hy))
    unfold wp at this
    change (P.cur? >>= fun _ => parseProgram u sep files lib it 0 n) ⟨ts, tl, DS.init path⟩ = R.wait at hw
    rw [hw] at this
    exact this

end

/-! ## Refutations and examples -/

/-- a context with types that do not lead back to themselves -/
example : Acyclic (DS.init []) := ⟨⟨fun _ => 0, fun _ _ ⟨_, _, _, h, _⟩ => by cases h⟩, fun _ h => by cases h⟩

/-- the types of `type A = Integer; B = set of A;` -/
example (i : Ident) : Acyclic { DS.init [] with
    types := [.id ⟨none, i, .now ⟨r!"Integer", .embedded .ordIdent r!"Integer"⟩⟩,
      .set false (.id ⟨none, i, .now ⟨r!"A", .type 0⟩⟩)] } := by
  refine ⟨⟨id, fun a b ⟨ty, t, name, h1, h2, h3⟩ => ?_⟩, fun ty h t ht j e => ?_⟩
  · match a with
    | 0 => cases h1; cases List.mem_singleton.1 h2; cases h3
    | 1 => cases h1; cases List.mem_singleton.1 h2; cases h3; exact Nat.one_pos
    | a + 2 => cases h1
  · rcases List.mem_cons.1 h with rfl | h
    · cases List.mem_singleton.1 ht; cases e
    · cases List.mem_singleton.1 h; cases List.mem_singleton.1 ht; cases e

/-- a text with types, but without the words `TYPE` and `ASM` -/
def exNoTypes : Str :=
  r!"const c = 1; var x: set of (a, b); y: array[1..2] of Foo; procedure p(i: Integer); begin y := i; end; begin p(c); end."

example (n : Nat) (hn : 1500 ≤ n) : exBlock exNoTypes n ≠ .wait := by
  have h1 : (exText exNoTypes).cx = DS.init [] := by krfl
  have h2 : (match (exText exNoTypes).tail with | .hang => false | _ => true) = true := by krfl
  have h3 : (exText exNoTypes).ts.all (fun t => !(t.typ == .reserved) ||
      (asciiUni.toUpper t.raw != r!"TYPE" && asciiUni.toUpper t.raw != r!"ASM")) = true := by krfl
  have h4 : decide (20 * (exText exNoTypes).ts.length + 18 ≤ 1500) = true := by krfl
  have h5 : ∀ t ∈ (exText exNoTypes).ts, ¬ IsKw asciiUni r!"TYPE" t ∧ ¬ IsKw asciiUni r!"ASM" t := by
    intro t ht
    have := List.all_eq_true.1 h3 t ht
    constructor <;> rintro ⟨e1, e2⟩ <;> simp [e1, e2] at this
  refine C48_block_no_types_partial _ _ ?_ (fun h => by rw [h] at h2; cases h2) ?_ (fun t ht => (h5 t ht).1) n (Nat.le_trans (of_decide_eq_true h4) hn)
  · rw [h1]
    exact ⟨⟨fun _ => 0, fun _ _ ⟨_, _, _, h, _⟩ => by cases h⟩, fun _ h => by cases h⟩
  · intro t ts h ht
    exact ((h5 t (h.mem List.mem_cons_self)).2 ht).elim

/-! The ranking of a text can be checked. -/

/-- the words and signs after which the declaration of a type may begin -/
def beginsType (u : Uni) (t : Token) : Bool :=
  (t.typ == .reserved && u.toUpper t.raw == r!"TYPE") || (t.typ == .symbol && t.raw == r!";")

def rankedB (u : Uni) (rank : Str → Nat) : List Token → Bool
  | prev :: x :: eq :: rest =>
    (!(beginsType u prev && x.typ == .ident && eq.raw == r!"=") ||
      (follows u rest).all fun name => decide (rank (u.toLower name) < rank (u.toLower x.raw))) && rankedB u rank (x :: eq :: rest)
  | _ => true

theorem ranked_of {u : Uni} {rank : Str → Nat} : ∀ {ts : List Token}, rankedB u rank ts = true → Ranked u rank ts
  | [], _ => fun _ _ _ _ h => by have := h.length_le; simp at this
  | [_], _ => fun _ _ _ _ h => by have := h.length_le; simp at this
  | [_, _], _ => fun _ _ _ _ h => by have := h.length_le; simp at this
  | a :: b :: c :: ts, h => by
    rw [rankedB, Bool.and_eq_true] at h
    intro prev x eq rest hs hp hx he name hn
    rcases List.suffix_cons_iff.1 hs with hs | hs
    · cases hs
      have hb : beginsType u a = true := by
        unfold beginsType
        rcases hp with ⟨h1, h2⟩ | ⟨h1, h2⟩
        · simp [h1, h2]
        · simp [h1, h2]
      have he2 : c.raw = r!"=" := he.2
      simp only [hb, hx, he2, beq_self_eq_true, Bool.and_self, Bool.not_true, Bool.false_or] at h
      exact of_decide_eq_true (List.all_eq_true.1 h.1 name hn)
    · exact ranked_of h.2 prev x eq rest hs hp hx he name hn

/-- the rank of a name is its place in a list -/
def placeIn (l : List Str) (name : Str) : Nat := if name ∈ l then l.idxOf name + 1 else 0

theorem at_init {α : Type} {p : P DS α} {s : PS DS} {path : Str} (h : s.cx = DS.init path)
    (hp : p ⟨s.ts, s.tail, DS.init path⟩ ≠ .wait) : p s ≠ .wait := by
  rw [← h] at hp; exact hp

/-- a forward declaration of a class, a class that refers to itself in a member, descendants, aliases, sets -/
def exRanked : Str :=
  r!"type TKind = (a, b); TBase = class; TKinds = set of TKind; TBase = class next: TBase; end; TItem = class(TBase) public property Next2: TBase read next; end; TSame = TItem; var x: TSame; begin x := y; end."

example (n : Nat) (hn : 2000 ≤ n) : exBlock exRanked n ≠ .wait := by
  have h1 : (exText exRanked).cx = DS.init [] := by krfl
  have h2 : (match (exText exRanked).tail with | .hang => false | _ => true) = true := by krfl
  have h3 : (exText exRanked).ts.all (fun t => asciiUni.toUpper t.raw != r!"ASM") = true := by krfl
  have h4 : decide (20 * (exText exRanked).ts.length + 18 ≤ 2000) = true := by krfl
  have h5 : rankedB asciiUni (placeIn [r!"tkind", r!"tkinds", r!"tbase", r!"titem", r!"tsame"]) (exText exRanked).ts = true := by krfl
  have := C48_block_ranked_partial asciiUni _ (exText exRanked).ts (exText exRanked).tail [] (fun h => by rw [h] at h2; cases h2)
    (fun t ts h ht => by
      have := List.all_eq_true.1 h3 t (h.mem List.mem_cons_self)
      rw [ht.2] at this; cases this)
    (ranked_of h5) n (Nat.le_trans (of_decide_eq_true h4) hn)
  exact at_init h1 this

/-- it is parsed -/
example : exBlock exRanked 2000 matches .ok _ _ := by krfl

/-- not returned -/
def isWait {κ α : Type} : R (PS κ) α → Bool
  | .wait => true
  | _ => false

theorem isWait_iff {κ α : Type} {r : R (PS κ) α} : isWait r = true ↔ r = .wait := by
  cases r <;> simp [isWait]

/-- The type of `A` is `A`.  In a later section the parser asks whether `A` is ordinal, and does not return. -/
theorem C48_refuted_alias (n : Nat) : exBlock r!"type A = A; type C = set of A;" n = .wait := by
  rw [← isWait_iff]
  by_cases h : n < 30
  · have : ∀ n : Fin 30, isWait (exBlock r!"type A = A; type C = set of A;" n) = true := by decide +kernel
    exact this ⟨n, h⟩
  · obtain ⟨m, rfl⟩ : ∃ m, n = m + 30 := ⟨n - 30, by omega⟩
    krfl

/-- The class `A` is its own ancestor; then a search for a member of a descendant does not return. -/
theorem C48_refuted_class (n : Nat) :
    exBlock r!"type A = class(A) end; type B = class(A) public property X: Char read F; end;" n = .wait := by
  rw [← isWait_iff]
  by_cases h : n < 60
  · have : ∀ n : Fin 60, isWait (exBlock
        r!"type A = class(A) end; type B = class(A) public property X: Char read F; end;" n) = true := by decide +kernel
    exact this ⟨n, h⟩
  · obtain ⟨m, rfl⟩ : ∃ m, n = m + 60 := ⟨n - 60, by omega⟩
    krfl

end TP.Props
