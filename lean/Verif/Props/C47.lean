import Verif.Basic.Kernel
import Verif.Lemmas.DeclSound
import Verif.Lemmas.TextTokens
import Verif.Model.DeclEnv

/-!
# C47  Types, declarations and blocks are read off their tokens

False in one place: a type declaration that does not end with a semicolon loses one token, and the word `type` in
`T = type U` leaves no trace.
-/

namespace TP.Props
open TP Spec

section
variable {κ δ : Type} (u : Uni) (D : DEnv κ δ)

/-- nothing is known about the context, and the parser may panic or not return -/
theorem anyBase (tl : Tail) : DBase u D (fun _ => True) (fun _ => True) tl True True :=
  DStep.base {
    roll _ _ := trivial
    nil _ := trivial
    hang _ := trivial
    ns _ _ _ _ _ _ _ _ _ _ _ _ := trivial
    set c _ is k _ := by cases D.set c is k <;> trivial
    newRef _ _ _ := trivial
    ordinal _ _ _ _ := trivial
    findMember _ _ _ _ _ _ := trivial
    findProp _ _ _ _ _ _ := trivial
    good _ _ _ := trivial
    asm _ _ _ _ _ := trivial }
    (.any (fun c _ i ty => by cases D.set c [i] (.type ty) <;> trivial) (fun c _ d i ty => by cases D.complete c d i ty <;> trivial))
    (fun _ _ => trivial) (fun _ _ _ _ => trivial) (fun _ _ => trivial) (fun _ _ => trivial) (fun _ _ _ _ => trivial)

variable {u D}

theorem sound_ok {α : Type} {p : P κ α} {G : α → Rd} {n r : Nat} {s s' : PS κ} {a : α}
    (hp : TSound (fun _ => True) (fun ts => True ∧ ts <:+ s.ts) s.tail True True p G n r) (h : p s = .ok a s') :
    s'.tail = s.tail ∧ s'.ts <:+ s.ts ∧ G a s.ts s'.ts := by
  have := hp s ⟨rfl, trivial, trivial, List.suffix_rfl⟩ (fun _ => trivial)
  unfold wp at this
  rw [h] at this
  exact ⟨this.1.tail, this.1.good.2, this.2.2⟩

variable (u D)

/-- The tokens between the state before and the state after a type are those of the type, in order.  For every context,
whatever it answers.  What is missing: the grammar is that of the comments with the deviations listed in
`Verif/Spec/Type.lean`. -/
theorem C47_type_partial (n : Nat) (s s' : PS κ) (ty : PType δ) (h : parseType u D n s = .ok ty s') :
    s'.tail = s.tail ∧ s'.ts <:+ s.ts ∧ gType u ty s.ts s'.ts :=
  sound_ok (allTypes ((anyBase u D s.tail).from s.ts) n).type h

/-- The same for blocks, and for the declarations in them.  What is missing: the deviations listed in
`Verif/Spec/Decl.lean`, in particular the lost token. -/
theorem C47_block_partial (n : Nat) (s s' : PS κ) (b : Block δ) (h : parseBlock u D n s = .ok b s') :
    s'.tail = s.tail ∧ s'.ts <:+ s.ts ∧ gBlock u (D.senv u) b s.ts s'.ts :=
  sound_ok (allDecls ((anyBase u D s.tail).from s.ts) n).block h

/-- The same for the headings of the interface part. -/
theorem C47_heading_partial (n : Nat) (s s' : PS κ) (h : Heading δ × RoutineOpts)
    (e : parseExportedHeading u D n s = .ok h s') :
    s'.tail = s.tail ∧ s'.ts <:+ s.ts ∧ (gHeading u h.1 ▹ symR u r!";" ▹ gRoutineOpts u h.2) s.ts s'.ts :=
  have := sound_ok (exportedHeading_sound ((anyBase u D s.tail).from s.ts) n) e
  ⟨this.1, this.2.1, this.2.2.1⟩

end

/-! ## Examples -/

/-- the tree -/
def treeRead {κ α : Type} : R (PS κ) α → Option α
  | .ok a _ => some a
  | _ => none

/-- the texts of the tokens left -/
def textLeft {κ α : Type} : R (PS κ) α → Option (List Str)
  | .ok _ s => some (s.ts.map Token.raw)
  | _ => none

/-- a new parser of a program in front of a text, and what the text is lexed to -/
def exText (text : Str) : PS DS :=
  match lex asciiUni text 400 with
  | some (ts, tl) => ⟨ts, tl, DS.init []⟩
  | none => ⟨[], .hang, DS.init []⟩

/-- a block of such a text -/
def exBlock (text : Str) (n : Nat := 400) : R (PS DS) (Block (Decl Node)) :=
  parseBlock asciiUni (declEnv asciiUni) n (exText text)

example : textLeft (exBlock r!"type T = (a, b); U = array[T] of set of Char; P = ^Q; Q = class(P) private f: U; public
  property x: U read f; end; const c: Integer = 1; var v, w: T; procedure r(i: Integer); stdcall; begin v := i; end;
  begin r(1); end.") = some [r!"."] := by krfl

/-- the block with the only declaration `T = Integer`, with the positions of the two identifiers -/
def exT (p q : Pos) (p' q' : Pos) : Block (Decl Node) :=
  .mk (.cons (.type [⟨⟨r!"T", p, q⟩, .id ⟨none, ⟨r!"Integer", p', q'⟩, .now ⟨r!"Integer", .embedded .ordIdent r!"Integer"⟩⟩,
    none⟩]) .nil) [] none

/-- A token of the text is not in the tree: `T = Integer platform` and `T = Integer` give the same tree, and so do
`T = type Integer` and `T =      Integer`. -/
theorem C47_refuted :
    treeRead (exBlock r!"type T = Integer platform;") = some (exT ⟨1, 6, 5⟩ ⟨1, 7, 6⟩ ⟨1, 10, 9⟩ ⟨1, 17, 16⟩) ∧
    treeRead (exBlock r!"type T = Integer;") = some (exT ⟨1, 6, 5⟩ ⟨1, 7, 6⟩ ⟨1, 10, 9⟩ ⟨1, 17, 16⟩) ∧
    treeRead (exBlock r!"type T = type Integer;") = some (exT ⟨1, 6, 5⟩ ⟨1, 7, 6⟩ ⟨1, 15, 14⟩ ⟨1, 22, 21⟩) ∧
    treeRead (exBlock r!"type T =      Integer;") = some (exT ⟨1, 6, 5⟩ ⟨1, 7, 6⟩ ⟨1, 15, 14⟩ ⟨1, 22, 21⟩) := by
  refine ⟨?_, ?_, ?_, ?_⟩ <;> krfl

/-- Even the `begin` of the body may be the lost token: the block ends in front of the `end`. -/
theorem C47_refuted_begin : textLeft (exBlock r!"type T = Integer begin end.") =
    some [r!"end", r!"."] := by krfl

/-- `exText` is what the parser gets for such a text -/
example : Delivers asciiUni doubleSymbols (Cursor.new r!"type T = Integer;") (exText r!"type T = Integer;").ts
    (exText r!"type T = Integer;").tail :=
  lex_delivers (n := 400) (by krfl)

end TP.Props
