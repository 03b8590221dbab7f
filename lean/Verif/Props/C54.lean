import Verif.Lemmas.SpellTok
import Verif.Props.C49

/-!
# C54  Layout, comments and the case of words do not matter

The property is about whole programs: the file of the program and the files of the units it uses.
-/

namespace TP.Props
open TP Spec

section
variable (u : Uni) (sep : Char) (files files' : Str → FileR) (lib : TopoLib) (it it' : List UParser → List Str)

/-- Two sets of files whose texts have the same tokens, up to the case of ASCII letters in words: wherever the tokens are and
whatever comments are between them, `ParseProgram` does the same for both sets of files (returns a program, or an error, or
panics, or does not return), and the programs it returns are the same up to positions and the case of words.  Go's random order
of maps is any order, but the same one for both calls. -/
theorem C54_layout (hfiles : ∀ p, SameFile u (files p) (files' p)) (hit : SameOrder u it it') (path : Str) (n : Nat) :
    seen (ProgramTree.tr Spell.plain.tr) (parseProgramFile u sep files lib it path n) =
      seen (ProgramTree.tr Spell.plain.tr) (parseProgramFile u sep files' lib it' path n) := by
  have G := Spell.plain_good u
  refine RR.seen (w := False) (program_rel G (fun p => SameFile.rel (hfiles p)) (SameOrder.rel G hit) path (Nat.le_refl n)) fun hw => ?_
  have hs : ∀ p, SameFile u (files' p) (files p) := fun p => SameFile.symm (hfiles p)
  exact RR.wait_of (w := False) hw (program_rel G (fun p => SameFile.rel (hs p)) (SameOrder.rel G (SameOrder.symm hit)) path (Nat.le_refl n))

/-- If only the case of ASCII letters outside of string literals is changed, the positions in the program are the same, too. -/
theorem C54_case (hfiles : ∀ p, SameCase u (files p) (files' p)) (hit : SameOrder u it it') (path : Str) (n : Nat) :
    seen (ProgramTree.tr Spell.caseless.tr) (parseProgramFile u sep files lib it path n) =
      seen (ProgramTree.tr Spell.caseless.tr) (parseProgramFile u sep files' lib it' path n) := by
  have G := Spell.caseless_good u
  refine RR.seen (w := False) (program_rel G (fun p => SameCase.rel (hfiles p)) (SameOrder.rel G hit) path (Nat.le_refl n)) fun hw => ?_
  have hs : ∀ p, SameCase u (files' p) (files p) := fun p => SameCase.symm (hfiles p)
  exact RR.wait_of (w := False) hw (program_rel G (fun p => SameCase.rel (hs p)) (SameOrder.rel G (SameOrder.symm hit)) path (Nat.le_refl n))

end

/-! ## Examples -/

/-- the order of the examples satisfies the hypothesis -/
example : SameOrder asciiUni exIter exIter := fun _ _ h => h

/-- the texts have the same tokens, computed -/
def exSame (x y : Str) : Bool :=
  match lex asciiUni x 400, lex asciiUni y 400 with
  | some (ts, .eof _ _), some (ts', .eof _ _) =>
    go ts ts'
  | _, _ => false
where
  go : List Token → List Token → Bool
  | [], [] => true
  | a :: l, b :: l' => decide (a.typ = b.typ) && (decide (a.raw = b.raw) ||
      ((decide (a.typ = .ident) || decide (a.typ = .reserved)) && decide (a.raw.map asciiUp = b.raw.map asciiUp))) && go l l'
  | _, _ => false

theorem exSame_go : ∀ {l l' : List Token}, exSame.go l l' = true → List.Forall₂ SameToken l l'
  | [], [], _ => .nil
  | a :: l, b :: l', h => by
    simp only [exSame.go, Bool.and_eq_true, Bool.or_eq_true, decide_eq_true_eq] at h
    exact .cons ⟨h.1.1, h.1.2⟩ (exSame_go h.2)

theorem exSame_files : ∀ {l l' : List (Str × Str)}, List.Forall₂ (fun e f => e.1 = f.1 ∧ exSame e.2 f.2 = true) l l' →
    ∀ p, SameFile asciiUni (exFiles l p) (exFiles l' p)
  | [], [], _, p => .missing
  | (a, x) :: l, (b, y) :: l', .cons ⟨h1, h2⟩ h, p => by
    have ih := exSame_files h p
    simp only at h1 h2
    subst h1
    unfold exFiles at ih ⊢
    rw [List.find?_cons, List.find?_cons]
    cases e : (a == p) with
    | false => exact ih
    | true =>
      simp only
      unfold exSame at h2
      cases e1 : lex asciiUni x 400 with
      | none => rw [e1] at h2; cases h2
      | some r =>
        obtain ⟨ts, tl⟩ := r
        cases e2 : lex asciiUni y 400 with
        | none => rw [e1, e2] at h2; cases tl <;> cases h2
        | some r' =>
          obtain ⟨ts', tl'⟩ := r'
          rw [e1, e2] at h2
          cases tl <;> cases tl' <;> simp only at h2 <;> first | cases h2 | skip
          exact .tokens (List.Perm.refl _) (List.Perm.refl _) (lex_delivers e1) (lex_delivers e2) (exSame_go h2) trivial

/-- a program and a unit -/
def exLayout : List (Str × Str) :=
  [(r!"p", r!"program P; uses A in 'a'; var x: Integer; begin x := A.c + 1; WriteLn('Hi', x); end."),
   (r!"a", r!"unit A; interface const c = 1; implementation end.")]

/-- the same with other layout, comments and case -/
def exLayout' : List (Str × Str) :=
  [(r!"p", r!"PROGRAM p;
USES a IN 'a';  { units }
Var X:integer;
Begin
  X:=a.C+1; (* sum *)
  writeln( 'Hi' ,X );
End."),
   (r!"a", r!"UNIT a; // constants
INTERFACE CONST C=1;
IMPLEMENTATION
END.")]

example : ∀ p, SameFile asciiUni (exFiles exLayout p) (exFiles exLayout' p) :=
  exSame_files (.cons ⟨rfl, by krfl⟩ (.cons ⟨rfl, by krfl⟩ .nil))

/-- the name of the program and of its units, if one is returned -/
def exNames : R (PS DS) (ProgramTree (Decl Node)) → Option (Str × List Str)
  | .ok t _ => some (t.ident.name, t.units.map fun d => d.head.ident.name)
  | _ => none

example : exNames (exProgram exLayout) = some (r!"P", [r!"A"]) := by krfl
example : exNames (exProgram exLayout') = some (r!"p", [r!"a"]) := by krfl

/-- String literals are not changed: the texts of literals are in the program. -/
example : exSame r!"WriteLn('Hi');" r!"writeln('HI');" = false := by krfl

end TP.Props
