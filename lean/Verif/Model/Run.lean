import Verif.Model.Tokenizer

/-!
# Calls of the tokenizer and sequences of calls

The model functions take fuel; a call *returns* `r` when it does so for some amount of fuel.
-/

namespace TP

/-- The order in which a Go map with the keys of `TwoRunesSpecialSymbols` is iterated: any permutation. -/
def IsOrder (order : List (Char × Char)) : Prop := order.Perm doubleSymbols

/-- `GetNext` called at `c` returns, leaving the cursor `c'` and giving the token `t` (`none`: nil). -/
def Gets (u : Uni) (order : List (Char × Char)) (fl : Flags) (c : Cursor) (c' : Cursor) (t : Option Token) :
    Prop :=
  ∃ fuel, getNext u order fl fuel c = some (c', t)

/-- Consecutive calls of `GetNext`, each returning a token. -/
inductive Run (u : Uni) (order : List (Char × Char)) (fl : Flags) : Cursor → List Token → Cursor → Prop
  | nil (c : Cursor) : Run u order fl c [] c
  | cons {c c' c'' : Cursor} {t : Token} {ts : List Token} :
      Gets u order fl c c' (some t) → Run u order fl c' ts c'' → Run u order fl c (t :: ts) c''

/-- `n` calls of `GetNext` with the given fuel each, for computing examples. -/
def tokensN (u : Uni) (order : List (Char × Char)) (fl : Flags) (fuel : Nat) :
    Nat → Cursor → Option (List Token × Cursor)
  | 0, c => some ([], c)
  | n + 1, c =>
    match getNext u order fl fuel c with
    | some (c', some t) =>
      match tokensN u order fl fuel n c' with
      | some (ts, c'') => some (t :: ts, c'')
      | none => none
    | _ => none

theorem run_of_tokensN {u : Uni} {order : List (Char × Char)} {fl : Flags} {fuel n : Nat} {c c' : Cursor}
    {ts : List Token} (h : tokensN u order fl fuel n c = some (ts, c')) : Run u order fl c ts c' := by
  induction n generalizing c ts with
  | zero => simp [tokensN] at h; obtain ⟨rfl, rfl⟩ := h; exact .nil _
  | succ n ih =>
    simp only [tokensN] at h
    split at h
    · rename_i c1 t hg
      cases h2 : tokensN u order fl fuel n c1 with
      | none => rw [h2] at h; cases h
      | some r =>
        obtain ⟨ts', c2⟩ := r
        rw [h2] at h; simp at h; obtain ⟨rfl, rfl⟩ := h
        exact .cons ⟨fuel, hg⟩ (ih h2)
    · cases h

/-- The cursors a program can hold: new ones, moved ones and copies of them. -/
inductive Reachable : Cursor → Prop
  | new (text : Str) : Reachable (Cursor.new text)
  | next {c : Cursor} : Reachable c → Reachable c.next.1
  | clone {c : Cursor} : Reachable c → Reachable c.clone

/-- both flags set: spaces and comments are returned -/
def Flags.all : Flags := ⟨true, true⟩
/-- the flags of the parser (`parser/base.go:26`): spaces and comments are skipped -/
def Flags.none : Flags := ⟨false, false⟩

/-- the tokens that remain under the flags (notion for statements) -/
def kept (fl : Flags) (t : Token) : Bool :=
  (fl.loadSpace || t.typ != .space) && (fl.loadComment || t.typ != .comment)

/-- kind and text of a token (notion for statements) -/
def Token.view (t : Token) : TType × Str := (t.typ, t.raw)

end TP
