import Verif.Lemmas.ExprSound
import Verif.Lemmas.WorldEnv
import Verif.Lemmas.Stream

/-!
# C33  Expression parsing is lossless
-/

namespace TP.Props
open TP Spec

section
variable {κ δ : Type} (u : Uni) (E : Env κ δ)

/-- Whenever `ParseExpression` returns a tree, the tokens consumed are exactly the leaves of the tree in order; the
context is the same or a clone.  For every context, whatever it answers. -/
theorem C33_lossless (k : κ) (ts : List Token) (tail : Tail) (n : Nat) (e : Expr δ) (s' : PS κ)
    (h : parseExpr u E n ⟨ts, tail, k⟩ = .ok e s') :
    ∃ used, ts = used ++ s'.ts ∧ Leaves u (flatExpr e) used ∧ s'.tail = tail ∧ Rolls E k s'.cx := by
  have B : Base E (.rolls E k) k tail True True False :=
    ⟨False.elim, fun _ => trivial, fun _ => trivial, fun _ _ _ _ _ _ _ _ _ _ _ _ => trivial⟩
  have := (all_sound (u := u) B n).expr ⟨ts, tail, k⟩ ⟨rfl, .refl k, trivial⟩ (fun _ => trivial)
  unfold wp at this
  rw [h] at this
  obtain ⟨used, a, l, -⟩ := this
  exact ⟨used, a.ts, l, a.tail, a.cx⟩

/-- If clones of the context answer like it, the names in the tree refer to the declarations visible in the context. -/
theorem C33_names (k : κ) (L : Lawful E k) (ts : List Token) (tail : Tail) (n : Nat) (e : Expr δ) (s' : PS κ)
    (h : parseExpr u E n ⟨ts, tail, k⟩ = .ok e s') :
    ∃ used, ts = used ++ s'.ts ∧ Leaves u (flatExpr e) used ∧ FitsExpr u E k e ∧ s'.tail = tail ∧ Rolls E k s'.cx := by
  have B : Base E (.rolls E k) k tail True True True :=
    ⟨fun _ => L.answers, fun _ => trivial, fun _ => trivial, fun _ _ _ _ _ _ _ _ _ _ _ _ => trivial⟩
  have := (all_sound (u := u) B n).expr ⟨ts, tail, k⟩ ⟨rfl, .refl k, trivial⟩ (fun _ => trivial)
  unfold wp at this
  rw [h] at this
  obtain ⟨used, a, l, f⟩ := this
  exact ⟨used, a.ts, l, f trivial, a.tail, a.cx⟩

/-- The tokens consumed determine everything the tree says: no token is dropped, added or reordered.  (Number of
leaves.) -/
theorem C33_count (k : κ) (ts : List Token) (tail : Tail) (n : Nat) (e : Expr δ) (s' : PS κ)
    (h : parseExpr u E n ⟨ts, tail, k⟩ = .ok e s') : ts.length = (flatExpr e).length + s'.ts.length := by
  obtain ⟨used, h1, h2, -⟩ := C33_lossless u E k ts tail n e s' h
  rw [h1, List.length_append, leaves_length h2]

/-- A successful parse consumes at least one token. -/
theorem C33_progress (k : κ) (ts : List Token) (tail : Tail) (n : Nat) (e : Expr δ) (s' : PS κ)
    (h : parseExpr u E n ⟨ts, tail, k⟩ = .ok e s') : s'.ts.length < ts.length := by
  rw [C33_count u E k ts tail n e s' h]
  obtain ⟨⟨un, ⟨f, m⟩, ad⟩, r⟩ := e
  have hf : ∀ f : Factor δ, 0 < (flatFactor f).length := by
    intro f
    have hd : ∀ d : Desig δ, 0 < (flatDesig d).length := by
      intro d; obtain ⟨i, l, e, -⟩ := flatDesig_head d; rw [e]; simp
    cases f with
    | desig d => exact hd d
    | call d a => have := hd d; simp [flatFactor]; omega
    | _ => simp [flatFactor]
  have := hf f
  cases un <;> simp [flatExpr, flatSExpr, flatTerm] <;> omega

end

/-- Program and unit contexts, the only ones the parser makes, have that property. -/
theorem C33_world {ν : Type} [Kinded ν] (u : Uni) (k : PCtx ν) (hk : PlainCtx k) (ts : List Token) (tail : Tail)
    (n : Nat) (e : Expr (Decl ν)) (s' : PS (PCtx ν)) (h : parseExpr u (worldEnv u) n ⟨ts, tail, k⟩ = .ok e s') :
    ∃ used, ts = used ++ s'.ts ∧ Leaves u (flatExpr e) used ∧ FitsExpr u (worldEnv u) k e := by
  obtain ⟨used, h1, h2, h3, -⟩ := C33_names u _ k (lawful_world u k hk) ts tail n e s' h
  exact ⟨used, h1, h2, h3⟩

/-! ## Examples -/

/-- node types for examples: the kinds themselves -/
instance : Kinded NodeKind where
  emb _ _ := .type
  kind := id

/-- a program context in which `Integer` is the built-in type and `x` a variable -/
def exWorld : PCtx NodeKind :=
  ⟨⟨[.chained 0 [(r!"x", ⟨r!"x", .other⟩)], .embedded], [], [.program r!"p.dpr" [] 1]⟩, 0⟩

theorem exWorld_plain : PlainCtx exWorld := ⟨_, rfl, trivial⟩

/-- a token with the given text -/
def exTok (ty : TType) (s : Str) : Token := ⟨ty, s, ⟨1, 1, 0⟩, ⟨1, 1, s.length⟩⟩

/-- `x := Integer ( 1 ) ; `-like token lists for examples -/
def exToks (l : List (TType × Str)) : List Token := l.map fun p => exTok p.1 p.2

/-- `-Integer(1) * x^ <= a . b[1] and nil ;` is an expression up to the semicolon. -/
def exExpr : List Token := exToks
  [(.symbol, r!"-"), (.ident, r!"Integer"), (.symbol, r!"("), (.numInt, r!"1"), (.symbol, r!")"), (.symbol, r!"*"),
   (.ident, r!"x"), (.symbol, r!"^"), (.symbol, r!"<="), (.ident, r!"a"), (.symbol, r!"."), (.ident, r!"b"),
   (.symbol, r!"["), (.numInt, r!"1"), (.symbol, r!"]"), (.reserved, r!"and"), (.reserved, r!"nil")]

def isOk {σ α : Type} : R σ α → Bool
  | .ok _ _ => true
  | _ => false

/-- what is left after a successful parse -/
def leftOf {κ α : Type} : R (PS κ) α → Option (List Token)
  | .ok _ s => some s.ts
  | _ => none

example : leftOf (parseExpr asciiUni (worldEnv asciiUni) 200
    ⟨exExpr ++ exToks [(.symbol, r!";"), (.ident, r!"y")], .eof [] ⟨1, 1, 0⟩, exWorld⟩) =
    some (exToks [(.symbol, r!";"), (.ident, r!"y")]) := by decide +kernel

end TP.Props
