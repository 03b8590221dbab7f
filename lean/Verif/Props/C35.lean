import Verif.Lemmas.ExprSound
import Verif.Props.C34

/-!
# C35  Expression parsing terminates without panic on lexically valid input

It terminates on every stream whose tokens were all recognised, and it does not panic unless a name is qualified by a
unit or program whose declaration map is nil (`C35_partial`); with such a name it panics (`C35_refuted`).
-/

namespace TP.Props
open TP Spec

section
variable {κ δ : Type} (u : Uni) (E : Env κ δ)

/-- It returns: `10 * l + 7` nested calls and iterations suffice for `l` tokens. -/
theorem C35_terminates (k : κ) (ts : List Token) (x : Str) (p : Pos) (n : Nat)
    (hn : 10 * ts.length + 7 ≤ n) : parseExpr u E n ⟨ts, .eof x p, k⟩ ≠ .wait := by
  have B : Base E (.rolls E k) k (.eof x p) True False False :=
    ⟨False.elim, fun _ => trivial, fun h => by (cases h), fun _ _ _ _ _ _ _ _ _ _ _ _ => trivial⟩
  have := (all_sound (u := u) B n).expr ⟨ts, .eof x p, k⟩ ⟨rfl, .refl k, trivial⟩ (fun h => by simp only at h; omega)
  unfold wp at this
  intro h
  rw [h] at this
  exact this

/-- It also returns (or panics) on a stream that ends with a rune no token starts with; only an unterminated string
literal makes it wait. -/
theorem C35_returns (k : κ) (ts : List Token) (tail : Tail) (ht : tail ≠ .hang) (n : Nat)
    (hn : 10 * ts.length + 7 ≤ n) : parseExpr u E n ⟨ts, tail, k⟩ ≠ .wait := by
  have B : Base E (.rolls E k) k tail True False False :=
    ⟨False.elim, fun _ => trivial, fun h => ht h, fun _ _ _ _ _ _ _ _ _ _ _ _ => trivial⟩
  have := (all_sound (u := u) B n).expr ⟨ts, tail, k⟩ ⟨rfl, .refl k, trivial⟩ (fun h => by simp only at h; omega)
  unfold wp at this
  intro h
  rw [h] at this
  exact this

/-- Missing for the full claim: contexts with a namespace that has no declaration map. -/
theorem C35_partial (k : κ) (L : Lawful E k) (hm : ∀ nm d name, E.get k nm = some d → E.member k d name ≠ .panic) (ts : List Token) (x : Str)
    (p : Pos) (n : Nat) (hn : 10 * ts.length + 7 ≤ n) :
    (∃ e s', parseExpr u E n ⟨ts, .eof x p, k⟩ = .ok e s') ∨ parseExpr u E n ⟨ts, .eof x p, k⟩ = .err := by
  have B : Base E (.rolls E k) k (.eof x p) False False True :=
    ⟨fun _ => L.answers, fun h => by (cases h), fun h => by (cases h), fun k' hk t1 _ t3 _ d _ _ _ h h' =>
      hm t1.raw d t3.raw ((L.get k' hk t1.raw).symm.trans h) ((L.member k' hk d t3.raw).symm.trans h')⟩
  have := (all_sound (u := u) B n).expr ⟨ts, .eof x p, k⟩ ⟨rfl, .refl k, trivial⟩ (fun h => by simp only at h; omega)
  unfold wp at this
  cases h : parseExpr u E n ⟨ts, .eof x p, k⟩ with
  | ok e s' => exact .inl ⟨e, s', rfl⟩
  | err => exact .inr rfl
  | panic => rw [h] at this; exact this.elim
  | wait => rw [h] at this; exact this.elim

end

/-- In the contexts of the parser the condition says that every unit or program a visible declaration refers to has its
declaration map. -/
theorem C35_world_partial {ν : Type} [Kinded ν] (u : Uni) (k : PCtx ν) (hk : PlainCtx k)
    (hm : ∀ (nm : Str) (d : Decl ν), k.w.get u k.cur nm = some d → match Kinded.kind d.node with
      | .uses (some i) => k.w.unitDm i ≠ none
      | .unit i => k.w.unitDm i ≠ none
      | .program dm => dm ≠ none
      | _ => True)
    (ts : List Token) (x : Str) (p : Pos) (n : Nat) (hn : 10 * ts.length + 7 ≤ n) :
    (∃ e s', parseExpr u (worldEnv u) n ⟨ts, .eof x p, k⟩ = .ok e s') ∨
    parseExpr u (worldEnv u) n ⟨ts, .eof x p, k⟩ = .err := by
  refine C35_partial u _ k (lawful_world u k hk) ?_ ts x p n hn
  intro nm d name hg
  have hd := hm nm d hg
  have mem : ∀ dm : Option Nat, dm ≠ none → memberOf u k.w dm name ≠ .panic := by
    intro dm h
    cases dm with
    | none => exact absurd rfl h
    | some i =>
      unfold memberOf
      show (match k.w.maps.get u i name with | some d => Member.found d | none => Member.error) ≠ .panic
      cases k.w.maps.get u i name <;> simp
  simp only [worldEnv]
  cases hk : Kinded.kind d.node with
  | type => intro h; cases h
  | other => intro h; cases h
  | unit i => rw [hk] at hd; exact mem _ hd
  | program dm => rw [hk] at hd; exact mem _ hd
  | uses o =>
    cases o with
    | none => intro h; cases h
    | some i => rw [hk] at hd; exact mem _ hd

/-- unit `B` is used but its interface has not been parsed, as in a circle of uses clauses -/
def nilMapWorld : PCtx NodeKind :=
  ⟨⟨[.impl [(r!"b", ⟨r!"B", .uses (some 0)⟩)]], [⟨r!"B", none⟩], [.program r!"p.dpr" [0] 0]⟩, 0⟩

/-- `B.x` with a unit `B` whose interface has not been parsed: panic. -/
theorem C35_refuted : ∃ (k : PCtx NodeKind) (ts : List Token) (x : Str) (p : Pos), PlainCtx k ∧
    ∀ n, 7 ≤ n → parseExpr asciiUni (worldEnv asciiUni) n ⟨ts, .eof x p, k⟩ = .panic := by
  refine ⟨nilMapWorld, exToks [(.ident, r!"B"), (.symbol, r!"."), (.ident, r!"x")], [], ⟨1, 1, 0⟩, ⟨_, rfl, trivial⟩, ?_⟩
  intro n hn
  obtain ⟨m, rfl⟩ : ∃ m, n = m + 7 := ⟨n - 7, by omega⟩
  rfl

/-- `a +` followed by a rune that no token starts with: panic. -/
theorem C35_nil_panics : ∀ n, 7 ≤ n →
    parseExpr asciiUni (worldEnv asciiUni) n ⟨exToks [(.ident, r!"a"), (.symbol, r!"+")], .nil, exWorld⟩ = .panic := by
  intro n hn
  obtain ⟨m, rfl⟩ : ∃ m, n = m + 7 := ⟨n - 7, by omega⟩
  rfl

/-- non-vacuity: the context of the examples meets the condition -/
example : ∀ (nm : Str) (d : Decl NodeKind), exWorld.w.get asciiUni exWorld.cur nm = some d →
    match Kinded.kind d.node with
      | .uses (some i) => exWorld.w.unitDm i ≠ none
      | .unit i => exWorld.w.unitDm i ≠ none
      | .program dm => dm ≠ none
      | _ => True := by
  intro nm d h
  have e : exWorld.w.get asciiUni exWorld.cur nm =
      match Tbl.get asciiUni [(r!"x", (⟨r!"x", .other⟩ : Decl NodeKind))] nm with
      | some d => some d
      | none => embGet asciiUni nm := by
    simp only [exWorld, World.get, Ctxs.get, Maps.get]
    cases Tbl.get asciiUni [(r!"x", (⟨r!"x", .other⟩ : Decl NodeKind))] nm <;> rfl
  rw [e] at h
  cases h1 : Tbl.get asciiUni [(r!"x", (⟨r!"x", .other⟩ : Decl NodeKind))] nm with
  | some d' =>
    rw [h1] at h
    simp [Tbl.get, Tbl.find] at h1
    injection h with h; subst h
    rw [← h1.2]; trivial
  | none =>
    rw [h1] at h
    have : ∀ (l : List (EmbKind × Str)) (key : Str),
        Tbl.find (l.map (fun kn => (asciiUni.toUpper kn.2, (⟨kn.2, EmbNode.emb kn.1 kn.2⟩ : Decl NodeKind)))) key = some d →
        d.node = .type := by
      intro l
      induction l with
      | nil => intro key h; cases h
      | cons a l ih =>
        intro key h
        simp only [List.map, Tbl.find] at h
        split at h
        · injection h with h; subst h; rfl
        · exact ih key h
    rw [show Kinded.kind d.node = .type from this _ _ h]
    trivial

/-- non-vacuity: a rejected stream and an accepted one -/
example : parseExpr asciiUni (worldEnv asciiUni) 27 ⟨exToks [(.ident, r!"a"), (.symbol, r!"+")], .eof [] ⟨1, 1, 0⟩, exWorld⟩ =
    .err := by rfl

example : isOk (parseExpr asciiUni (worldEnv asciiUni) 37
    ⟨exToks [(.ident, r!"a"), (.symbol, r!"+"), (.ident, r!"b")], .eof [] ⟨1, 1, 0⟩, exWorld⟩) = true := by rfl

end TP.Props
