import Verif.Lemmas.Wp

/-!
# Soundness and termination of the expression parser
-/

namespace TP
open Spec

variable {κ δ : Type} (u : Uni) (E : Env κ δ)

/-- a property of contexts that survives a rollback, and one of the tokens left -/
structure Keep where
  holds : κ → Prop
  roll : ∀ k, holds k → holds (E.rollback k)
  good : List Token → Prop
  tail : ∀ t ts, good (t :: ts) → good ts

/-- nothing about the tokens -/
def Keep.of (holds : κ → Prop) (roll : ∀ k, holds k → holds (E.rollback k)) : Keep E :=
  ⟨holds, roll, fun _ => True, fun _ _ _ => trivial⟩

/-- the contexts obtained from `k0` by rollbacks -/
def Keep.rolls (k0 : κ) : Keep E :=
  .of E (Rolls E k0) fun _ h => Rolls.trans h (.step (.refl _))

/-- the contexts concerned answer like `k0` -/
structure Answers (R : Keep E) (k0 : κ) : Prop where
  get : ∀ k, R.holds k → ∀ name, E.get k name = E.get k0 name
  member : ∀ k, R.holds k → ∀ d name, E.member k d name = E.member k0 d name

theorem _root_.TP.Spec.Lawful.answers {E : Env κ δ} {k0 : κ} (L : Lawful E k0) : Answers E (.rolls E k0) k0 :=
  ⟨L.get, L.member⟩

/-- What is fixed while one expression is parsed: the end of the stream, the context and what happens with `nil` or
missing tokens and with namespaces without declaration map.  If `Lw` then clones of the context answer like it. -/
structure Base (R : Keep E) (k0 : κ) (tl : Tail) (Pp Pw Lw : Prop) : Prop where
  law : Lw → Answers E R k0
  nil : tl = .nil → Pp
  hang : tl = .hang → Pw
  ns : ∀ k, R.holds k → ∀ t1 t2 t3 ts d, R.good (t1 :: t2 :: t3 :: ts) → t1.typ = .ident → IsSym r!"." t2 →
    E.get k t1.raw = some d → E.member k d t3.raw = .panic → Pp

/-- the state belongs to this parse -/
structure In (R : Keep E) (tl : Tail) (s : PS κ) : Prop where
  tail : s.tail = tl
  cx : R.holds s.cx
  good : R.good s.ts

/-- `p` consumes exactly the leaves of its result, which fits; it returns if the fuel suffices. -/
def Sound {α : Type} (R : Keep E) (tl : Tail) (Pp Pw Lw : Prop) (p : P κ α) (fl : α → List Leaf) (fit : α → Prop) (n r : Nat) :
    Prop :=
  ∀ s, In E R tl s → (n < 10 * s.ts.length + r → Pw) →
    wp p s (fun a s' => ∃ used, Adv E s used s' ∧ Leaves u (fl a) used ∧ (Lw → fit a)) Pp Pw

variable {u E} {R : Keep E} {k0 : κ} {tl : Tail} {Pp Pw Lw : Prop}

theorem Keep.rolled (R : Keep E) {k k' : κ} (h : R.holds k) (r : Rolls E k k') : R.holds k' := by
  induction r with
  | refl => exact h
  | step _ ih => exact ih (R.roll _ h)

theorem Keep.goods (R : Keep E) {a b : List Token} (h : R.good (a ++ b)) : R.good b := by
  induction a with
  | nil => exact h
  | cons t a ih => exact ih (R.tail _ _ h)

theorem In.adv {s s' : PS κ} {used : List Token} (h : In E R tl s) (a : Adv E s used s') : In E R tl s' :=
  ⟨a.tail.trans h.tail, R.rolled h.cx a.cx, R.goods (a.ts ▸ h.good)⟩

theorem Sound.bind {α β : Type} {p : P κ α} {fl : α → List Leaf} {fit : α → Prop} {n r : Nat}
    (hp : Sound u E R tl Pp Pw Lw p fl fit n r) {s : PS κ} (hs : In E R tl s)
    (hf : n < 10 * s.ts.length + r → Pw) {f : α → P κ β} {Q : β → PS κ → Prop}
    (h : ∀ a s' used, In E R tl s' → Adv E s used s' → Leaves u (fl a) used → (Lw → fit a) → wp (f a) s' Q Pp Pw) :
    wp (p >>= f) s Q Pp Pw := by
  rw [wp_bind]
  refine wp_mono (hp s hs hf) ?_ id id
  rintro a s' ⟨used, h1, h2, h3⟩
  exact h a s' used (hs.adv h1) h1 h2 h3

theorem opLeaf_is {syms words : List Str} {t : Token} (h : IsOp u syms words t)
    (hs : ∀ s ∈ syms, opLeaf s = .sym s) (hw : ∀ s ∈ words, opLeaf s = .kw s) :
    (opLeaf (t.value u)).Is u t ∧ (t.value u ∈ syms ∨ t.value u ∈ words) := by
  rcases h with ⟨s, hm, h1, h2⟩ | ⟨s, hm, h1, h2⟩
  · rw [value_of_ne (by rw [h1]; decide), h2, hs s hm]
    exact ⟨⟨h1, h2⟩, .inl hm⟩
  · rw [value_reserved h1, h2, hw s hm]
    exact ⟨⟨h1, h2⟩, .inr hm⟩

theorem leaf_sym {c : Str} {t : Token} (h : IsSym c t) : (Leaf.sym c).Is u t := h

theorem isOp_ne_eof {syms words : List Str} {t : Token} (h : IsOp u syms words t) : t.typ ≠ .eof := by
  rcases h with ⟨s, hm, h1, h2⟩ | ⟨s, hm, h1, h2⟩ <;> rw [h1] <;> decide

section
variable (B : Base E R k0 tl Pp Pw Lw)
include B

/-- the facts of `Base` for a state of this parse -/
theorem Base.state {s : PS κ} (hs : In E R tl s) :
    (s.tail = .nil → Pp) ∧ (s.tail = .hang → Pw) ∧ (Lw → ∀ name, E.get s.cx name = E.get k0 name) ∧
    (Lw → ∀ d name, E.member s.cx d name = E.member k0 d name) := by
  rw [hs.tail]
  exact ⟨B.nil, B.hang, fun w => (B.law w).get _ hs.cx, fun w => (B.law w).member _ hs.cx⟩

/-- `P.next` on a known token -/
theorem next_step {α : Type} {s : PS κ} (hs : In E R tl s) {t : Token} {ts : List Token} (h : s.ts = t :: ts)
    {f : Unit → P κ α} {Q : α → PS κ → Prop}
    (hf : ∀ s', In E R tl s' → Adv E s [t] s' → s'.ts = ts → wp (f ()) s' Q Pp Pw) :
    wp (P.next >>= f) s Q Pp Pw :=
  wp_next_cons h (B.state hs).2.1 fun s' h1 h2 h3 =>
    have a : Adv E s [t] s' := Adv.one h h1 h2 h3
    hf s' (hs.adv a) a h1

theorem qualId_sound {s : PS κ} (hs : In E R tl s) :
    wp (parseQualId u E) s (fun q s' => ∃ used, Adv E s used s' ∧ Leaves u (flatQual q) used ∧ (Lw → FitsQual E k0 q) ∧
      1 ≤ used.length) Pp Pw := by
  obtain ⟨hn, hh, hg, hmem⟩ := B.state hs
  unfold parseQualId
  refine wp_current_bind hh fun t ht hid => ?_
  rw [identP_iff] at hid
  obtain ⟨ts, hts⟩ := tok_cons ht (by rw [hid]; decide)
  have hv : t.value u = t.raw := value_of_ne (by rw [hid]; decide)
  have hd : wp (getDecl E (t.value u)) s (fun d s' => d = E.get s.cx t.raw ∧ s' = s) Pp Pw := by
    show _ ∧ _
    exact ⟨by rw [hv], rfl⟩
  rw [wp_bind]
  refine wp_mono hd ?_ id id
  rintro d? s' ⟨hd?, rfl⟩
  -- the branch without qualifier
  have plain : ¬ Qualifies E s'.cx t.raw →
      wp (do P.next; let r ← getDecl E t.raw; pure ⟨none, ⟨Ident.ofTok t, r⟩⟩ : P κ (QualId δ)) s'
        (fun q s'' => ∃ used, Adv E s' used s'' ∧ Leaves u (flatQual q) used ∧ (Lw → FitsQual E k0 q) ∧ 1 ≤ used.length)
        Pp Pw := by
    intro hq
    refine next_step B hs hts fun s1 hs1 a1 h1 => ?_
    rw [wp_bind]
    show ∃ used, _
    refine ⟨[t], a1, leaves_one ⟨hid, rfl⟩, fun w => ⟨?_, (B.state hs1).2.2.1 w _⟩, Nat.le_refl _⟩
    rintro ⟨d, h, h'⟩
    exact hq ⟨d, (hg w _).trans h, h'⟩
  cases d? with
  | none =>
    refine plain ?_
    rintro ⟨d, h, _⟩
    rw [h] at hd?; cases hd?
  | some d =>
    show wp (if _ then _ else _) _ _ _ _
    by_cases hns : (E.isNamespace d || E.isUses d) = true
    · rw [if_pos hns, wp_bind]
      refine wp_nextIs (fun t2 ht2 hdot => ?_) hh
      rw [symbol_iff] at hdot
      have a1 : Adv E s' [t] { s' with ts := s'.ts.tail } := adv_next hts
      obtain ⟨ts2, hts2⟩ := tok_cons ht2 (by rw [hdot.1]; decide)
      rw [wp_bind]
      refine wp_nextIs (fun t3 ht3 hid3 => ?_) (by exact hh)
      rw [typ_iff] at hid3
      have a2 : Adv E { s' with ts := s'.ts.tail } [t2] { s' with ts := s'.ts.tail.tail } := adv_next hts2
      obtain ⟨ts3, hts3⟩ := tok_cons ht3 (by rw [hid3]; decide)
      have hs2 := (hs.adv a1).adv a2
      have hv3 : t3.value u = t3.raw := value_of_ne (by rw [hid3]; decide)
      unfold wp
      simp only [hv3]
      cases hm : E.member s'.cx d t3.raw with
      | error => trivial
      | panic => 
        refine B.ns _ hs.cx t t2 t3 ts3 d ?_ hid hdot hd?.symm hm
        have e2 : s'.ts.tail.tail = t3 :: ts3 := hts3
        have e1 : s'.ts.tail = t2 :: ts2 := hts2
        have := hs.good
        rw [hts] at e1 e2 this
        rw [show ts = t2 :: t3 :: ts3 by
          show (t :: ts).tail = _
          rw [e1] at e2 ⊢
          rw [show ts2 = t3 :: ts3 from e2]] at this
        exact this
      | found m =>
        have key : wp (P.next >>= fun _ => (pure ⟨some ⟨Ident.ofTok t, some d⟩, ⟨Ident.ofTok t3, some m⟩⟩ : P κ (QualId δ)))
            { s' with ts := s'.ts.tail.tail } (fun q s'' => ∃ used, Adv E s' used s'' ∧ Leaves u (flatQual q) used ∧
              (Lw → FitsQual E k0 q) ∧ 1 ≤ used.length) Pp Pw := ?_
        · exact key
        refine next_step B hs2 hts3 fun s3 hs3 a3 h3 => ?_
        refine ⟨[t, t2, t3], (a1.trans a2).trans a3, ⟨⟨hid, rfl⟩, hdot, ⟨hid3, rfl⟩, trivial⟩, ?_, by simp⟩
        exact fun w => ⟨d, m, by rw [← hg w]; exact hd?.symm, hns, rfl, by rw [← hmem w]; exact hm, rfl⟩
    · rw [if_neg hns]
      refine plain ?_
      rintro ⟨d', h, h'⟩
      rw [h] at hd?; injection hd? with hd?; subst hd?; exact hns h'

end

theorem flatDesig_head (d : Desig δ) : ∃ i rest, flatDesig d = .ident i :: rest ∧ i.name = headName d := by
  obtain ⟨⟨ns, id⟩, items⟩ := d
  cases ns with
  | none => exact ⟨id.ident, flatItems items, by simp [flatDesig, flatQual], rfl⟩
  | some n => exact ⟨n.ident, _, by simp [flatDesig, flatQual]; rfl, rfl⟩

theorem flatDesig_bare (d : Desig δ) (h : IsBare d) : (flatDesig d).length = 1 := by
  obtain ⟨⟨ns, id⟩, items⟩ := d
  obtain ⟨h1, h2⟩ := h
  cases h1; cases h2
  rfl

/-- `parseDesigFactor` is only called when the current word is not `TRUE` or `FALSE` and does not begin a type cast. -/
def DFSound (u : Uni) (E : Env κ δ) (R : Keep E) (k0 : κ) (tl : Tail) (Pp Pw Lw : Prop) (n : Nat) : Prop :=
  ∀ s, In E R tl s → (n < 10 * s.ts.length + 3 → Pw) →
    (∀ t, s.tok? = some t → ¬ Manifest u t.raw) →
    (Lw → ∀ t, s.tok? = some t → IsTypeName E k0 t.raw → ∀ t2, PS.tok? { s with ts := s.ts.tail } = some t2 → ¬ IsSym r!"(" t2) →
    wp (parseDesigFactor u E n) s (fun a s' => ∃ used, Adv E s used s' ∧ Leaves u (flatFactor a) used ∧
      (Lw → FitsFactor u E k0 a)) Pp Pw

structure AllSound (u : Uni) (E : Env κ δ) (R : Keep E) (k0 : κ) (tl : Tail) (Pp Pw Lw : Prop) (n : Nat) : Prop where
  expr : Sound u E R tl Pp Pw Lw (parseExpr u E n) flatExpr (FitsExpr u E k0) n 7
  rel : Sound u E R tl Pp Pw Lw (parseRelTail u E n) flatRel (FitsRel u E k0) n 1
  sexpr : Sound u E R tl Pp Pw Lw (parseSExpr u E n) flatSExpr (FitsSExpr u E k0) n 6
  add : Sound u E R tl Pp Pw Lw (parseAddTail u E n) flatAdd (FitsAdd u E k0) n 1
  term : Sound u E R tl Pp Pw Lw (parseTerm u E n) flatTerm (FitsTerm u E k0) n 5
  mul : Sound u E R tl Pp Pw Lw (parseMulTail u E n) flatMul (FitsMul u E k0) n 1
  factor : Sound u E R tl Pp Pw Lw (parseFactor u E n) flatFactor (FitsFactor u E k0) n 4
  dfactor : DFSound u E R k0 tl Pp Pw Lw n
  desig : Sound u E R tl Pp Pw Lw (parseDesig u E n) flatDesig (FitsDesig u E k0) n 2
  items : Sound u E R tl Pp Pw Lw (parseItems u E n) flatItems (FitsItems u E k0) n 1
  exprs : ∀ c : Str, Sound u E R tl Pp Pw Lw (do let es ← parseExprs u E (sym c) n; P.next; pure es)
    (fun es => flatExprs es ++ [.sym c]) (FitsExprs u E k0) n 8
  setcons : Sound u E R tl Pp Pw Lw (do let es ← parseSetCons u E n; P.next; pure es)
    (fun es => .sym r!"[" :: (flatElems es ++ [.sym r!"]"])) (FitsElems u E k0) n 3
  elems : Sound u E R tl Pp Pw Lw (do let es ← parseSetElems u E n; P.next; pure es)
    (fun es => flatElems es ++ [.sym r!"]"]) (FitsElems u E k0) n 9
  elem : Sound u E R tl Pp Pw Lw (parseSetElem u E n) flatElem (FitsElem u E k0) n 8

theorem all_sound (B : Base E R k0 tl Pp Pw Lw) : ∀ n, AllSound u E R k0 tl Pp Pw Lw n := by
  intro n
  induction n with
  | zero =>
    constructor <;> first
      | (intro s hs hf; exact hf (by omega))
      | (intro c s hs hf; exact hf (by omega))
      | (intro s hs hf _ _; exact hf (by omega))
  | succ n ih =>
    constructor
    · intro s hs hf
      rw [parseExpr]
      refine ih.sexpr.bind hs (fun h => hf (by omega)) fun se s1 u1 hs1 a1 l1 f1 => ?_
      have := a1.len
      refine ih.rel.bind hs1 (fun h => hf (by omega)) fun rest s2 u2 hs2 a2 l2 f2 => ?_
      exact ⟨_, a1.trans a2, by simpa [flatExpr] using leaves_append l1 l2, fun w => by simpa [FitsExpr] using ⟨f1 w, f2 w⟩⟩
    · intro s hs hf
      obtain ⟨hn, hh, -, -⟩ := B.state hs
      rw [parseRelTail]
      refine wp_is_bind hn hh fun t ht => ?_
      by_cases c : relOp u t = true
      · simp only [c, if_true]
        rw [relOp_iff] at c
        obtain ⟨ts, hts⟩ := tok_cons ht (isOp_ne_eof c)
        refine wp_cur_cons hts ?_
        refine next_step B hs hts fun s1 hs1 a1 h1 => ?_
        have := a1.len
        refine ih.sexpr.bind hs1 (fun h => hf (by simp at this; omega)) fun se s2 u2 hs2 a2 l2 f2 => ?_
        have := a2.len
        refine ih.rel.bind hs2 (fun h => hf (by simp at *; omega)) fun rest s3 u3 hs3 a3 l3 f3 => ?_
        obtain ⟨o1, o2⟩ := opLeaf_is c (by decide) (by decide)
        exact ⟨_, a1.cons (a2.trans a3), leaves_cons o1 (leaves_append l2 l3), fun w => ⟨o2, f2 w, f3 w⟩⟩
      · simp only [c]
        exact ⟨[], Adv.refl s, trivial, fun _ => trivial⟩
    · intro s hs hf
      obtain ⟨hn, hh, -, -⟩ := B.state hs
      rw [parseSExpr]
      refine wp_is_bind hn hh fun t ht => ?_
      by_cases c : unaryOp t = true
      · simp only [c, if_true]
        rw [unaryOp_iff] at c
        obtain ⟨o, om, os⟩ := c
        obtain ⟨ts, hts⟩ := tok_cons ht (by rw [os.1]; decide)
        refine wp_cur_cons hts ?_
        refine next_step B hs hts fun s1 hs1 a1 h1 => ?_
        have := a1.len
        refine ih.term.bind hs1 (fun h => hf (by simp at this; omega)) fun se s2 u2 hs2 a2 l2 f2 => ?_
        have := a2.len
        refine ih.add.bind hs2 (fun h => hf (by simp at *; omega)) fun rest s3 u3 hs3 a3 l3 f3 => ?_
        have hv : t.value u = t.raw := value_of_ne (by rw [os.1]; decide)
        refine ⟨_, a1.cons (a2.trans a3), leaves_cons ⟨os.1, by rw [hv]⟩ (leaves_append l2 l3), fun w => ⟨?_, f2 w, f3 w⟩⟩
        intro op hop
        injection hop with hop
        rw [← hop, hv, os.2]; exact om
      · simp only [c]
        refine ih.term.bind hs (fun h => hf (by omega)) fun se s2 u2 hs2 a2 l2 f2 => ?_
        have := a2.len
        refine ih.add.bind hs2 (fun h => hf (by omega)) fun rest s3 u3 hs3 a3 l3 f3 => ?_
        exact ⟨_, a2.trans a3, leaves_append l2 l3, fun w => ⟨fun op h => by (cases h), f2 w, f3 w⟩⟩
    · intro s hs hf
      obtain ⟨hn, hh, -, -⟩ := B.state hs
      rw [parseAddTail]
      refine wp_is_bind hn hh fun t ht => ?_
      by_cases c : addOp u t = true
      · simp only [c, if_true]
        rw [addOp_iff] at c
        obtain ⟨ts, hts⟩ := tok_cons ht (isOp_ne_eof c)
        refine wp_cur_cons hts ?_
        refine next_step B hs hts fun s1 hs1 a1 h1 => ?_
        have := a1.len
        refine ih.term.bind hs1 (fun h => hf (by simp at this; omega)) fun se s2 u2 hs2 a2 l2 f2 => ?_
        have := a2.len
        refine ih.add.bind hs2 (fun h => hf (by simp at *; omega)) fun rest s3 u3 hs3 a3 l3 f3 => ?_
        obtain ⟨o1, o2⟩ := opLeaf_is c (by decide) (by decide)
        exact ⟨_, a1.cons (a2.trans a3), leaves_cons o1 (leaves_append l2 l3), fun w => ⟨o2, f2 w, f3 w⟩⟩
      · simp only [c]
        exact ⟨[], Adv.refl s, trivial, fun _ => trivial⟩
    · intro s hs hf
      rw [parseTerm]
      refine ih.factor.bind hs (fun h => hf (by omega)) fun se s1 u1 hs1 a1 l1 f1 => ?_
      have := a1.len
      refine ih.mul.bind hs1 (fun h => hf (by omega)) fun rest s2 u2 hs2 a2 l2 f2 => ?_
      exact ⟨_, a1.trans a2, leaves_append l1 l2, fun w => ⟨f1 w, f2 w⟩⟩
    · intro s hs hf
      obtain ⟨hn, hh, -, -⟩ := B.state hs
      rw [parseMulTail]
      refine wp_is_bind hn hh fun t ht => ?_
      by_cases c : mulOp u t = true
      · simp only [c, if_true]
        rw [mulOp_iff] at c
        obtain ⟨ts, hts⟩ := tok_cons ht (isOp_ne_eof c)
        refine wp_cur_cons hts ?_
        refine next_step B hs hts fun s1 hs1 a1 h1 => ?_
        have := a1.len
        refine ih.factor.bind hs1 (fun h => hf (by simp at this; omega)) fun se s2 u2 hs2 a2 l2 f2 => ?_
        have := a2.len
        refine ih.mul.bind hs2 (fun h => hf (by simp at *; omega)) fun rest s3 u3 hs3 a3 l3 f3 => ?_
        obtain ⟨o1, o2⟩ := opLeaf_is c (by decide) (by decide)
        exact ⟨_, a1.cons (a2.trans a3), leaves_cons o1 (leaves_append l2 l3), fun w => ⟨o2, f2 w, f3 w⟩⟩
      · simp only [c]
        exact ⟨[], Adv.refl s, trivial, fun _ => trivial⟩
    · -- factor
      intro s hs hf
      obtain ⟨hn, hh, hg, -⟩ := B.state hs
      rw [parseFactor]
      refine wp_cur_bind hn hh fun t ht => ?_
      by_cases c1 : t.typ = .symbol
      · have hv : t.value u = t.raw := value_of_ne (by rw [c1]; decide)
        obtain ⟨ts, hts⟩ := tok_cons ht (by rw [c1]; decide)
        simp only [c1, if_true, hv]
        by_cases c2 : t.raw = r!"@"
        · simp only [c2, if_true]
          refine next_step B hs hts fun s1 hs1 a1 h1 => ?_
          have := a1.len
          refine ih.desig.bind hs1 (fun h => hf (by simp at this; omega)) fun d s2 u2 hs2 a2 l2 f2 => ?_
          exact ⟨_, a1.cons a2, leaves_cons ⟨c1, c2⟩ l2, f2⟩
        · rw [if_neg c2]
          by_cases c3 : t.raw = r!"["
          · rw [if_pos c3]
            rw [bind_next_pure]
            refine ih.setcons.bind hs (fun h => hf (by omega)) fun es s2 u2 hs2 a2 l2 f2 => ?_
            exact ⟨u2, a2, l2, f2⟩
          · rw [if_neg c3]
            by_cases c4 : t.raw = r!"("
            · rw [if_pos c4]
              refine next_step B hs hts fun s1 hs1 a1 h1 => ?_
              have := a1.len
              refine ih.expr.bind hs1 (fun h => hf (by simp at this; omega)) fun e s2 u2 hs2 a2 l2 f2 => ?_
              refine wp_current_bind (B.state hs2).2.1 fun t3 ht3 h3 => ?_
              rw [symbol_iff] at h3
              obtain ⟨ts3, hts3⟩ := tok_cons ht3 (by rw [h3.1]; decide)
              refine next_step B hs2 hts3 fun s3 hs3 a3 h3' => ?_
              exact ⟨_, a1.cons (a2.trans a3), leaves_cons ⟨c1, c4⟩ (leaves_append l2 (leaves_one (leaf_sym h3))), f2⟩
            · rw [if_neg c4]; trivial
      · rw [if_neg c1]
        by_cases c2 : t.typ = .reserved
        · have hv : t.value u = u.toUpper t.raw := value_reserved c2
          obtain ⟨ts, hts⟩ := tok_cons ht (by rw [c2]; decide)
          rw [if_pos c2, hv]
          by_cases c3 : u.toUpper t.raw = r!"NIL"
          · rw [if_pos c3]
            refine next_step B hs hts fun s1 hs1 a1 h1 => ?_
            exact ⟨_, a1, leaves_one ⟨c2, c3⟩, fun _ => trivial⟩
          · rw [if_neg c3]
            by_cases c4 : u.toUpper t.raw = r!"NOT"
            · rw [if_pos c4]
              refine next_step B hs hts fun s1 hs1 a1 h1 => ?_
              have := a1.len
              refine ih.factor.bind hs1 (fun h => hf (by simp at this; omega)) fun d s2 u2 hs2 a2 l2 f2 => ?_
              exact ⟨_, a1.cons a2, leaves_cons ⟨c2, c4⟩ l2, f2⟩
            · rw [if_neg c4]; trivial
        · rw [if_neg c2]
          have hv : t.value u = t.raw := value_of_ne c2
          rw [hv]
          by_cases c3 : isManifest u t.raw = true
          · rw [if_pos c3]
            rw [manifest_iff] at c3
            obtain ⟨ts, hts⟩ := tok_cons_raw ht (by
              intro e; rw [e] at c3; rcases c3 with c3 | c3 <;> cases c3)
            refine next_step B hs hts fun s1 hs1 a1 h1 => ?_
            exact ⟨_, a1, leaves_one ⟨c1, c2, rfl⟩, fun _ => c3⟩
          · rw [if_neg c3]
            rw [manifest_iff] at c3
            by_cases c4 : t.typ = .charString
            · rw [if_pos c4]
              obtain ⟨ts, hts⟩ := tok_cons ht (by rw [c4]; decide)
              refine next_step B hs hts fun s1 hs1 a1 h1 => ?_
              exact ⟨_, a1, leaves_one ⟨c4, rfl⟩, fun _ => c3⟩
            · rw [if_neg c4]
              by_cases c5 : t.typ = .numInt ∨ t.typ = .numReal
              · rw [if_pos c5]
                obtain ⟨ts, hts⟩ := tok_cons ht (by rcases c5 with c5 | c5 <;> rw [c5] <;> decide)
                refine next_step B hs hts fun s1 hs1 a1 h1 => ?_
                exact ⟨_, a1, leaves_one ⟨c5, rfl⟩, fun _ => c3⟩
              · rw [if_neg c5]
                by_cases c6 : t.typ = .ident
                · rw [if_pos c6]
                  obtain ⟨ts, hts⟩ := tok_cons ht (by rw [c6]; decide)
                  have huniq : ∀ t', s.tok? = some t' → t' = t := by
                    intro t' h'; rw [ht] at h'; injection h' with h'; exact h'.symm
                  have hd : wp (getDecl E t.raw) s (fun d s' => d = E.get s.cx t.raw ∧ s' = s) Pp Pw := by
                    show _ ∧ _
                    exact ⟨rfl, rfl⟩
                  rw [wp_bind]
                  refine wp_mono hd ?_ id id
                  rintro d? s' ⟨hd?, rfl⟩
                  cases d? with
                  | none =>
                    refine ih.dfactor s' hs (fun h => hf (by omega)) ?_ ?_
                    · intro t' h'; rw [huniq t' h']; exact c3
                    · intro w t' h'; rw [huniq t' h']
                      rintro ⟨d, e, _⟩; rw [← hg w, ← hd?] at e; cases e
                  | some d =>
                    show wp (if _ then _ else _) _ _ _ _
                    by_cases c7 : E.isType d = true
                    · rw [if_pos c7]
                      have hr : rollbackPoint s' = .ok s' s' := by
                        unfold rollbackPoint P.cur
                        obtain ⟨a, b, c⟩ := s'
                        simp only at hts
                        subst hts
                        rfl
                      rw [wp_bind]
                      have hrp : wp rollbackPoint s' (fun s0 s1 => s0 = s' ∧ s1 = s') Pp Pw := by
                        unfold wp; rw [hr]; exact ⟨rfl, rfl⟩
                      refine wp_mono hrp ?_ id id
                      rintro s0 s1 ⟨rfl, rfl⟩
                      rw [wp_bind]
                      refine wp_next ?_ hh
                      have a1 : Adv E s1 [t] { s1 with ts := s1.ts.tail } := adv_next hts
                      have hs1 := hs.adv a1
                      refine wp_is_bind hn hh fun t2 ht2 => ?_
                      have hlen := a1.len
                      by_cases c8 : sym r!"(" t2 = true
                      · simp only [c8, if_true]
                        rw [symbol_iff] at c8
                        obtain ⟨ts2, hts2⟩ := tok_cons ht2 (by rw [c8.1]; decide)
                        refine next_step B hs1 hts2 fun s2 hs2 a2 _ => ?_
                        have := a2.len
                        refine ih.expr.bind hs2 (fun h => hf (by simp at this hlen; omega)) fun e s3 u3 hs3 a3 l3 f3 => ?_
                        refine wp_current_bind (B.state hs3).2.1 fun t4 ht4 h4 => ?_
                        rw [symbol_iff] at h4
                        obtain ⟨ts4, hts4⟩ := tok_cons ht4 (by rw [h4.1]; decide)
                        refine next_step B hs3 hts4 fun s4 hs4 a4 _ => ?_
                        refine ⟨_, a1.cons (a2.cons (a3.trans a4)), leaves_cons ⟨c6, rfl⟩ (leaves_cons (leaf_sym c8)
                          (leaves_append l3 (leaves_one (leaf_sym h4)))), fun w => ⟨⟨d, by rw [← hg w]; exact hd?.symm, c7, rfl⟩, c3, f3 w⟩⟩
                      · simp only [c8]
                        rw [symbol_iff] at c8
                        rw [if_neg (by decide), wp_bind]
                        show wp _ { s1 with cx := E.rollback s1.cx } _ _ _
                        have hs' : In E R tl { s1 with cx := E.rollback s1.cx } :=
                          ⟨hs.tail, R.roll _ hs.cx, hs.good⟩
                        refine wp_mono (ih.dfactor _ hs' (fun h => hf (by simp at h; omega)) ?_ ?_) ?_ id id
                        · intro t' h'; rw [huniq t' h']; exact c3
                        · intro _ t' _ _ t3 h3 c
                          have : t3 = t2 := by
                            have : some t3 = some t2 := h3.symm.trans ht2
                            injection this
                          rw [this] at c; exact c8 c
                        · rintro a s'' ⟨us, au, lu, fu⟩
                          exact ⟨us, ⟨au.ts, au.tail, .step au.cx⟩, lu, fu⟩
                    · rw [if_neg c7]
                      refine ih.dfactor s' hs (fun h => hf (by omega)) ?_ ?_
                      · intro t' h'; rw [huniq t' h']; exact c3
                      · intro w t' h'; rw [huniq t' h']
                        rintro ⟨d', e, h⟩; rw [← hg w, ← hd?] at e; injection e with e; subst e; exact absurd h c7
                · rw [if_neg c6]; trivial
    · -- designator factor
      intro s hs hf hm ht2
      rw [parseDesigFactor]
      refine ih.desig.bind hs (fun h => hf (by omega)) fun d s1 u1 hs1 a1 l1 f1 => ?_
      have hlen := a1.len
      obtain ⟨hn1, hh1, -, -⟩ := B.state hs1
      obtain ⟨i, fl, hfl, hi⟩ := flatDesig_head d
      have l1' := l1
      rw [hfl] at l1'
      obtain ⟨t, y, rfl, hti, hy⟩ := leaves_uncons l1'
      have hst : s.tok? = some t := by
        have := a1.ts
        obtain ⟨a, b, c⟩ := s
        simp only [List.cons_append] at this
        subst this
        rfl
      have hname : headName d = t.raw := by rw [← hi, hti.2]
      have hman : ¬ Manifest u (headName d) := by rw [hname]; exact hm t hst
      refine wp_is_bind hn1 hh1 fun t3 ht3 => ?_
      by_cases c : sym r!"(" t3 = true
      · simp only [c, if_true]
        rw [symbol_iff] at c
        obtain ⟨ts3, hts3⟩ := tok_cons ht3 (by rw [c.1]; decide)
        refine next_step B hs1 hts3 fun s2 hs2 a2 _ => ?_
        have := a2.len
        rw [bind_next_pure]
        refine (ih.exprs r!")").bind hs2 (fun h => hf (by simp at this hlen; omega)) fun es s4 u4 hs4 a4 l4 f4 => ?_
        refine ⟨_, a1.trans (a2.cons a4), leaves_append l1 (leaves_cons (leaf_sym c) l4), fun w => ⟨f1 w, hman, ?_, f4 w⟩⟩
        rintro ⟨hb, hty⟩
        rw [hname] at hty
        have hone := flatDesig_bare d hb
        have := leaves_length l1
        rw [hone] at this
        have hy0 : y = [] := by cases y with | nil => rfl | cons => simp at this
        subst hy0
        refine ht2 w t hst hty t3 ?_ c
        have e := a1.ts
        have e2 := a1.tail
        obtain ⟨a, b, c⟩ := s
        obtain ⟨a', b', c'⟩ := s1
        simp only [List.cons_append, List.nil_append] at e e2
        subst e; subst e2
        exact ht3
      · simp only [c]
        exact ⟨_, a1, l1, fun w => ⟨f1 w, hman⟩⟩
    · intro s hs hf
      obtain ⟨hn, hh, -, -⟩ := B.state hs
      rw [parseDesig]
      refine wp_current_bind hh fun t ht _ => ?_
      rw [wp_bind]
      refine wp_mono (qualId_sound B hs) ?_ id id
      rintro q s1 ⟨u1, a1, l1, f1, n1⟩
      have := a1.len
      refine ih.items.bind (hs.adv a1) (fun h => hf (by omega)) fun it s2 u2 hs2 a2 l2 f2 => ?_
      exact ⟨_, a1.trans a2, leaves_append l1 l2, fun w => ⟨f1 w, f2 w⟩⟩
    · -- items
      intro s hs hf
      obtain ⟨hn, hh, -, -⟩ := B.state hs
      rw [parseItems]
      refine wp_cur?_bind hh (fun _ _ => ⟨[], Adv.refl s, trivial, fun _ => trivial⟩) fun t ht => ?_
      show wp (if _ then _ else _) _ _ _ _
      by_cases c1 : t.typ = .symbol
      · rw [if_pos c1]
        have hv : t.value u = t.raw := value_of_ne (by rw [c1]; decide)
        obtain ⟨ts, hts⟩ := tok_cons ht (by rw [c1]; decide)
        rw [hv]
        by_cases c2 : t.raw = r!"."
        · rw [if_pos c2, wp_bind]
          refine wp_nextIs (fun t2 ht2 hid => ?_) hh
          rw [typ_iff] at hid
          have a1 : Adv E s [t] { s with ts := s.ts.tail } := adv_next hts
          obtain ⟨ts2, hts2⟩ := tok_cons ht2 (by rw [hid]; decide)
          refine next_step B (hs.adv a1) hts2 fun s2 hs2 a2 _ => ?_
          have := a1.len
          have := a2.len
          refine ih.items.bind hs2 (fun h => hf (by simp at *; omega)) fun it s3 u3 hs3 a3 l3 f3 => ?_
          exact ⟨_, a1.cons (a2.cons a3), leaves_cons ⟨c1, c2⟩ (leaves_cons ⟨hid, rfl⟩ l3), f3⟩
        · rw [if_neg c2]
          by_cases c3 : t.raw = r!"["
          · rw [if_pos c3]
            refine next_step B hs hts fun s1 hs1 a1 _ => ?_
            have := a1.len
            rw [bind_next_pure]
            refine (ih.exprs r!"]").bind hs1 (fun h => hf (by simp at this; omega)) fun es s2 u2 hs2 a2 l2 f2 => ?_
            have := a2.len
            refine ih.items.bind hs2 (fun h => hf (by simp at *; omega)) fun it s3 u3 hs3 a3 l3 f3 => ?_
            refine ⟨_, a1.cons (a2.trans a3), leaves_cons ⟨c1, c3⟩ ?_, fun w => ⟨f2 w, f3 w⟩⟩
            have := leaves_append l2 l3
            simpa using this
          · rw [if_neg c3]
            by_cases c4 : t.raw = r!"^"
            · rw [if_pos c4]
              refine next_step B hs hts fun s1 hs1 a1 _ => ?_
              have := a1.len
              refine ih.items.bind hs1 (fun h => hf (by simp at *; omega)) fun it s3 u3 hs3 a3 l3 f3 => ?_
              exact ⟨_, a1.cons a3, leaves_cons ⟨c1, c4⟩ l3, f3⟩
            · rw [if_neg c4]
              exact ⟨[], Adv.refl s, trivial, fun _ => trivial⟩
      · rw [if_neg c1]
        exact ⟨[], Adv.refl s, trivial, fun _ => trivial⟩
    · -- expression lists
      intro c s hs hf
      rw [parseExprs, P.bind_assoc]
      refine ih.expr.bind hs (fun h => hf (by omega)) fun e s1 u1 hs1 a1 l1 f1 => ?_
      have := a1.len
      obtain ⟨hn, hh, -, -⟩ := B.state hs1
      rw [P.bind_assoc]
      refine wp_is_bind hn hh fun t ht => ?_
      by_cases c1 : sym c t = true
      · simp only [c1, if_true]
        rw [symbol_iff] at c1
        obtain ⟨ts, hts⟩ := tok_cons ht (by rw [c1.1]; decide)
        show wp (P.next >>= fun _ => (pure (.one e) : P κ (Exprs δ))) s1 _ Pp Pw
        refine next_step B hs1 hts fun s2 hs2 a2 _ => ?_
        exact ⟨_, a1.trans a2, leaves_append l1 (leaves_one (leaf_sym c1)), f1⟩
      · simp only [c1]
        rw [if_neg (by decide), P.bind_assoc]
        refine wp_current_bind hh fun t' ht' c2 => ?_
        rw [symbol_iff] at c2
        obtain ⟨ts, hts⟩ := tok_cons ht' (by rw [c2.1]; decide)
        rw [P.bind_assoc]
        refine next_step B hs1 hts fun s2 hs2 a2 _ => ?_
        have := a2.len
        rw [P.bind_assoc]
        show wp (parseExprs u E (sym c) n >>= fun rest => P.next >>= fun _ => (pure (.cons e rest) : P κ (Exprs δ))) s2 _ Pp Pw
        rw [bind_next_pure]
        refine (ih.exprs c).bind hs2 (fun h => hf (by simp at *; omega)) fun es s3 u3 hs3 a3 l3 f3 => ?_
        refine ⟨_, a1.trans (a2.cons a3), ?_, fun w => ⟨f1 w, f3 w⟩⟩
        have := leaves_append l1 (leaves_cons (leaf_sym c2) l3)
        simpa [flatExprs] using this
    · -- set constructor
      intro s hs hf
      obtain ⟨hn, hh, -, -⟩ := B.state hs
      rw [parseSetCons, P.bind_assoc]
      refine wp_current_bind hh fun t ht c => ?_
      rw [symbol_iff] at c
      obtain ⟨ts, hts⟩ := tok_cons ht (by rw [c.1]; decide)
      rw [P.bind_assoc]
      refine next_step B hs hts fun s1 hs1 a1 _ => ?_
      have := a1.len
      refine wp_mono (ih.elems s1 hs1 fun h => hf (by simp at *; omega)) ?_ id id
      rintro es s2 ⟨u2, a2, l2, f2⟩
      exact ⟨_, a1.cons a2, leaves_cons (leaf_sym c) l2, f2⟩
    · -- set elements
      intro s hs hf
      rw [parseSetElems, P.bind_assoc]
      refine ih.elem.bind hs (fun h => hf (by omega)) fun e s1 u1 hs1 a1 l1 f1 => ?_
      have := a1.len
      obtain ⟨hn, hh, -, -⟩ := B.state hs1
      rw [P.bind_assoc]
      refine wp_cur?_bind hh (fun _ _ => trivial) fun t ht => ?_
      by_cases c1 : sym r!"]" t = true
      · simp only [c1, if_true]
        rw [symbol_iff] at c1
        obtain ⟨ts, hts⟩ := tok_cons ht (by rw [c1.1]; decide)
        show wp (P.next >>= fun _ => (pure (.one e) : P κ (SetElems δ))) s1 _ Pp Pw
        refine next_step B hs1 hts fun s2 hs2 a2 _ => ?_
        exact ⟨_, a1.trans a2, leaves_append l1 (leaves_one (leaf_sym c1)), f1⟩
      · simp only [c1]
        rw [if_neg (by decide)]
        by_cases c2 : sym r!"," t = true
        · simp only [c2, if_true]
          rw [symbol_iff] at c2
          obtain ⟨ts, hts⟩ := tok_cons ht (by rw [c2.1]; decide)
          rw [P.bind_assoc]
          refine next_step B hs1 hts fun s2 hs2 a2 _ => ?_
          have := a2.len
          rw [P.bind_assoc]
          show wp (parseSetElems u E n >>= fun rest => P.next >>= fun _ => (pure (.cons e rest) : P κ (SetElems δ))) s2 _ Pp Pw
          rw [bind_next_pure]
          refine ih.elems.bind hs2 (fun h => hf (by simp at *; omega)) fun es s3 u3 hs3 a3 l3 f3 => ?_
          refine ⟨_, a1.trans (a2.cons a3), ?_, fun w => ⟨f1 w, f3 w⟩⟩
          have := leaves_append l1 (leaves_cons (leaf_sym c2) l3)
          simpa [flatElems] using this
        · simp only [c2]; trivial
    · -- set element
      intro s hs hf
      rw [parseSetElem]
      refine ih.expr.bind hs (fun h => hf (by omega)) fun e s1 u1 hs1 a1 l1 f1 => ?_
      have := a1.len
      obtain ⟨hn, hh, -, -⟩ := B.state hs1
      refine wp_is_bind hn hh fun t ht => ?_
      by_cases c1 : Pred.hasText u .symbol r!".." t = true
      · simp only [c1, if_true]
        rw [hasText_sym_iff] at c1
        obtain ⟨ts, hts⟩ := tok_cons ht (by rw [c1.1]; decide)
        refine next_step B hs1 hts fun s2 hs2 a2 _ => ?_
        have := a2.len
        refine ih.expr.bind hs2 (fun h => hf (by simp at *; omega)) fun e2 s3 u3 hs3 a3 l3 f3 => ?_
        exact ⟨_, a1.trans (a2.cons a3), leaves_append l1 (leaves_cons (leaf_sym c1) l3), fun w => ⟨f1 w, f3 w⟩⟩
      · simp only [c1]
        exact ⟨_, a1, l1, f1⟩

end TP
