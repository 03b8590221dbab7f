import Verif.Lemmas.Agree

/-!
# Expressions and statements of the bookkeeping of names, in the context of the parser
-/

set_option linter.unusedSectionVars false

namespace TP
open Spec

variable {u : Uni} {Γ : NameEnv} {k : DS}

section
variable (A : Agrees u Γ k)
include A

theorem elabQual (q : QualId What) (h : FitsQual (NameEnv.env u).toEnv Γ q) :
    ∃ q' : QualId (Decl Node), FitsQual (declEnv u).toEnv k q' ∧ flatQual q' = flatQual q ∧
      q.ns = none ∧ q'.ns = none ∧ q'.ident.ident = q.ident.ident ∧ Γ.get u q.ident.ident.name ≠ some .space := by
  obtain ⟨ns, i, r⟩ := q
  cases ns with
  | some n =>
    obtain ⟨d, m, -, -, -, h4, -⟩ := h
    cases h4
  | none =>
    have hns : Γ.get u i.name ≠ some .space := fun c => h.1 ⟨.space, c, rfl⟩
    refine ⟨⟨none, ⟨i, k.get u i.name⟩⟩, ⟨?_, rfl⟩, rfl, rfl, rfl, rfl, hns⟩
    rintro ⟨d, h1, h2⟩
    obtain ⟨g1, g2⟩ := A.notSpace hns h1
    rw [g1, g2] at h2
    cases h2

mutual
theorem elabExpr : ∀ e : Expr What, FitsExpr u (NameEnv.env u).toEnv Γ e →
    ∃ e' : Expr (Decl Node), FitsExpr u (declEnv u).toEnv k e' ∧ flatExpr e' = flatExpr e
  | .mk se r, h => by
    obtain ⟨a, a1, a2⟩ := elabSExpr se h.1
    obtain ⟨b, b1, b2⟩ := elabRel r h.2
    exact ⟨.mk a b, ⟨a1, b1⟩, by rw [flatExpr, flatExpr, a2, b2]⟩
theorem elabRel : ∀ r : RelTail What, FitsRel u (NameEnv.env u).toEnv Γ r →
    ∃ r' : RelTail (Decl Node), FitsRel u (declEnv u).toEnv k r' ∧ flatRel r' = flatRel r
  | .nil, _ => ⟨.nil, trivial, rfl⟩
  | .cons op se r, h => by
    obtain ⟨a, a1, a2⟩ := elabSExpr se h.2.1
    obtain ⟨b, b1, b2⟩ := elabRel r h.2.2
    exact ⟨.cons op a b, ⟨h.1, a1, b1⟩, by rw [flatRel, flatRel, a2, b2]⟩
theorem elabSExpr : ∀ e : SExpr What, FitsSExpr u (NameEnv.env u).toEnv Γ e →
    ∃ e' : SExpr (Decl Node), FitsSExpr u (declEnv u).toEnv k e' ∧ flatSExpr e' = flatSExpr e
  | .mk un t r, h => by
    obtain ⟨a, a1, a2⟩ := elabTerm t h.2.1
    obtain ⟨b, b1, b2⟩ := elabAdd r h.2.2
    exact ⟨.mk un a b, ⟨h.1, a1, b1⟩, by cases un <;> rw [flatSExpr, flatSExpr, a2, b2]⟩
theorem elabAdd : ∀ r : AddTail What, FitsAdd u (NameEnv.env u).toEnv Γ r →
    ∃ r' : AddTail (Decl Node), FitsAdd u (declEnv u).toEnv k r' ∧ flatAdd r' = flatAdd r
  | .nil, _ => ⟨.nil, trivial, rfl⟩
  | .cons op se r, h => by
    obtain ⟨a, a1, a2⟩ := elabTerm se h.2.1
    obtain ⟨b, b1, b2⟩ := elabAdd r h.2.2
    exact ⟨.cons op a b, ⟨h.1, a1, b1⟩, by rw [flatAdd, flatAdd, a2, b2]⟩
theorem elabTerm : ∀ e : Term What, FitsTerm u (NameEnv.env u).toEnv Γ e →
    ∃ e' : Term (Decl Node), FitsTerm u (declEnv u).toEnv k e' ∧ flatTerm e' = flatTerm e
  | .mk f r, h => by
    obtain ⟨a, a1, a2⟩ := elabFactor f h.1
    obtain ⟨b, b1, b2⟩ := elabMul r h.2
    exact ⟨.mk a b, ⟨a1, b1⟩, by rw [flatTerm, flatTerm, a2, b2]⟩
theorem elabMul : ∀ r : MulTail What, FitsMul u (NameEnv.env u).toEnv Γ r →
    ∃ r' : MulTail (Decl Node), FitsMul u (declEnv u).toEnv k r' ∧ flatMul r' = flatMul r
  | .nil, _ => ⟨.nil, trivial, rfl⟩
  | .cons op se r, h => by
    obtain ⟨a, a1, a2⟩ := elabFactor se h.2.1
    obtain ⟨b, b1, b2⟩ := elabMul r h.2.2
    exact ⟨.cons op a b, ⟨h.1, a1, b1⟩, by rw [flatMul, flatMul, a2, b2]⟩
theorem elabFactor : ∀ f : Factor What, FitsFactor u (NameEnv.env u).toEnv Γ f →
    ∃ f' : Factor (Decl Node), FitsFactor u (declEnv u).toEnv k f' ∧ flatFactor f' = flatFactor f
  | .desig d, h => by
    obtain ⟨a, a1, a2, a3, a4, -⟩ := elabDesig d h.1
    exact ⟨.desig a, ⟨a1, by rw [a3]; exact h.2⟩, by rw [flatFactor, flatFactor, a2]⟩
  | .call d args, h => by
    obtain ⟨a, a1, a2, a3, a4, a5⟩ := elabDesig d h.1
    obtain ⟨b, b1, b2⟩ := elabExprs args h.2.2.2
    refine ⟨.call a b, ⟨a1, by rw [a3]; exact h.2.1, ?_, b1⟩, by rw [flatFactor, flatFactor, a2, b2]⟩
    rintro ⟨c1, x, c2, c3⟩
    rw [a3] at c2
    have hnt : Γ.get u (headName d) ≠ some .type := fun c => h.2.2.1 ⟨a4.1 c1, .type, c, rfl⟩
    have hns : (u.toLower (headName d), .space) ∉ Γ.seen := fun c => a5 (by unfold NameEnv.get; rw [if_pos c])
    have hc3 := A.notType hnt hns c2
    rw [hc3] at c3; cases c3
  | .addr d, h => by
    obtain ⟨a, a1, a2, -⟩ := elabDesig d h
    exact ⟨.addr a, a1, by rw [flatFactor, flatFactor, a2]⟩
  | .value v, h => ⟨.value v, h, rfl⟩
  | .str v, h => ⟨.str v, h, rfl⟩
  | .num v, h => ⟨.num v, h, rfl⟩
  | .nil, _ => ⟨.nil, trivial, rfl⟩
  | .paren e, h => by
    obtain ⟨a, a1, a2⟩ := elabExpr e h
    exact ⟨.paren a, a1, by rw [flatFactor, flatFactor, a2]⟩
  | .not f, h => by
    obtain ⟨a, a1, a2⟩ := elabFactor f h
    exact ⟨.not a, a1, by rw [flatFactor, flatFactor, a2]⟩
  | .set es, h => by
    obtain ⟨a, a1, a2⟩ := elabElems es h
    exact ⟨.set a, a1, by rw [flatFactor, flatFactor, a2]⟩
  | .cast t e, h => by
    obtain ⟨⟨w, h1, h2, h3⟩, h4, h5⟩ := h
    obtain ⟨a, a1, a2⟩ := elabExpr e h5
    by_cases c : IsTypeName (declEnv u).toEnv k t.ident.name
    · obtain ⟨d, c1, c2⟩ := c
      exact ⟨.cast ⟨t.ident, some d⟩ a, ⟨⟨d, c1, c2, rfl⟩, h4, a1⟩, by rw [flatFactor, flatFactor, a2]⟩
    · have hw : w = .type := by simpa [NameEnv.env] using h2
      subst hw
      have hns : Γ.get u t.ident.name ≠ some .space := by
        have h1 : Γ.get u t.ident.name = some .type := h1
        rw [h1]; simp
      refine ⟨.call (.mk ⟨none, ⟨t.ident, k.get u t.ident.name⟩⟩ .nil) (.one a), ⟨⟨⟨?_, rfl⟩, trivial⟩, h4, fun c' => c c'.2, a1⟩, ?_⟩
      · rintro ⟨d, g1, g2⟩
        obtain ⟨g3, g4⟩ := A.notSpace hns g1
        rw [g3, g4] at g2
        cases g2
      · simp only [flatFactor, flatDesig, flatQual, flatItems, flatExprs, a2]
        rfl
theorem elabDesig : ∀ d : Desig What, FitsDesig u (NameEnv.env u).toEnv Γ d →
    ∃ d' : Desig (Decl Node), FitsDesig u (declEnv u).toEnv k d' ∧ flatDesig d' = flatDesig d ∧ headName d' = headName d ∧
      (IsBare d' ↔ IsBare d) ∧ Γ.get u (headName d) ≠ some .space
  | .mk q is, h => by
    obtain ⟨a, a1, a2, a3, a4, a5, a6⟩ := elabQual A q h.1
    obtain ⟨b, b1, b2, b3⟩ := elabItems is h.2
    refine ⟨.mk a b, ⟨a1, b1⟩, by rw [flatDesig, flatDesig, a2, b2], ?_, ?_, ?_⟩
    · simp only [headName, a3, a4, a5]
    · simp only [IsBare, a3, a4, b3]
    · simp only [headName, a3]; exact a6
theorem elabItems : ∀ i : Items What, FitsItems u (NameEnv.env u).toEnv Γ i →
    ∃ i' : Items (Decl Node), FitsItems u (declEnv u).toEnv k i' ∧ flatItems i' = flatItems i ∧ (i' = .nil ↔ i = .nil)
  | .nil, _ => ⟨.nil, trivial, rfl, by simp⟩
  | .ident i r, h => by
    obtain ⟨b, b1, b2, -⟩ := elabItems r h
    exact ⟨.ident i b, b1, by rw [flatItems, flatItems, b2], by simp⟩
  | .index es r, h => by
    obtain ⟨a, a1, a2⟩ := elabExprs es h.1
    obtain ⟨b, b1, b2, -⟩ := elabItems r h.2
    exact ⟨.index a b, ⟨a1, b1⟩, by rw [flatItems, flatItems, a2, b2], by simp⟩
  | .deref r, h => by
    obtain ⟨b, b1, b2, -⟩ := elabItems r h
    exact ⟨.deref b, b1, by rw [flatItems, flatItems, b2], by simp⟩
theorem elabExprs : ∀ e : Exprs What, FitsExprs u (NameEnv.env u).toEnv Γ e →
    ∃ e' : Exprs (Decl Node), FitsExprs u (declEnv u).toEnv k e' ∧ flatExprs e' = flatExprs e
  | .one e, h => by
    obtain ⟨a, a1, a2⟩ := elabExpr e h
    exact ⟨.one a, a1, by rw [flatExprs, flatExprs, a2]⟩
  | .cons e r, h => by
    obtain ⟨a, a1, a2⟩ := elabExpr e h.1
    obtain ⟨b, b1, b2⟩ := elabExprs r h.2
    exact ⟨.cons a b, ⟨a1, b1⟩, by rw [flatExprs, flatExprs, a2, b2]⟩
theorem elabElems : ∀ e : SetElems What, FitsElems u (NameEnv.env u).toEnv Γ e →
    ∃ e' : SetElems (Decl Node), FitsElems u (declEnv u).toEnv k e' ∧ flatElems e' = flatElems e
  | .one e, h => by
    obtain ⟨a, a1, a2⟩ := elabElem e h
    exact ⟨.one a, a1, by rw [flatElems, flatElems, a2]⟩
  | .cons e r, h => by
    obtain ⟨a, a1, a2⟩ := elabElem e h.1
    obtain ⟨b, b1, b2⟩ := elabElems r h.2
    exact ⟨.cons a b, ⟨a1, b1⟩, by rw [flatElems, flatElems, a2, b2]⟩
theorem elabElem : ∀ e : SetElem What, FitsElem u (NameEnv.env u).toEnv Γ e →
    ∃ e' : SetElem (Decl Node), FitsElem u (declEnv u).toEnv k e' ∧ flatElem e' = flatElem e
  | .single e, h => by
    obtain ⟨a, a1, a2⟩ := elabExpr e h
    exact ⟨.single a, a1, by rw [flatElem, flatElem, a2]⟩
  | .range lo hi, h => by
    obtain ⟨a, a1, a2⟩ := elabExpr lo h.1
    obtain ⟨b, b1, b2⟩ := elabExpr hi h.2
    exact ⟨.range a b, ⟨a1, b1⟩, by rw [flatElem, flatElem, a2, b2]⟩
end

theorem elabDExpr {e : Expr What} {x : List Token} (h : DExpr u (NameEnv.env u) True Γ e x) :
    ∃ e', DExpr u ((declEnv u).senv u) True k e' x := by
  obtain ⟨e', h1, h2⟩ := elabExpr A e (h.2 trivial)
  exact ⟨e', by rw [h2]; exact h.1, fun _ => h1⟩

theorem elabDExprs {e : Exprs What} {x : List Token} (h : DExprs u (NameEnv.env u) True Γ e x) :
    ∃ e', DExprs u ((declEnv u).senv u) True k e' x := by
  obtain ⟨e', h1, h2⟩ := elabExprs A e (h.2 trivial)
  exact ⟨e', by rw [h2]; exact h.1, fun _ => h1⟩

theorem elabDDesig {e : Desig What} {x : List Token} (h : DDesig u (NameEnv.env u) True Γ e x) :
    ∃ e', DDesig u ((declEnv u).senv u) True k e' x := by
  obtain ⟨e', h1, h2, -⟩ := elabDesig A e (h.2 trivial)
  exact ⟨e', by rw [h2]; exact h.1, fun _ => h1⟩

theorem elabDQual {e : QualId What} {x : List Token} (h : DQual u (NameEnv.env u) True Γ e x) :
    ∃ e', DQual u ((declEnv u).senv u) True k e' x := by
  obtain ⟨e', h1, h2, -⟩ := elabQual A e (h.2 trivial)
  exact ⟨e', by rw [h2]; exact h.1, fun _ => h1⟩

theorem elabDQualIds : ∀ (qs : QualIds What) {x : List Token}, DQualIds u (NameEnv.env u) True Γ qs x →
    ∃ qs', DQualIds u ((declEnv u).senv u) True k qs' x
  | .one q, x, h => by
    rw [DQualIds] at h
    obtain ⟨q', h1⟩ := elabDQual A h
    exact ⟨.one q', by rw [DQualIds]; exact h1⟩
  | .cons q qs, x, h => by
    rw [DQualIds] at h
    obtain ⟨x, t, y, rfl, h1, h2, h3⟩ := h
    obtain ⟨q', h1⟩ := elabDQual A h1
    obtain ⟨qs', h3⟩ := elabDQualIds qs h3
    exact ⟨.cons q' qs', by rw [DQualIds]; exact ⟨x, t, y, rfl, h1, h2, h3⟩⟩

theorem elabDCaseLabel : ∀ (l : CaseLabel What) {x : List Token}, DCaseLabel u (NameEnv.env u) True Γ l x →
    ∃ l', DCaseLabel u ((declEnv u).senv u) True k l' x
  | .single e, x, h => by
    obtain ⟨e', h1⟩ := elabDExpr A h
    exact ⟨.single e', h1⟩
  | .range lo hi, x, h => by
    obtain ⟨x, t, y, rfl, h1, h2, h3⟩ := h
    obtain ⟨lo', h1⟩ := elabDExpr A h1
    obtain ⟨hi', h3⟩ := elabDExpr A h3
    exact ⟨.range lo' hi', x, t, y, rfl, h1, h2, h3⟩

theorem elabDCaseLabels : ∀ (l : CaseLabels What) {x : List Token}, DCaseLabels u (NameEnv.env u) True Γ l x →
    ∃ l', DCaseLabels u ((declEnv u).senv u) True k l' x
  | .one q, x, h => by
    rw [DCaseLabels] at h
    obtain ⟨q', h1⟩ := elabDCaseLabel A q h
    exact ⟨.one q', by rw [DCaseLabels]; exact h1⟩
  | .cons q qs, x, h => by
    rw [DCaseLabels] at h
    obtain ⟨x, t, y, rfl, h1, h2, h3⟩ := h
    obtain ⟨q', h1⟩ := elabDCaseLabel A q h1
    obtain ⟨qs', h3⟩ := elabDCaseLabels qs h3
    exact ⟨.cons q' qs', by rw [DCaseLabels]; exact ⟨x, t, y, rfl, h1, h2, h3⟩⟩

theorem elabRaise {obj addr : Option (Expr What)} {x : List Token} (h : DRaise u (NameEnv.env u) True Γ obj addr x) :
    ∃ obj' addr', DRaise u ((declEnv u).senv u) True k obj' addr' x ∧ (obj'.isNone = obj.isNone) ∧ addr'.isNone = addr.isNone := by
  obtain ⟨t, x, y, rfl, h1, h2, h3⟩ := h
  cases obj with
  | none =>
    cases addr with
    | none => exact ⟨none, none, ⟨t, x, y, rfl, h1, h2, h3⟩, rfl, rfl⟩
    | some e =>
      obtain ⟨t', z, g1, g2, g3⟩ := h3
      obtain ⟨e', g⟩ := elabDExpr A g3
      exact ⟨none, some e', ⟨t, x, y, rfl, h1, h2, t', z, g1, g2, g⟩, rfl, rfl⟩
  | some o =>
    obtain ⟨o', go⟩ := elabDExpr A h2.1
    cases addr with
    | none => exact ⟨some o', none, ⟨t, x, y, rfl, h1, ⟨go, h2.2⟩, h3⟩, rfl, rfl⟩
    | some e =>
      obtain ⟨t', z, g1, g2, g3⟩ := h3
      obtain ⟨e', g⟩ := elabDExpr A g3
      exact ⟨some o', some e', ⟨t, x, y, rfl, h1, ⟨go, h2.2⟩, t', z, g1, g2, g⟩, rfl, rfl⟩

end

/-- the type of a name that denotes the declaration `d` -/
def nameTy (u : Uni) (t : Token) (d : Decl Node) : PType (Decl Node) :=
  .id ⟨none, Ident.ofTok t, .now ((((DS.emb u .real (t.value u)).or (DS.emb u .ordIdent (t.value u))).or
    (DS.emb u .string (t.value u))).getD d)⟩

/-- the type of an exception handler, in the context of the parser -/
def HandlerTy (u : Uni) (k : DS) (ty : PType (Decl Node)) (ts : List Token) (k' : DS) : Prop :=
  k' = k ∧ ∃ t d, ts = [t] ∧ t.typ = .ident ∧ k.get u t.raw = some d ∧ (declEnv u).isType d = true ∧
    (declEnv u).isUses d = false ∧ ty = nameTy u t d

abbrev SD (u : Uni) : SEnv DS (Decl Node) (PType (Decl Node)) := (declEnv u).senv u

/-- the contexts agree, and it is known which of the tokens are labels -/
def AgreesL (u : Uni) (W : List Token) (Γ : NameEnv) (k : DS) : Prop := Agrees u Γ k ∧ ∀ t ∈ W, Γ.Clear u (t.value u)

theorem AgreesL.notLabel {W : List Token} (A : AgreesL u W Γ k) {t : Token} (ht : t ∈ W) (h : ¬ IsLabelName (NameEnv.env u) Γ (t.value u)) :
    ¬ IsLabelName (SD u) k (t.value u) := by
  rintro ⟨d, h1, h2⟩
  have hn : (u.toLower (t.value u), .label) ∉ Γ.seen := fun c => h ⟨.label, (A.2 t ht c).1, rfl⟩
  rw [show (SD u).isLabel d = (declEnv u).isLabel d from rfl, A.1.notLabel hn h1] at h2
  cases h2

theorem AgreesL.label {W : List Token} (A : AgreesL u W Γ k) {t : Token} (ht : t ∈ W) (h : IsLabelName (NameEnv.env u) Γ (t.value u)) :
    IsLabelName (SD u) k (t.value u) := by
  obtain ⟨w, h1, h2⟩ := h
  have h2 : w = .label := by simpa [NameEnv.env] using h2
  subst h2
  have hs : (u.toLower (t.value u), .label) ∈ Γ.seen := by
    have h1 : Γ.get u (t.value u) = some .label := h1
    unfold NameEnv.get at h1
    split at h1
    · cases h1
    · split at h1
      · cases h1
      · split at h1
        · assumption
        · cases h1
  obtain ⟨d, g1, g2⟩ := A.1.sure _ _ (A.2 t ht hs).2
  rcases g2 with ⟨-, i, g2⟩ | ⟨c, -⟩
  · exact ⟨d, g1, by show (declEnv u).isLabel d = true; simp only [declEnv, g2]⟩
  · exact absurd rfl c

/-- the name of an exception handler is no label -/
theorem AgreesL.declare {W : List Token} (h : ∀ t ∈ W, Γ.Clear u (t.value u)) {n : Str} (hn : (u.toLower n, .label) ∉ Γ.seen) :
    ∀ t ∈ W, (Γ.declare u [n]).Clear u (t.value u) := by
  intro t ht hs
  have hs : (u.toLower (t.value u), .label) ∈ Γ.seen := by
    rcases List.mem_append.1 hs with c | c
    · simp at c
    · exact c
  obtain ⟨g1, g2⟩ := h t ht hs
  refine ⟨?_, List.mem_filter.2 ⟨g2, decide_eq_true ?_⟩⟩
  · rw [← g1]
    unfold NameEnv.get NameEnv.declare
    simp
  · intro c
    rw [List.map_cons, List.map_nil, List.mem_singleton] at c
    exact hn (c ▸ hs)

variable {W : List Token}

mutual
theorem elabStmt : ∀ (st : Stmt What Unit) {Γ Γ' : NameEnv} {k : DS} {x : List Token}, AgreesL u W Γ k → x ⊆ W →
    DStmt u (NameEnv.env u) True (OkHandlerType u) Γ st x Γ' →
    ∃ st' k', DStmt u (SD u) True (HandlerTy u) k st' x k' ∧ AgreesL u W Γ' k' ∧ bareRaise st' = bareRaise st ∧ openIf st' = openIf st
  | .mk none b, Γ, Γ', k, x, A, hx, h => by
    rw [DStmt] at h
    obtain ⟨b', k', h1, h2, h3, h4⟩ := elabBody b A (fun _ ht => hx (by simp [ht])) h.1
    exact ⟨.mk none b', k', by rw [DStmt]; exact ⟨h1, fun _ t ht => A.notLabel (hx (List.mem_of_mem_head? ht)) (h.2 trivial t ht)⟩, h2, by rw [bareRaise, bareRaise, h3],
      by rw [openIf, openIf, h4]⟩
  | .mk (some i) b, Γ, Γ', k, x, A, hx, h => by
    rw [DStmt] at h
    obtain ⟨t, c, x, rfl, rfl, h1, h2, h3⟩ := h
    obtain ⟨b', k', g1, g2, g3, g4⟩ := elabBody b A (fun _ ht => hx (by simp [ht])) h3
    exact ⟨.mk (some _) b', k', by rw [DStmt]; exact ⟨t, c, x, rfl, rfl, h1, fun _ => A.label (hx (by simp)) (h2 trivial), g1⟩, g2,
      by rw [bareRaise, bareRaise, g3], by rw [openIf, openIf, g4]⟩
theorem elabBody : ∀ (b : Body What Unit) {Γ Γ' : NameEnv} {k : DS} {x : List Token}, AgreesL u W Γ k → x ⊆ W →
    DBody u (NameEnv.env u) True (OkHandlerType u) Γ b x Γ' →
    ∃ b' k', DBody u (SD u) True (HandlerTy u) k b' x k' ∧ AgreesL u W Γ' k' ∧ bareRaiseB b' = bareRaiseB b ∧ openIfB b' = openIfB b
  | .assign d e, Γ, Γ', k, x, A, hx, h => by
    rw [DBody] at h
    obtain ⟨rfl, x, t, y, rfl, h1, h2, h3⟩ := h
    obtain ⟨d', h1⟩ := elabDDesig A.1 h1
    obtain ⟨e', h3⟩ := elabDExpr A.1 h3
    exact ⟨.assign d' e', k, by rw [DBody]; exact ⟨rfl, x, t, y, rfl, h1, h2, h3⟩, A, rfl, rfl⟩
  | .call d, Γ, Γ', k, x, A, hx, h => by
    rw [DBody] at h
    obtain ⟨rfl, h1⟩ := h
    obtain ⟨d', h1⟩ := elabDDesig A.1 h1
    exact ⟨.call d', k, by rw [DBody]; exact ⟨rfl, h1⟩, A, rfl, rfl⟩
  | .callArgs d e, Γ, Γ', k, x, A, hx, h => by
    rw [DBody] at h
    obtain ⟨rfl, x, t, y, c, rfl, h1, h2, h3, h4⟩ := h
    obtain ⟨d', h1⟩ := elabDDesig A.1 h1
    obtain ⟨e', h3⟩ := elabDExprs A.1 h3
    exact ⟨.callArgs d' e', k, by rw [DBody]; exact ⟨rfl, x, t, y, c, rfl, h1, h2, h3, h4⟩, A, rfl, rfl⟩
  | .inherited, Γ, Γ', k, x, A, hx, h => by
    rw [DBody] at h
    obtain ⟨rfl, t, h⟩ := h
    exact ⟨.inherited, k, by rw [DBody]; exact ⟨rfl, t, h⟩, A, rfl, rfl⟩
  | .goto i r, Γ, Γ', k, x, A, hx, h => by
    rw [DBody] at h
    obtain ⟨rfl, t, l, h1, h2, h3, h4, -⟩ := h
    exact ⟨.goto i (k.get u l.raw), k, by rw [DBody]; exact ⟨rfl, t, l, h1, h2, h3, h4, fun _ => rfl⟩, A, rfl, rfl⟩
  | .compound l, Γ, Γ', k, x, A, hx, h => by
    rw [DBody] at h
    obtain ⟨t, x, c, rfl, h1, h2, h3⟩ := h
    obtain ⟨l', k', g1, g2⟩ := elabStmts l A (fun _ ht => hx (by simp [ht])) h2
    exact ⟨.compound l', k', by rw [DBody]; exact ⟨t, x, c, rfl, h1, g1, h3⟩, g2, rfl, rfl⟩
  | .ifThen c s, Γ, Γ', k, x, A, hx, h => by
    rw [DBody] at h
    obtain ⟨t, x, w, y, rfl, h1, h2, h3, h4⟩ := h
    obtain ⟨c', h2⟩ := elabDExpr A.1 h2
    obtain ⟨s', k', g1, g2, g3, g4⟩ := elabStmt s A (fun _ ht => hx (by simp [ht])) h4
    exact ⟨.ifThen c' s', k', by rw [DBody]; exact ⟨t, x, w, y, rfl, h1, h2, h3, g1⟩, g2, by rw [bareRaiseB, bareRaiseB, g3], rfl⟩
  | .ifElse c s1 s2, Γ, Γ', k, x, A, hx, h => by
    rw [DBody] at h
    obtain ⟨t, x, w, y, e, z, Γ1, rfl, h1, h2, h3, h4, h5, h6, h7, h8⟩ := h
    obtain ⟨c', h2⟩ := elabDExpr A.1 h2
    obtain ⟨s1', k1, g1, g2, g3, g4⟩ := elabStmt s1 A (fun _ ht => hx (by simp [ht])) h4
    obtain ⟨s2', k', f1, f2, f3, f4⟩ := elabStmt s2 g2 (fun _ ht => hx (by simp [ht])) h8
    exact ⟨.ifElse c' s1' s2', k', by rw [DBody]; exact ⟨t, x, w, y, e, z, k1, rfl, h1, h2, h3, g1, g4.trans h5, g3.trans h6, h7, f1⟩,
      f2, by rw [bareRaiseB, bareRaiseB, f3], by rw [openIfB, openIfB, f4]⟩
  | .case e ss el, Γ, Γ', k, x, A, hx, h => by
    rw [DBody] at h
    obtain ⟨t, x, w, y, z, c, Γ1, rfl, h1, h2, h3, h4, h5, h6⟩ := h
    obtain ⟨e', h2⟩ := elabDExpr A.1 h2
    obtain ⟨ss', k1, g1, g2⟩ := elabSels ss A (fun _ ht => hx (by simp [ht])) h4
    obtain ⟨el', k', f1, f2⟩ := elabElse el g2 (fun _ ht => hx (by simp [ht])) h5
    exact ⟨.case e' ss' el', k', by rw [DBody]; exact ⟨t, x, w, y, z, c, k1, rfl, h1, h2, h3, g1, f1, h6⟩, f2, rfl, rfl⟩
  | .repeat l c, Γ, Γ', k, x, A, hx, h => by
    rw [DBody] at h
    obtain ⟨t, x, w, y, rfl, h1, h2, h3, h4⟩ := h
    obtain ⟨l', k', g1, g2⟩ := elabStmts l A (fun _ ht => hx (by simp [ht])) h2
    obtain ⟨c', h4⟩ := elabDExpr g2.1 h4
    exact ⟨.repeat l' c', k', by rw [DBody]; exact ⟨t, x, w, y, rfl, h1, g1, h3, h4⟩, g2, rfl, rfl⟩
  | .while c s, Γ, Γ', k, x, A, hx, h => by
    rw [DBody] at h
    obtain ⟨t, x, w, y, rfl, h1, h2, h3, h4⟩ := h
    obtain ⟨c', h2⟩ := elabDExpr A.1 h2
    obtain ⟨s', k', g1, g2, g3, g4⟩ := elabStmt s A (fun _ ht => hx (by simp [ht])) h4
    exact ⟨.while c' s', k', by rw [DBody]; exact ⟨t, x, w, y, rfl, h1, h2, h3, g1⟩, g2, by rw [bareRaiseB, bareRaiseB, g3],
      by rw [openIfB, openIfB, g4]⟩
  | .for q down lo hi s, Γ, Γ', k, x, A, hx, h => by
    rw [DBody] at h
    obtain ⟨t, x, a, y, o, z, w, v, rfl, h1, h2, h3, h4, h5, h6, h7, h8⟩ := h
    obtain ⟨q', h2⟩ := elabDQual A.1 h2
    obtain ⟨lo', h4⟩ := elabDExpr A.1 h4
    obtain ⟨hi', h6⟩ := elabDExpr A.1 h6
    obtain ⟨s', k', g1, g2, g3, g4⟩ := elabStmt s A (fun _ ht => hx (by simp [ht])) h8
    exact ⟨.for q' down lo' hi' s', k', by rw [DBody]; exact ⟨t, x, a, y, o, z, w, v, rfl, h1, h2, h3, h4, h5, h6, h7, g1⟩, g2,
      by rw [bareRaiseB, bareRaiseB, g3], by rw [openIfB, openIfB, g4]⟩
  | .with qs s, Γ, Γ', k, x, A, hx, h => by
    rw [DBody] at h
    obtain ⟨t, x, w, y, rfl, h1, h2, h3, h4⟩ := h
    obtain ⟨c', h2⟩ := elabDQualIds A.1 qs h2
    obtain ⟨s', k', g1, g2, g3, g4⟩ := elabStmt s A (fun _ ht => hx (by simp [ht])) h4
    exact ⟨.with c' s', k', by rw [DBody]; exact ⟨t, x, w, y, rfl, h1, h2, h3, g1⟩, g2, by rw [bareRaiseB, bareRaiseB, g3],
      by rw [openIfB, openIfB, g4]⟩
  | .tryExcept l b, Γ, Γ', k, x, A, hx, h => by
    rw [DBody] at h
    obtain ⟨t, x, w, y, Γ1, rfl, h1, h2, h3, h4⟩ := h
    obtain ⟨l', k1, g1, g2⟩ := elabStmts l A (fun _ ht => hx (by simp [ht])) h2
    obtain ⟨b', k', f1, f2⟩ := elabExc b g2 (fun _ ht => hx (by simp [ht])) h4
    exact ⟨.tryExcept l' b', k', by rw [DBody]; exact ⟨t, x, w, y, k1, rfl, h1, g1, h3, f1⟩, f2, rfl, rfl⟩
  | .tryFinally l1 l2, Γ, Γ', k, x, A, hx, h => by
    rw [DBody] at h
    obtain ⟨t, x, w, y, c, Γ1, rfl, h1, h2, h3, h4, h5⟩ := h
    obtain ⟨l', k1, g1, g2⟩ := elabStmts l1 A (fun _ ht => hx (by simp [ht])) h2
    obtain ⟨b', k', f1, f2⟩ := elabStmts l2 g2 (fun _ ht => hx (by simp [ht])) h4
    exact ⟨.tryFinally l' b', k', by rw [DBody]; exact ⟨t, x, w, y, c, k1, rfl, h1, g1, h3, f1, h5⟩, f2, rfl, rfl⟩
  | .raise obj addr, Γ, Γ', k, x, A, hx, h => by
    rw [DBody] at h
    obtain ⟨rfl, h⟩ := h
    obtain ⟨a, b, h1, h2, h3⟩ := elabRaise A.1 h
    refine ⟨.raise a b, k, by rw [DBody]; exact ⟨rfl, h1⟩, A, ?_, rfl⟩
    cases obj <;> cases addr <;> cases a <;> cases b <;> first | rfl | (cases h2; done) | (cases h3; done)
  | .asm, Γ, Γ', k, x, A, hx, h => by
    rw [DBody] at h
    obtain ⟨rfl, h⟩ := h
    exact ⟨.asm, k, by rw [DBody]; exact ⟨rfl, h⟩, A, rfl, rfl⟩
theorem elabStmts : ∀ (l : Stmts What Unit) {Γ Γ' : NameEnv} {k : DS} {x : List Token}, AgreesL u W Γ k → x ⊆ W →
    DStmts u (NameEnv.env u) True (OkHandlerType u) Γ l x Γ' →
    ∃ l' k', DStmts u (SD u) True (HandlerTy u) k l' x k' ∧ AgreesL u W Γ' k'
  | .one s, Γ, Γ', k, x, A, hx, h => by
    rw [DStmts] at h
    rcases h with ⟨h1, h2⟩ | ⟨x, t, rfl, h1, h2⟩
    · obtain ⟨s', k', g1, g2, g3, g4⟩ := elabStmt s A (fun _ ht => hx (by simp [ht])) h2
      exact ⟨.one s', k', by rw [DStmts]; exact .inl ⟨g3.trans h1, g1⟩, g2⟩
    · obtain ⟨s', k', g1, g2, g3, g4⟩ := elabStmt s A (fun _ ht => hx (by simp [ht])) h1
      exact ⟨.one s', k', by rw [DStmts]; exact .inr ⟨x, t, rfl, g1, h2⟩, g2⟩
  | .cons s r, Γ, Γ', k, x, A, hx, h => by
    rw [DStmts] at h
    obtain ⟨x, t, y, Γ1, rfl, h1, h2, h3⟩ := h
    obtain ⟨s', k1, g1, g2, -⟩ := elabStmt s A (fun _ ht => hx (by simp [ht])) h1
    obtain ⟨r', k', f1, f2⟩ := elabStmts r g2 (fun _ ht => hx (by simp [ht])) h3
    exact ⟨.cons s' r', k', by rw [DStmts]; exact ⟨x, t, y, k1, rfl, g1, h2, f1⟩, f2⟩
theorem elabElse : ∀ (l : OptStmts What Unit) {Γ Γ' : NameEnv} {k : DS} {x : List Token}, AgreesL u W Γ k → x ⊆ W →
    DElse u (NameEnv.env u) True (OkHandlerType u) Γ l x Γ' →
    ∃ l' k', DElse u (SD u) True (HandlerTy u) k l' x k' ∧ AgreesL u W Γ' k'
  | .none, Γ, Γ', k, x, A, hx, h => by
    rw [DElse] at h
    obtain ⟨rfl, rfl⟩ := h
    exact ⟨.none, k, by rw [DElse]; exact ⟨rfl, rfl⟩, A⟩
  | .some l, Γ, Γ', k, x, A, hx, h => by
    rw [DElse] at h
    obtain ⟨t, x, rfl, h1, h2⟩ := h
    obtain ⟨l', k', g1, g2⟩ := elabStmts l A (fun _ ht => hx (by simp [ht])) h2
    exact ⟨.some l', k', by rw [DElse]; exact ⟨t, x, rfl, h1, g1⟩, g2⟩
theorem elabSels : ∀ (l : Sels What Unit) {Γ Γ' : NameEnv} {k : DS} {x : List Token}, AgreesL u W Γ k → x ⊆ W →
    DSels u (NameEnv.env u) True (OkHandlerType u) Γ l x Γ' →
    ∃ l' k', DSels u (SD u) True (HandlerTy u) k l' x k' ∧ AgreesL u W Γ' k'
  | .one ls s, Γ, Γ', k, x, A, hx, h => by
    rw [DSels] at h
    obtain ⟨x, t, y, c, rfl, h1, h2, h3, h4⟩ := h
    obtain ⟨ls', h1⟩ := elabDCaseLabels A.1 ls h1
    obtain ⟨s', k', g1, g2, -⟩ := elabStmt s A (fun _ ht => hx (by simp [ht])) h3
    exact ⟨.one ls' s', k', by rw [DSels]; exact ⟨x, t, y, c, rfl, h1, h2, g1, h4⟩, g2⟩
  | .cons ls s r, Γ, Γ', k, x, A, hx, h => by
    rw [DSels] at h
    obtain ⟨x, t, y, c, z, Γ1, rfl, h1, h2, h3, h4, h5⟩ := h
    obtain ⟨ls', h1⟩ := elabDCaseLabels A.1 ls h1
    obtain ⟨s', k1, g1, g2, -⟩ := elabStmt s A (fun _ ht => hx (by simp [ht])) h3
    obtain ⟨r', k', f1, f2⟩ := elabSels r g2 (fun _ ht => hx (by simp [ht])) h5
    exact ⟨.cons ls' s' r', k', by rw [DSels]; exact ⟨x, t, y, c, z, k1, rfl, h1, h2, g1, h4, f1⟩, f2⟩
theorem elabExc : ∀ (l : ExcBlock What Unit) {Γ Γ' : NameEnv} {k : DS} {x : List Token}, AgreesL u W Γ k → x ⊆ W →
    DExc u (NameEnv.env u) True (OkHandlerType u) Γ l x Γ' →
    ∃ l' k', DExc u (SD u) True (HandlerTy u) k l' x k' ∧ AgreesL u W Γ' k'
  | .plain l, Γ, Γ', k, x, A, hx, h => by
    rw [DExc] at h
    obtain ⟨x, c, rfl, h1, h2, h3⟩ := h
    obtain ⟨l', k', g1, g2⟩ := elabStmts l A (fun _ ht => hx (by simp [ht])) h1
    exact ⟨.plain l', k', by rw [DExc]; exact ⟨x, c, rfl, g1, h2, h3⟩, g2⟩
  | .handlers hs .none, Γ, Γ', k, x, A, hx, h => by
    rw [DExc] at h
    obtain ⟨x, y, c, rfl, h1, h2, h3⟩ := h
    obtain ⟨l', k', g1, g2⟩ := elabHandlers hs A (fun _ ht => hx (by simp [ht])) h1
    exact ⟨.handlers l' .none, k', by rw [DExc]; exact ⟨x, y, c, rfl, g1, h2, h3⟩, g2⟩
  | .handlers hs (.some l), Γ, Γ', k, x, A, hx, h => by
    rw [DExc] at h
    obtain ⟨x, t, y, c, Γ1, rfl, h1, h2, h3, h4⟩ := h
    obtain ⟨hs', k1, g1, g2⟩ := elabHandlers hs A (fun _ ht => hx (by simp [ht])) h1
    obtain ⟨l', k', f1, f2⟩ := elabStmts l g2 (fun _ ht => hx (by simp [ht])) h3
    exact ⟨.handlers hs' (.some l'), k', by rw [DExc]; exact ⟨x, t, y, c, k1, rfl, g1, h2, f1, h4⟩, f2⟩
theorem elabHandlers : ∀ (l : Handlers What Unit) {Γ Γ' : NameEnv} {k : DS} {e : Bool} {x : List Token}, AgreesL u W Γ k → x ⊆ W →
    DHandlers u (NameEnv.env u) True (OkHandlerType u) Γ e l x Γ' →
    ∃ l' k', DHandlers u (SD u) True (HandlerTy u) k e l' x k' ∧ AgreesL u W Γ' k'
  | .one hd, Γ, Γ', k, e, x, A, hx, h => by
    rw [DHandlers] at h
    obtain ⟨h', k', g1, g2⟩ := elabHandler hd A (fun _ ht => hx (by simp [ht])) h
    exact ⟨.one h', k', by rw [DHandlers]; exact g1, g2⟩
  | .cons hd r, Γ, Γ', k, e, x, A, hx, h => by
    rw [DHandlers] at h
    obtain ⟨x, y, Γ1, rfl, h1, h2⟩ := h
    obtain ⟨h', k1, g1, g2⟩ := elabHandler hd A (fun _ ht => hx (by simp [ht])) h1
    obtain ⟨r', k', f1, f2⟩ := elabHandlers r g2 (fun _ ht => hx (by simp [ht])) h2
    exact ⟨.cons h' r', k', by rw [DHandlers]; exact ⟨x, y, k1, rfl, g1, f1⟩, f2⟩
theorem elabHandler : ∀ (l : Handler What Unit) {Γ Γ' : NameEnv} {k : DS} {e : Bool} {x : List Token}, AgreesL u W Γ k → x ⊆ W →
    DHandler u (NameEnv.env u) True (OkHandlerType u) Γ e l x Γ' →
    ∃ l' k', DHandler u (SD u) True (HandlerTy u) k e l' x k' ∧ AgreesL u W Γ' k'
  | .mk none ty s, Γ, Γ', k, e, x, A, hx, h => by
    rw [DHandler] at h
    obtain ⟨t, x, d, y, z, Γ1, rfl, h1, ⟨rfl, t', rfl, h2, h3⟩, -, h5, h6, h7⟩ := h
    obtain ⟨dd, a1, a2, a3⟩ := A.1.sureType h3
    obtain ⟨s', k', g1, g2, g3, g4⟩ := elabStmt s A (fun _ ht => hx (by simp [ht])) h6
    refine ⟨.mk none (nameTy u t' dd) s', k', ?_, g2⟩
    rw [DHandler]
    refine ⟨t, [t'], d, y, z, k, rfl, h1, ⟨rfl, t', dd, rfl, h2, a1, a2, a3, rfl⟩, fun _ t'' ht => ?_, h5, g1, by rw [g3, g4]; exact h7⟩
    simp only [List.cons_append, List.head?_cons] at ht
    cases ht
    exact ⟨dd, a1, a2⟩
  | .mk (some i) ty s, Γ, Γ', k, e, x, A, hx, h => by
    rw [DHandler] at h
    obtain ⟨t, n, c, x, d, y, z, Γ1, Γ2, rfl, h1, rfl, h4, h5, ⟨rfl, t', rfl, h2, h3⟩, h8, h9, h10, h11⟩ := h
    obtain ⟨dd, a1, a2, a3⟩ := A.1.sureType h3
    have hset := h8 trivial
    simp only [NameEnv.env] at hset
    split at hset
    · cases hset
    · rename_i hne
      rw [not_or, not_or] at hne
      injection hset with hset
      subst hset
      obtain ⟨k2, b1, b2, -⟩ := A.1.declare (is := [⟨n.raw, n.start, n.stop⟩]) (kind := .handler) trivial
        ⟨by simp, by simpa using hne.1⟩
      obtain ⟨s', k', g1, g2, g3, g4⟩ := elabStmt s ⟨b2, AgreesL.declare A.2 hne.2.2⟩ (fun _ ht => hx (by simp [ht])) h10
      refine ⟨.mk (some ⟨n.raw, n.start, n.stop⟩) (nameTy u t' dd) s', k', ?_, g2⟩
      rw [DHandler]
      refine ⟨t, n, c, [t'], d, y, z, k, k2, rfl, h1, rfl, fun _ => ?_, h5, ⟨rfl, t', dd, rfl, h2, a1, a2, a3, rfl⟩, fun _ => b1,
        h9, g1, by rw [g3, g4]; exact h11⟩
      rintro ⟨d', c1, c2⟩
      have hnt : Γ1.get u n.raw ≠ some What.type := fun c => h4 trivial ⟨.type, c, rfl⟩
      have hc3 := A.1.notType hnt hne.2.1 c1
      rw [show (SD u).isType d' = (declEnv u).isType d' from rfl, hc3] at c2; cases c2
end

end TP
