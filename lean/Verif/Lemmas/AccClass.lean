import Verif.Lemmas.AccProp

/-!
# Acceptance of records and classes
-/

namespace TP
open Spec

variable {u : Uni} {tl : Tail} {α β : Type} {Γ Γ1 Γ' : NameEnv} {rest : List Token}

/-! ## Records -/

/-- `END` or `)` after the fields of a record or of a variant -/
structure FieldsEnd (u : Uni) (term : Pred) : Prop where
  stops : ∀ t, term t = true → StopsTy u t
  ident : ∀ t : Token, t.typ = .ident → ¬ term t = true
  semi : ∀ t, IsSym r!";" t → ¬ term t = true
  notCase : ∀ t, term t = true → ¬ IsKw u r!"CASE" t

theorem fieldsEnd_end : FieldsEnd u (kw u r!"END") where
  stops _ h := kw_stopsTy (kw_iff.1 h) (by decide)
  ident _ h := kwF (ident_not_kw h)
  semi _ h := kwF (sym_not_kw h)
  notCase _ h := kw_ne (kw_iff.1 h) (by decide)

theorem fieldsEnd_close : FieldsEnd u (sym r!")") where
  stops _ h := sym_stopsTy (symbol_iff.1 h) (by decide)
  ident _ h := symF (ident_not_sym h)
  semi _ h := symF (not_sym h (by decide))
  notCase _ h := sym_not_kw (symbol_iff.1 h)

/-- one field with its semicolon -/
theorem acc_field {term : Pred} (ht : FieldsEnd u term) {x y : List Token} {ns : List Str} {c s : Token} {b : Bool}
    {ts : List Token} (h1 : OkIdents x ns) (h2 : IsSym r!":" c) (h3 : OkType u Γ y b Γ1) (h4 : IsSym r!";" s)
    (hl : Nxt tl ts fun _ => True) (ih : Acc u tl (parseFields u (declEnv u) term) Γ1 ts Any Γ' rest) :
    Acc u tl (parseFields u (declEnv u) term) Γ (x ++ c :: (y ++ s :: ts)) Any Γ' rest := by
  refine Acc.succ ?_
  obtain ⟨t, z, e, hi⟩ := idents_head h1
  simp only [parseFields]
  refine Acc.cur (t := t) (by rw [e]; rfl) ?_
  simp only [Bool.not_eq_true _ ▸ kwF (ident_not_kw hi), Bool.not_eq_true _ ▸ ht.ident t hi, Bool.false_eq_true, Bool.or_false, if_false]
  refine Acc.bind (acc_idents colon_term h1 (.cons (symbol_iff.2 h2))) fun _ _ => Acc.next nxt_snoc ?_
  refine Acc.bind (acc_type h3 (.cons (sym_stopsTy h4 (by decide)))) fun _ _ => ?_
  refine Acc.isF (.cons (ht.semi _ h4)) (Acc.eatSym h4 hl ?_)
  exact Acc.bind ih fun _ _ => Acc.pure fun _ => trivial

theorem acc_fields {term : Pred} (ht : FieldsEnd u term) {x : List Token} (h : OkFields u Γ x Γ') (hr : Nxt tl rest fun t => term t = true) :
    Acc u tl (parseFields u (declEnv u) term) Γ (x ++ rest) Any Γ' rest := by
  induction h with
  | nil =>
    refine Acc.succ ?_
    simp only [parseFields]
    obtain ⟨t, e, hi⟩ := hr
    refine Acc.cur e ?_
    simp only [hi, Bool.or_true, if_true]
    exact Acc.pure fun _ => trivial
  | last h1 h2 h3 =>
    refine Acc.succ ?_
    obtain ⟨t, z, e, hi⟩ := idents_head h1
    simp only [parseFields, List.append_assoc, List.cons_append]
    refine Acc.cur (t := t) (by rw [e]; rfl) ?_
    simp only [Bool.not_eq_true _ ▸ kwF (ident_not_kw hi), Bool.not_eq_true _ ▸ ht.ident t hi, Bool.false_eq_true, Bool.or_false, if_false]
    refine Acc.bind (acc_idents colon_term h1 (.cons (symbol_iff.2 h2))) fun _ _ => Acc.next (nxt_append hr) ?_
    exact Acc.bind (acc_type h3 (hr.mono ht.stops)) fun _ _ => Acc.isT hr (Acc.pure fun _ => trivial)
  | cons h1 h2 h3 h4 h5 ih =>
    simp only [List.append_assoc, List.cons_append]
    exact acc_field ht h1 h2 h3 h4 (nxt_append hr) ih

theorem acc_fixedFields {term : Pred} (ht : FieldsEnd u term) {x : List Token} (h : OkFixedFields u Γ x Γ') (hr : Nxt tl rest (IsKw u r!"CASE")) :
    Acc u tl (parseFields u (declEnv u) term) Γ (x ++ rest) Any Γ' rest := by
  induction h with
  | nil =>
    refine Acc.succ ?_
    simp only [parseFields]
    obtain ⟨t, e, hi⟩ := hr
    refine Acc.cur e ?_
    simp only [kw_iff.2 hi, Bool.true_or, if_true]
    exact Acc.pure fun _ => trivial
  | cons h1 h2 h3 h4 h5 ih =>
    simp only [List.append_assoc, List.cons_append]
    exact acc_field ht h1 h2 h3 h4 (nxt_append hr) ih

theorem acc_fieldList {term : Pred} (ht : FieldsEnd u term) {x : List Token} (h : OkFields u Γ x Γ') (hr : Nxt tl rest fun t => term t = true) :
    Acc u tl (parseFieldList u (declEnv u) term) Γ (x ++ rest) Any Γ' rest := by
  refine Acc.succ ?_
  simp only [parseFieldList]
  exact Acc.bind (acc_fields ht h hr) fun _ _ => Acc.isF (hr.mono fun _ h => kwF (ht.notCase _ h)) (Acc.isT hr (Acc.pure fun _ => trivial))

/-- a record whose field list is accepted -/
theorem acc_recordWord {p ts ts' : List Token} {r : Token} (h1 : OkPacked u p) (h2 : IsKw u r!"RECORD" r) (hl : Nxt tl ts fun _ => True)
    (hr : Nxt tl ts' (IsKw u r!"END")) (h : Acc u tl (parseFieldList u (declEnv u) (kw u r!"END")) Γ ts Any Γ' ts') :
    Acc u tl (parseType u (declEnv u)) Γ (p ++ r :: ts) Any Γ' ts' := by
  refine acc_packed h1 h2 (by decide) fun b => Acc.succ ?_
  simp only [parseRec, show (r!"RECORD" = r!"ARRAY") = False by decide, show (r!"RECORD" = r!"SET") = False by decide, if_true, if_false]
  obtain ⟨t, e, ht⟩ := id hr
  exact Acc.eatKwP h2 hl (Acc.bind h fun _ _ => Acc.current e (kw_iff.2 ht) (Acc.pure fun _ => trivial))

theorem acc_record {p x : List Token} {r : Token} (h1 : OkPacked u p) (h2 : IsKw u r!"RECORD" r) (h3 : OkFields u Γ x Γ')
    (hr : Nxt tl rest (IsKw u r!"END")) : Acc u tl (parseType u (declEnv u)) Γ (p ++ r :: (x ++ rest)) Any Γ' rest :=
  acc_recordWord h1 h2 (nxt_append hr) hr (acc_fieldList fieldsEnd_end h3 (hr.mono fun _ h => kw_iff.2 h))

/-! ## Variant parts -/

theorem acc_noVariantIdent {t : Token} {x : List Token} (ht : t.typ = .ident) (hr : Nxt tl x fun t => ¬ IsSym r!":" t) :
    Acc u tl (fun _ => parseVariantIdent (declEnv u)) Γ (t :: x) Any Γ (t :: x) := by
  intro s h1 h2 h3
  obtain ⟨t2, e, h4⟩ := hr
  have k1 : s.tok? = some t := by obtain ⟨a, b, c⟩ := s; cases h3; rfl
  have k2 : ({ s with ts := x } : PS DS).tok? = some t2 := by obtain ⟨a, b, c⟩ := s; cases h1; exact e
  refine ⟨none, { s with cx := s.cx.rollback }, h1, h2.rollback, h3, h2.rooted.own.rollback, trivial, 0, fun _ _ => ?_⟩
  show parseVariantIdent (declEnv u) s = _
  unfold parseVariantIdent
  rw [bind_ok (rollback_run k1), bind_ok (current_run k1 (typT ht)), bind_ok (next_run h3 ⟨t2, k2, trivial⟩), bind_ok (is_run k2),
    if_neg (symF h4)]
  rfl

theorem acc_tag {f : Nat → Option Ident → PType (Decl Node) → Unit → P DS β} {Q : β → DS → Prop} {x ts' : List Token} (h : OkTag u Γ x Γ1)
    (hr : Nxt tl rest (IsKw u r!"OF")) (hf : ∀ i ty, Acc u tl (fun n => f n i ty ()) Γ1 rest Q Γ' ts') :
    Acc u tl (fun n => parseVariantIdent (declEnv u) >>= fun i => parseType u (declEnv u) n >>= fun t => checkOrdinal (declEnv u) t >>= f n i t)
      Γ (x ++ rest) Q Γ' ts' := by
  have hs : Nxt tl rest (StopsOrd u) := hr.mono fun _ h => ⟨stops_of_value (kw_value h) (by decide), by rw [kw_value h]; decide⟩
  cases h with
  | @mk t x _ h1 h2 =>
    have hx : Nxt tl (x ++ rest) fun t => ¬ IsSym r!":" t := by
      generalize hy : t :: x = y at h2
      have hd : ∀ d z, x = d :: z → IsSym r!".." d → Nxt tl (x ++ rest) fun t => ¬ IsSym r!":" t := by
        rintro d z rfl hd
        exact .cons (not_sym hd (by decide))
      have hn : x = [] → Nxt tl (x ++ rest) fun t => ¬ IsSym r!":" t := by
        rintro rfl
        exact hr.mono fun _ h => not_sym_kw h
      cases h2 with
      | name => injection hy with _ e; exact hn e
      | simple h2 =>
        cases h2 with
        | ordName => injection hy with _ e; exact hn e
        | enum g => injection hy with e _; subst e; exact absurd g (ident_not_sym h1)
        | range g =>
          injection hy with e _
          subst e
          rw [h1] at g
          rcases g with g | g | g <;> cases g
        | identRange _ _ _ g => injection hy with _ e; exact hd _ _ e g
    refine Acc.bind (p := fun _ => parseVariantIdent (declEnv u)) (acc_noVariantIdent h1 hx) fun i _ => ?_
    exact Acc.ordinal (acc_ord h2 hs) fun ty => hf i ty
  | @named t c x _ h1 h2 h3 =>
    refine Acc.bind (p := fun _ => parseVariantIdent (declEnv u)) (Q := Any) (Γ1 := Γ) (ts1 := x ++ rest) ?_ fun i _ => Acc.ordinal (acc_ord h3 hs) fun ty => hf i ty
    unfold parseVariantIdent
    refine Acc.point (.cons trivial) fun s0 _ _ s a1 a2 a3 _ => ?_
    have key : Acc u tl (fun _ => P.current (Pred.typ .ident) >>= fun t => P.next >>= fun _ => P.is (sym r!":") >>= fun b =>
        if b = true then P.next >>= fun _ => pure (some (Ident.ofTok t)) else rollbackTo (declEnv u).toEnv s0 >>= fun _ => pure none)
        Γ (t :: c :: (x ++ rest)) Any Γ (x ++ rest) :=
      Acc.eat (typT h1) (.cons trivial) (Acc.isT (.cons (symbol_iff.2 h2)) (Acc.next (nxt_append hr) (Acc.pure fun _ => trivial)))
    exact key s a1 a2 a3

theorem acc_exprs {x : List Token} (h : OkExprs u Γ x) (hr : Nxt tl rest (IsSym r!":")) :
    Acc u tl (parseConstExprs u (declEnv u)) Γ (x ++ rest) Any Γ rest := by
  induction h with
  | one h =>
    refine Acc.succ ?_
    simp only [parseConstExprs]
    obtain ⟨t, e, ht⟩ := id hr
    refine Acc.bind (acc_expr h (hr.mono fun _ h => stops_of_value (sym_value h) (by decide))) fun _ _ => Acc.cur? e ?_
    simp only [symbol_iff.2 ht, if_true]
    exact Acc.pure fun _ => trivial
  | cons h1 h2 h3 ih =>
    refine Acc.succ ?_
    simp only [parseConstExprs, List.append_assoc, List.cons_append]
    refine Acc.bind (acc_expr h1 (.cons (stops_of_value (sym_value h2) (by decide)))) fun _ _ => Acc.cur? rfl ?_
    simp only [Bool.not_eq_true _ ▸ symF (not_sym h2 (by decide) : ¬ IsSym r!":" _), symbol_iff.2 h2, if_true, Bool.false_eq_true, if_false]
    exact Acc.next (nxt_append hr) (Acc.bind ih fun _ _ => Acc.pure fun _ => trivial)

/-- one variant up to its closing parenthesis -/
theorem acc_variant {f : Nat → Exprs (Decl Node) → FieldList (Decl Node) → P DS β} {Q : β → DS → Prop} {x y ts ts' : List Token} {c o d : Token}
    (h1 : OkExprs u Γ x) (h2 : IsSym r!":" c) (h3 : IsSym r!"(" o) (h4 : OkFields u Γ y Γ1) (h5 : IsSym r!")" d)
    (hl : Nxt tl ts fun _ => True) (hf : ∀ es fl, Acc u tl (fun n => f n es fl) Γ1 ts Q Γ' ts') :
    Acc u tl (fun n => parseConstExprs u (declEnv u) n >>= fun es => P.nextIs (sym r!"(") >>= fun _ => P.next >>= fun _ =>
      parseFieldList u (declEnv u) (sym r!")") n >>= fun fl => P.next >>= fun _ => f n es fl) Γ (x ++ c :: o :: (y ++ d :: ts)) Q Γ' ts' :=
  Acc.bind (acc_exprs h1 (.cons h2)) fun es _ => Acc.nextIs (symbol_iff.2 h3) (Acc.next nxt_snoc
    (Acc.bind (acc_fieldList fieldsEnd_close h4 (.cons (symbol_iff.2 h5))) fun fl _ => Acc.next hl (hf es fl)))

theorem exprs_head {x : List Token} (h : OkExprs u Γ x) : Nxt tl (x ++ rest) fun t => ¬ IsKw u r!"END" t := by
  have key : ∀ {y : List Token}, OkExpr u Γ y → Nxt tl (y ++ rest) fun t => ¬ IsKw u r!"END" t := by
    rintro y ⟨e, h⟩
    obtain ⟨t, y', rfl, g⟩ := expr_head e h.1 (h.2 trivial)
    exact .cons fun h => absurd (g.2 _ h) (by decide)
  cases h with
  | one h => exact key h
  | cons h =>
    obtain ⟨e, h⟩ := h
    obtain ⟨t, y', rfl, g⟩ := expr_head e h.1 (h.2 trivial)
    exact .cons fun h => absurd (g.2 _ h) (by decide)

theorem acc_variants {x : List Token} (h : OkVariants u Γ x Γ') (hr : Nxt tl rest (IsKw u r!"END")) :
    Acc u tl (parseVariants u (declEnv u)) Γ (x ++ rest) Any Γ' rest := by
  induction h with
  | nil =>
    refine Acc.succ ?_
    simp only [parseVariants]
    exact Acc.isT (hr.mono fun _ h => kw_iff.2 h) (Acc.pure fun _ => trivial)
  | last h1 h2 h3 h4 h5 =>
    refine Acc.succ ?_
    simp only [parseVariants, List.append_assoc, List.cons_append, List.nil_append]
    refine Acc.isF ((exprs_head h1).mono fun _ h => kwF h) (acc_variant h1 h2 h3 h4 h5 hr.live fun es fl => ?_)
    obtain ⟨t, e, ht⟩ := id hr
    refine Acc.cur? e ?_
    simp only [kw_iff.2 ht, if_true]
    exact Acc.pure fun _ => trivial
  | cons h1 h2 h3 h4 h5 h6 h7 ih =>
    refine Acc.succ ?_
    simp only [parseVariants, List.append_assoc, List.cons_append]
    refine Acc.isF ((exprs_head h1).mono fun _ h => kwF h) (acc_variant h1 h2 h3 h4 h5 (.cons trivial) fun es fl => Acc.cur? rfl ?_)
    simp only [Bool.not_eq_true _ ▸ kwF (sym_not_kw h6), symbol_iff.2 h6, if_true, Bool.false_eq_true, if_false]
    exact Acc.next (nxt_append hr) (Acc.bind ih fun _ _ => Acc.pure fun _ => trivial)

theorem acc_variantRecord {p x y z : List Token} {r c o : Token} {Γ2 : NameEnv} (h1 : OkPacked u p) (h2 : IsKw u r!"RECORD" r)
    (h3 : OkFixedFields u Γ x Γ1) (h4 : IsKw u r!"CASE" c) (h5 : OkTag u Γ1 y Γ2) (h6 : IsKw u r!"OF" o) (h7 : OkVariants u Γ2 z Γ')
    (hr : Nxt tl rest (IsKw u r!"END")) :
    Acc u tl (parseType u (declEnv u)) Γ (p ++ r :: (x ++ c :: (y ++ o :: (z ++ rest)))) Any Γ' rest := by
  refine acc_recordWord h1 h2 nxt_snoc hr (Acc.succ ?_)
  simp only [parseFieldList]
  refine Acc.bind (acc_fixedFields fieldsEnd_end h3 (.cons h4)) fun _ _ => Acc.isT (.cons (kw_iff.2 h4)) ?_
  refine Acc.bind (Q := Any) (Γ1 := Γ') (ts1 := rest) (Acc.succ ?_) fun _ _ => Acc.pure fun _ => trivial
  simp only [parseVariant]
  refine Acc.eatKwP h4 nxt_snoc (acc_tag h5 (.cons h6) fun i ty => Acc.eatKwP h6 (nxt_append hr) ?_)
  exact Acc.bind (acc_variants h7 hr) fun _ _ => Acc.pure fun _ => trivial

/-! ## Tokens of a class -/

/-- the first word of a method -/
def MethodWord (u : Uni) (t : Token) : Prop :=
  IsKw u r!"FUNCTION" t ∨ IsKw u r!"PROCEDURE" t ∨ IsKw u r!"CONSTRUCTOR" t ∨ IsKw u r!"DESTRUCTOR" t

/-- what comes after the methods of a section -/
def MethEnd (u : Uni) (t : Token) : Prop := SectEnd u t ∨ IsKw u r!"PROPERTY" t

theorem SectEnd.methods {t : Token} (h : SectEnd u t) : methodBreak u t = true :=
  methodBreak_iff.2 (.inr (h.imp And.right id))
theorem SectEnd.fields {t : Token} (h : SectEnd u t) : fieldListBreak u t = true :=
  fieldListBreak_iff.2 (.inr (.inr (.inr (.inr (.inr (h.imp And.right id))))))
theorem SectEnd.notDir {t : Token} (h : SectEnd u t) : methodDirectives.contains (u.toUpper (u.toUpper (t.value u))) = false := by
  rcases h with h | h
  · obtain ⟨w, e, hw⟩ := vis_up h.2
    rw [e]
    rcases hw with rfl | rfl | rfl | rfl <;> (rw [toUpper_asc (by decide)]; decide)
  · have e : u.toUpper r!"END" = r!"END" := toUpper_asc (by decide)
    rw [kw_value h, e, e]; decide

theorem MethEnd.methods {t : Token} (h : MethEnd u t) : methodBreak u t = true := h.elim (·.methods) fun h => methodBreak_iff.2 (.inl h)
theorem MethEnd.fields {t : Token} (h : MethEnd u t) : fieldListBreak u t = true :=
  h.elim (·.fields) fun h => fieldListBreak_iff.2 (.inr (.inr (.inr (.inr (.inl h)))))
theorem MethEnd.notSym {c : Str} {t : Token} (h : MethEnd u t) : ¬ IsSym c t := h.elim (·.notSym) not_sym_kw
theorem MethEnd.notDir {t : Token} (h : MethEnd u t) : methodDirectives.contains (u.toUpper (u.toUpper (t.value u))) = false := by
  rcases h with h | h
  · exact h.notDir
  · have e : u.toUpper r!"PROPERTY" = r!"PROPERTY" := toUpper_asc (by decide)
    rw [kw_value h, e, e]; decide

theorem MethodWord.cases {t : Token} (h : MethodWord u t) :
    ∃ c ∈ [r!"FUNCTION", r!"PROCEDURE", r!"CONSTRUCTOR", r!"DESTRUCTOR"], IsKw u c t := by
  rcases h with h | h | h | h
  · exact ⟨_, by decide, h⟩
  · exact ⟨_, by decide, h⟩
  · exact ⟨_, by decide, h⟩
  · exact ⟨_, by decide, h⟩
theorem MethodWord.fields {t : Token} (h : MethodWord u t) : fieldListBreak u t = true :=
  fieldListBreak_iff.2 (by
    rcases h with h | h | h | h
    · exact .inl h
    · exact .inr (.inl h)
    · exact .inr (.inr (.inl h))
    · exact .inr (.inr (.inr (.inl h))))
theorem MethodWord.notMethods {t : Token} (h : MethodWord u t) : ¬ methodBreak u t = true := by
  obtain ⟨c, hc, h⟩ := h.cases
  have : ∀ c ∈ [r!"FUNCTION", r!"PROCEDURE", r!"CONSTRUCTOR", r!"DESTRUCTOR"], Asc c ∧ c ≠ r!"PROPERTY" ∧ c ≠ r!"END" ∧
      ∀ w ∈ [r!"PRIVATE", r!"PROTECTED", r!"PUBLIC", r!"PUBLISHED"], c.map asciiUp ≠ w := by decide
  obtain ⟨h1, h2, h3, h4⟩ := this c hc
  rw [methodBreak_iff]
  rintro (h' | h' | h')
  · exact kw_ne h h2 h'
  · exact kw_not_vis h h1 h4 h'
  · exact kw_ne h h3 h'
theorem MethodWord.notDir {t : Token} (h : MethodWord u t) : methodDirectives.contains (u.toUpper (u.toUpper (t.value u))) = false := by
  obtain ⟨c, hc, h⟩ := h.cases
  have : ∀ c ∈ [r!"FUNCTION", r!"PROCEDURE", r!"CONSTRUCTOR", r!"DESTRUCTOR"], Asc c ∧ Asc (c.map asciiUp) ∧
      methodDirectives.contains ((c.map asciiUp).map asciiUp) = false := by decide
  obtain ⟨h1, h2, h3⟩ := this c hc
  rw [kw_value h, toUpper_asc h1, toUpper_asc h2, h3]

/-! ## Headings -/

theorem heading_word {x : List Token} {name : Str} (h : OkHeading u Γ x name Γ') : ∃ t y, x = t :: y ∧ MethodWord u t := by
  cases h with
  | @mk fn w _ _ _ _ h1 =>
    refine ⟨w, _, rfl, ?_⟩
    unfold IsRoutineWord at h1
    cases fn
    · exact .inr (.inl h1)
    · exact .inl h1

theorem acc_funcHeading {x : List Token} {name : Str} (h : OkHeading u Γ x name Γ') (hr : Nxt tl rest (IsSym r!";")) :
    Acc u tl (parseFuncHeading u (declEnv u)) Γ (x ++ rest) (fun h _ => ∃ fn t ps r, h = .func fn (Ident.ofTok t) ps r ∧ t.raw = name)
      Γ' rest := by
  cases h with
  | mk h1 h2 h3 h4 =>
    refine Acc.succ ?_
    simp only [parseFuncHeading, List.cons_append, List.append_assoc]
    have hrr := return_head h4 colon_not_open (hr.mono fun _ h => not_sym h (by decide))
    refine acc_funcWord h1 (Acc.nextIs (typT h2) (Acc.traced ?_ (.cons trivial) hr.live))
    refine Acc.next (nxt_append hrr) (Acc.bind (acc_optParams h3 hrr) fun _ _ => Acc.bind (acc_return h4 hr.live) fun _ _ => ?_)
    exact Acc.pure fun _ => ⟨_, _, _, _, rfl, rfl⟩

theorem methodHead_word {x : List Token} {n : Str} (h : OkMethodHead u Γ x n Γ') : ∃ t y, x = t :: y ∧ MethodWord u t := by
  cases h with
  | func h => exact heading_word h
  | ctor h => exact ⟨_, _, rfl, .inr (.inr (.inl h))⟩
  | dtor h => exact ⟨_, _, rfl, .inr (.inr (.inr h))⟩

theorem acc_methodHead {x y : List Token} {t : Token} {nm : Str} (e : x = t :: y) (h : OkMethodHead u Γ x nm Γ') (hr : Nxt tl rest (IsSym r!";")) :
    Acc u tl (parseHeading u (declEnv u) (u.toUpper (t.value u))) Γ (x ++ rest) (fun h _ => h.ident.name = nm) Γ' rest := by
  refine Acc.succ ?_
  simp only [parseHeading]
  cases h with
  | func h =>
    have hw : u.toUpper (t.value u) = r!"FUNCTION" ∨ u.toUpper (t.value u) = r!"PROCEDURE" := by
      cases h with
      | @mk fn w _ _ _ _ h1 =>
        cases e
        unfold IsRoutineWord at h1
        cases fn
        · exact .inr (by rw [kw_value h1]; exact toUpper_asc (by decide))
        · exact .inl (by rw [kw_value h1]; exact toUpper_asc (by decide))
    simp only [hw, if_true]
    exact (acc_funcHeading h hr).mono fun _ _ ⟨_, _, _, _, h, e⟩ => by rw [h]; exact e
  | ctor h1 h2 h3 =>
    cases e
    rw [kw_value h1, toUpper_asc (by decide)]
    simp only [show (r!"CONSTRUCTOR".map asciiUp = r!"FUNCTION" ∨ r!"CONSTRUCTOR".map asciiUp = r!"PROCEDURE") = False by decide,
      show (r!"CONSTRUCTOR".map asciiUp = r!"CONSTRUCTOR") = True by decide, if_true, if_false]
    refine Acc.traced (Acc.succ ?_) (.cons trivial) hr.live
    simp only [parseConstructor, List.cons_append]
    refine Acc.eatKw h1 (.cons trivial) (Acc.cur rfl (Acc.next (nxt_append hr) ?_))
    exact Acc.bind (acc_optParams h3 (hr.mono fun _ h => not_sym h (by decide))) fun _ _ => Acc.pure fun _ => rfl
  | dtor h1 h2 =>
    cases e
    rw [kw_value h1, toUpper_asc (by decide)]
    simp only [show (r!"DESTRUCTOR".map asciiUp = r!"FUNCTION" ∨ r!"DESTRUCTOR".map asciiUp = r!"PROCEDURE") = False by decide,
      show (r!"DESTRUCTOR".map asciiUp = r!"CONSTRUCTOR") = False by decide,
      show (r!"DESTRUCTOR".map asciiUp = r!"DESTRUCTOR") = True by decide, if_true, if_false]
    refine Acc.traced ?_ (.cons trivial) hr.live
    exact Acc.eatKw h1 (.cons trivial) (Acc.cur rfl (Acc.next hr.live (Acc.pure fun _ => rfl)))

/-! ## Methods -/

theorem acc_methodDirs {d : List Token} (h : OkMethodDirs u d)
    (hr : Nxt tl rest fun t => methodDirectives.contains (u.toUpper (u.toUpper (t.value u))) = false) :
    Acc u tl (parseMethodDirectives u) Γ (d ++ rest) Any Γ rest := by
  induction h with
  | nil =>
    refine Acc.succ ?_
    simp only [parseMethodDirectives]
    obtain ⟨t, e, ht⟩ := hr
    refine Acc.cur e ?_
    simp only [ht, Bool.false_eq_true, if_false]
    exact Acc.pure fun _ => trivial
  | @cons t s ts h1 h2 h3 h4 ih =>
    refine Acc.succ ?_
    simp only [parseMethodDirectives, List.cons_append]
    refine Acc.cur rfl ?_
    have e1 : methodDirectives.contains (u.toUpper (u.toUpper (t.value u))) = true := by
      rw [ident_value h1]; exact List.contains_iff_mem.2 h2
    have e2 : methodBreak u s = false := by
      rw [← Bool.not_eq_true, methodBreak_iff]
      rintro (h' | h' | h')
      · exact sym_not_kw h3 h'
      · obtain ⟨w, e, hw⟩ := vis_up h'
        rw [sym_value h3, toUpper_asc (by decide)] at e
        subst e
        revert hw; decide
      · exact sym_not_kw h3 h'
    simp only [e1, if_true]
    refine Acc.next (.cons trivial) (Acc.cur? rfl ?_)
    simp only [e2, symbol_iff.2 h3, if_true, Bool.false_eq_true, if_false]
    exact Acc.next (nxt_append hr) (Acc.bind ih fun _ _ => Acc.pure fun _ => trivial)

theorem acc_method {x d : List Token} {s : Token} {nm : Str} (h1 : OkMethodHead u Γ.opened x nm Γ1) (h2 : IsSym r!";" s) (h3 : OkMethodDirs u d)
    (hr : Nxt tl rest fun t => methodDirectives.contains (u.toUpper (u.toUpper (t.value u))) = false) :
    Acc u tl (parseMethod u (declEnv u)) Γ (x ++ s :: (d ++ rest)) (fun m _ => m.1.ident.name = nm) (Γ.closed Γ1) rest := by
  refine Acc.succ ?_
  simp only [parseMethod]
  obtain ⟨t, y, e, ht⟩ := methodHead_word h1
  obtain ⟨c, -, hc⟩ := ht.cases
  refine Acc.current (t := t) (by rw [e]; rfl) (typT hc.1) ?_
  refine (Acc.stacked' (Q := fun (m : Heading (Decl Node) × List Str) _ => m.1.ident.name = nm) ?_).mono fun _ _ ⟨_, h⟩ => h
  refine Acc.bind (acc_methodHead e h1 (.cons h2)) fun _ ⟨_, hn⟩ => ?_
  refine Acc.bind (p := fun n => parseMethodDirectiveList u n) (Q := Any) (Γ1 := Γ1) (ts1 := rest) ?_ fun _ _ =>
    Acc.pure fun _ => hn
  unfold parseMethodDirectiveList optSemi
  simp only [P.bind_assoc]
  refine Acc.isT (.cons (symbol_iff.2 h2)) ?_
  simp only [if_true]
  exact Acc.next (nxt_append hr) (Acc.traced (acc_methodDirs h3 hr) (nxt_append hr) hr.live)

theorem methods_head {x : List Token} {ns : List Str} {p : Token → Prop} (h : OkMethods u Γ x ns Γ') (hw : ∀ t, MethodWord u t → p t)
    (hr : Nxt tl rest p) : Nxt tl (x ++ rest) p := by
  cases h with
  | nil => exact hr
  | cons h1 h2 =>
    obtain ⟨t, y, e, ht⟩ := methodHead_word h1
    rw [e]
    exact .cons (hw _ ht)

theorem acc_noSemi {f : Nat → Unit → P DS β} {Q : β → DS → Prop} {ts ts' : List Token} (h : Nxt tl ts fun t => ¬ IsSym r!";" t)
    (hf : Acc u tl (fun n => f n ()) Γ ts Q Γ' ts') : Acc u tl (fun n => optSemi >>= f n) Γ ts Q Γ' ts' := by
  unfold optSemi
  simp only [P.bind_assoc]
  exact Acc.isF (h.mono fun _ h => symF h) hf

theorem acc_methods {x : List Token} {ns : List Str} (h : OkMethods u Γ x ns Γ') (hr : Nxt tl rest (MethEnd u)) :
    Acc u tl (parseMethods u (declEnv u)) Γ (x ++ rest) (fun m _ => (DS.methods m).map Decl.name = ns) Γ' rest := by
  induction h with
  | nil =>
    refine Acc.succ ?_
    simp only [parseMethods]
    exact Acc.isT (hr.mono fun _ h => h.methods) (Acc.pure fun _ => rfl)
  | @cons Γ x nm Γ1 s d y ns Γ' h1 h2 h3 h4 ih =>
    refine Acc.succ ?_
    simp only [parseMethods, List.append_assoc, List.cons_append]
    obtain ⟨t, z, e, ht⟩ := methodHead_word h1
    have hm := acc_method (tl := tl) (rest := y ++ rest) h1 h2 h3
      (methods_head h4 (fun _ h => h.notDir) (hr.mono fun _ h => h.notDir))
    refine Acc.isF (by rw [e]; exact .cons ht.notMethods) (Acc.bind (Acc.traced hm nxt_snoc (nxt_append hr)) fun _ ⟨_, hn⟩ => ?_)
    refine acc_noSemi (methods_head h4 (fun _ h => by obtain ⟨c, -, hc⟩ := h.cases; exact not_sym_kw hc) (hr.mono fun _ h => h.notSym)) ?_
    cases h4 with
    | nil =>
      obtain ⟨t, e, ht⟩ := hr
      refine Acc.cur? e ?_
      simp only [ht.methods, if_true]
      exact Acc.pure fun _ => by rw [DS.methods, DS.methods, List.map_cons, hn]; rfl
    | cons h5 h6 =>
      obtain ⟨t', z', e', ht'⟩ := methodHead_word h5
      refine Acc.cur? (t := t') (by rw [e']; rfl) ?_
      simp only [Bool.not_eq_true _ ▸ ht'.notMethods, Bool.false_eq_true, if_false]
      exact Acc.bind ih fun _ ⟨_, hs⟩ => Acc.pure fun _ => by rw [DS.methods, List.map_cons, hn, hs]

/-! ## Fields and sections -/

theorem acc_classFields {x : List Token} {fs : List Str} (h : OkClassFields u Γ x fs Γ') (hr : Nxt tl rest fun t => fieldListBreak u t = true) :
    Acc u tl (parseClassFields u (declEnv u)) Γ (x ++ rest) (fun f _ => (DS.fields f).flatMap ClassField.names = fs) Γ' rest := by
  induction h with
  | nil =>
    refine Acc.succ ?_
    simp only [parseClassFields]
    exact Acc.isT hr (Acc.pure fun _ => rfl)
  | @cons Γ t x ns c y b Γ1 s z ms Γ' h1 h2 h3 h4 h5 h6 ih =>
    refine Acc.succ ?_
    simp only [parseClassFields, List.append_assoc, List.cons_append]
    have ht : t.typ = .ident := by
      obtain ⟨t', y, e, ht⟩ := idents_head h1
      cases e; exact ht
    have hb : ∀ t : Token, ((∀ c, ¬ IsKw u c t) ∧ ¬ IsVisibilityWord u t) → ¬ fieldListBreak u t = true := by
      rintro t ⟨g1, g2⟩
      rw [fieldListBreak_iff]
      rintro (h | h | h | h | h | h | h)
      · exact g1 _ h
      · exact g1 _ h
      · exact g1 _ h
      · exact g1 _ h
      · exact g1 _ h
      · exact g2 h
      · exact g1 _ h
    have hs : ¬ IsVisibilityWord u s := by
      intro h'
      obtain ⟨w, e, hw⟩ := vis_up h'
      rw [sym_value h5, toUpper_asc (by decide)] at e
      subst e
      revert hw; decide
    refine Acc.isF (.cons (hb _ ⟨fun _ => ident_not_kw ht, h2⟩)) ?_
    refine Acc.bind (p := fun n => traced (parseClassField u (declEnv u) n)) (Q := fun f _ => f.1.map Ident.name = ns) (Γ1 := Γ1)
      (ts1 := s :: (z ++ rest)) (Acc.traced (Acc.succ ?_) (.cons trivial) (.cons trivial)) fun _ ⟨_, hn⟩ => Acc.cur? rfl ?_
    · simp only [parseClassField]
      have := acc_idents (u := u) (tl := tl) (Γ := Γ) (rest := c :: (y ++ s :: (z ++ rest))) colon_term h1 (.cons (symbol_iff.2 h3))
      refine Acc.bind this fun _ ⟨_, hi⟩ => Acc.next nxt_snoc ?_
      exact Acc.bind (acc_type h4 (.cons (sym_stopsTy h5 (by decide)))) fun _ _ => Acc.pure fun _ => hi
    · simp only [Bool.not_eq_true _ ▸ hb _ ⟨fun _ => sym_not_kw h5, hs⟩, symbol_iff.2 h5, if_true, Bool.false_eq_true, if_false]
      exact Acc.next (nxt_append hr) (Acc.bind ih fun _ ⟨_, hf⟩ => Acc.pure fun _ => by
        rw [← hn, ← hf]; simp [DS.fields])

section
variable {h : List (TypeId (Decl Node))} {p : Prop} {ms : List Str}

/-- the part of `parseSect` after the visibility -/
theorem accH_section {prev : Sects (Decl Node)} {vis : Visibility} {x y w : List Token} {fs ns : List Str} {Γ2 : NameEnv}
    (hn : HasNames (DS.sections prev) ms) (hx : OkClassFields u Γ x fs Γ1) (hy : OkMethods u Γ1 y ns Γ2)
    (hw : OkProps u (ms ++ (fs ++ ns)) Γ2 w Γ') (hp : w ≠ [] → p) (hr : Nxt tl rest (SectEnd u)) :
    AccH u tl (fun k => p → SearchEnds u h k) (fun n => P.is (kw u r!"END") >>= fun b => if b = true then pure (prev.add vis .nil .nil .nil) else
      traced (parseClassFields u (declEnv u) n) >>= fun fs => traced (parseMethods u (declEnv u) n) >>= fun ms =>
      traced (parseProps u (declEnv u) h (prev.snoc vis fs ms) n) >>= fun ps => pure (prev.add vis fs ms ps))
      Γ (x ++ (y ++ (w ++ rest))) (fun a _ => HasNames (DS.sections a) (ms ++ (fs ++ ns))) Γ' rest := by
  have hwr : Nxt tl (w ++ rest) (MethEnd u) := props_head hw (fun _ h => .inr h) (hr.mono fun _ h => .inl h)
  have hyr : Nxt tl (y ++ (w ++ rest)) fun t => fieldListBreak u t = true :=
    methods_head hy (fun _ h => h.fields) (hwr.mono fun _ h => h.fields)
  have main : AccH u tl (fun k => p → SearchEnds u h k) (fun n => traced (parseClassFields u (declEnv u) n) >>= fun fs =>
      traced (parseMethods u (declEnv u) n) >>= fun ms =>
      traced (parseProps u (declEnv u) h (prev.snoc vis fs ms) n) >>= fun ps => pure (prev.add vis fs ms ps))
      Γ (x ++ (y ++ (w ++ rest))) (fun a _ => HasNames (DS.sections a) (ms ++ (fs ++ ns))) Γ' rest := by
    refine AccH.first ends_imp (Acc.traced (acc_classFields hx hyr) (nxt_append hyr) hyr.live)
      (idle_of_tr fun n => (typesTr (sameTRBase u) n).classFields).traced fun f ⟨_, hf⟩ => ?_
    refine AccH.first ends_imp (Acc.traced (acc_methods hy hwr) hyr.live hwr.live)
      (idle_of_tr fun n => (typesTr (sameTRBase u) n).methods).traced fun m ⟨_, hm⟩ => ?_
    have hn' : HasNames (DS.sections (prev.snoc vis f m)) (ms ++ (fs ++ ns)) := by
      rw [sections_snoc]; exact hn.snoc hf hm
    refine AccH.bind (Q := Any) (Γ1 := Γ') (ts1 := rest) (AccH.traced ?_ hwr.live hr.live) fun ps _ => AccH.pure fun _ _ => ?_
    · by_cases hne : w = []
      · subst hne
        cases hw
        refine Acc.h (Acc.succ ?_)
        simp only [parseProps]
        exact Acc.isT (hr.mono fun _ h => h.props) (Acc.pure fun _ => trivial)
      · exact (accH_props hw hn' hr).weaken fun _ h => h (hp hne)
    · rw [sections_add]; exact hn.snoc hf hm
  cases hx with
  | nil =>
    cases hy with
    | nil =>
      obtain ⟨t, e, ht⟩ := id hwr
      refine AccH.is (t := t) e ?_
      by_cases hk : kw u r!"END" t = true
      · simp only [hk, if_true]
        cases hw with
        | nil =>
          refine AccH.pure fun _ _ => ?_
          rw [sections_add]
          exact hn.snoc rfl rfl
        | cons h1 =>
          cases e
          exact (kw_ne h1 (by decide) (kw_iff.1 hk)).elim
      · simp only [hk, Bool.false_eq_true, if_false]
        exact main
    | cons h1 h2 =>
      obtain ⟨t, z, e, ht⟩ := methodHead_word h1
      obtain ⟨c, hc, hk⟩ := ht.cases
      refine AccH.isF (by rw [e]; exact .cons (kwF (kw_ne hk (by clear hk; revert hc; revert c; decide)))) ?_
      exact main
  | cons h1 h2 =>
    obtain ⟨t', y, e, ht⟩ := idents_head h1
    cases e
    exact AccH.isF (.cons (kwF (ident_not_kw ht))) main

theorem acc_visSome {v : Token} {ts : List Token} (h1 : v.typ = .ident) (h2 : IsVisibilityWord u v) (hl : Nxt tl ts fun _ => True) :
    Acc u tl (fun _ => parseVisibility u) Γ (v :: ts) Any Γ ts := by
  unfold parseVisibility
  refine Acc.current rfl (typT h1) ?_
  obtain ⟨w, e, hw⟩ := vis_up h2
  simp only [e]
  rcases hw with rfl | rfl | rfl | rfl
  · exact Acc.next hl (Acc.pure fun _ => trivial)
  · exact Acc.next hl (Acc.pure fun _ => trivial)
  · exact Acc.next hl (Acc.pure fun _ => trivial)
  · exact Acc.next hl (Acc.pure fun _ => trivial)

theorem acc_visNone {v : Token} {ts : List Token} (h1 : v.typ = .ident) (h2 : ¬ IsVisibilityWord u v) :
    Acc u tl (fun _ => parseVisibility u) Γ (v :: ts) Any Γ (v :: ts) := by
  unfold parseVisibility
  refine Acc.current rfl (typT h1) ?_
  have g1 : ¬ u.toUpper (v.value u) = r!"PRIVATE" := fun h => h2 (.inl h)
  have g2 : ¬ u.toUpper (v.value u) = r!"PROTECTED" := fun h => h2 (.inr (.inl h))
  have g3 : ¬ u.toUpper (v.value u) = r!"PUBLIC" := fun h => h2 (.inr (.inr (.inl h)))
  have g4 : ¬ u.toUpper (v.value u) = r!"PUBLISHED" := fun h => h2 (.inr (.inr (.inr h)))
  simp only [g1, g2, g3, g4, if_false]
  exact Acc.pure fun _ => trivial

theorem sections_head {x : List Token} (h : OkSections u p ms Γ x Γ') (hr : Nxt tl rest (IsKw u r!"END")) : Nxt tl (x ++ rest) (SectEnd u) := by
  cases h with
  | nil => exact hr.mono fun _ h => .inr h
  | cons h1 h2 => exact .cons (.inl ⟨h1, h2⟩)

/-- after a section -/
theorem accH_sectsEnd {J : DS → Prop} {a : Sects (Decl Node)} {z : List Token} (hz : OkSections u p ms Γ z Γ')
    (ih : z ≠ [] → AccH u tl J (parseSects u (declEnv u) h a) Γ (z ++ rest) Any Γ' rest) (hr : Nxt tl rest (IsKw u r!"END")) :
    AccH u tl J (fun n => P.cur? >>= fun o => match o with
      | none => P.fail
      | some t => if kw u r!"END" t then pure a else parseSects u (declEnv u) h a n) Γ (z ++ rest) Any Γ' rest := by
  cases hz with
  | nil =>
    obtain ⟨t, e, ht⟩ := hr
    refine AccH.cur? e ?_
    simp only [kw_iff.2 ht, if_true]
    exact AccH.pure fun _ _ => trivial
  | cons h1 h2 =>
    refine AccH.cur? rfl ?_
    simp only [Bool.not_eq_true _ ▸ kwF (ident_not_kw h1), Bool.false_eq_true, if_false]
    exact ih (by simp)

/-- a section and what comes after it -/
theorem accH_sect {prev : Sects (Decl Node)} {ts ts1 : List Token} (hs : Nxt tl ts1 fun _ => True) (hl : Nxt tl ts fun _ => True)
    (h1 : AccH u tl (fun k => p → SearchEnds u h k) (parseSect u (declEnv u) h prev) Γ ts (fun a _ => HasNames (DS.sections a) ms) Γ1 ts1)
    (h2 : ∀ a, HasNames (DS.sections a) ms → AccH u tl (fun k => p → SearchEnds u h k) (fun n => P.cur? >>= fun o => match o with
      | none => P.fail
      | some t => if kw u r!"END" t then pure a else parseSects u (declEnv u) h a n) Γ1 ts1 Any Γ' rest) :
    AccH u tl (fun k => p → SearchEnds u h k) (parseSects u (declEnv u) h prev) Γ ts Any Γ' rest := by
  refine AccH.succ ?_
  simp only [parseSects]
  have := (AccH.traced h1 hl hs).keeps ends_imp
    (idle_of_tr fun n => (typesTr (sameTRBase u) n).sect h prev (idsSects prev) fun _ h => h).traced
  exact AccH.bind this fun a ⟨_, ha, _⟩ => (h2 a ha).weaken fun _ h => h.2

theorem accH_sections {z : List Token} (hz : OkSections u p ms Γ z Γ') (hr : Nxt tl rest (IsKw u r!"END")) :
    z ≠ [] → ∀ prev, HasNames (DS.sections prev) ms →
      AccH u tl (fun k => p → SearchEnds u h k) (parseSects u (declEnv u) h prev) Γ (z ++ rest) Any Γ' rest := by
  induction hz with
  | nil => exact fun h => (h rfl).elim
  | cons h1 h2 h3 h4 h5 h6 h7 ih =>
    intro _ prev hn
    have hs := sections_head h7 hr
    simp only [List.append_assoc, List.cons_append]
    refine accH_sect hs.live (.cons trivial) (AccH.succ ?_) fun a ha => accH_sectsEnd h7 (fun hne => ih hne a ha) hr
    simp only [parseSect]
    exact AccH.first ends_imp (acc_visSome h1 h2 (nxt_append (nxt_append (nxt_append hs)))) (idle_of_quiet fun _ => quiet_visibility)
      fun _ _ => accH_section hn h3 h4 h5 h6 hs

theorem accH_members {x : List Token} (hx : OkMembers u p Γ x Γ') (hr : Nxt tl rest (IsKw u r!"END")) (hne : x ≠ []) :
    AccH u tl (fun k => p → SearchEnds u h k) (parseSects u (declEnv u) h .nil) Γ (x ++ rest) Any Γ' rest := by
  have h0 : HasNames (DS.sections .nil) [] := fun _ h => by cases h
  cases hx with
  | sections hx => exact accH_sections hx hr hne .nil h0
  | fields hn h1 h2 h3 h4 h5 =>
    have hs := sections_head h5 hr
    simp only [List.append_assoc]
    refine accH_sect hs.live (nxt_append (nxt_append (nxt_append hs))) (AccH.succ ?_) fun a ha =>
      accH_sectsEnd h5 (fun hne => accH_sections h5 hr hne a ha) hr
    simp only [parseSect]
    have hsec := fun (vis : Visibility) => accH_section (h := h) (prev := .nil) (vis := vis) h0 h1 h2 h3 h4 hs
    cases h1 with
    | nil => exact (hn rfl).elim
    | cons g1 g2 =>
      obtain ⟨t', y, e, ht⟩ := idents_head g1
      cases e
      exact AccH.first ends_imp (acc_visNone ht g2) (idle_of_quiet fun _ => quiet_visibility) fun vis _ => hsec vis

theorem members_head {x : List Token} (h : OkMembers u p Γ x Γ') (hne : x ≠ []) : ∃ t y, x = t :: y ∧ t.typ = .ident := by
  have hs : ∀ {z ms Γ1 Γ2}, OkSections u p ms Γ1 z Γ2 → z ≠ [] → ∃ t y, z = t :: y ∧ t.typ = .ident := by
    intro z ms Γ1 Γ2 h hne
    cases h with
    | nil => exact (hne rfl).elim
    | cons h1 => exact ⟨_, _, rfl, h1⟩
  cases h with
  | sections h => exact hs h hne
  | fields h0 h1 =>
    cases h1 with
    | nil => exact (h0 rfl).elim
    | cons g1 =>
      obtain ⟨t', y, e, ht⟩ := idents_head g1
      cases e
      exact ⟨_, _, rfl, ht⟩

end

theorem acc_typeIds {x : List Token} (h : OkTypeIds u Γ x) (hr : Nxt tl rest (IsSym r!")")) :
    Acc u tl (parseTypeIds u (declEnv u)) Γ (x ++ rest) (fun a k => ∃ b bs t y, a = b :: bs ∧ x = t :: y ∧ FirstItem u Γ t b k) Γ rest := by
  induction h with
  | one h =>
    refine Acc.succ (AccH.acc ?_)
    simp only [parseTypeIds]
    obtain ⟨t, e, ht⟩ := id hr
    refine AccH.bind (acc_firstTypeId h hr.live).h fun _ _ => AccH.cur? e ?_
    simp only [symbol_iff.2 ht, if_true]
    exact AccH.pure fun _ ha => ⟨_, _, _, _, rfl, rfl, ha⟩
  | cons h1 h2 h3 ih =>
    refine Acc.succ (AccH.acc ?_)
    simp only [parseTypeIds, List.cons_append]
    refine AccH.bind (acc_firstTypeId h1 (.cons trivial)).h fun _ _ => AccH.cur? rfl ?_
    simp only [Bool.not_eq_true _ ▸ symF (not_sym h2 (by decide) : ¬ IsSym r!")" _), symbol_iff.2 h2, if_true, Bool.false_eq_true,
      if_false]
    exact AccH.next (nxt_append hr) (AccH.first firstItem_settled ih (idle_of_tr fun n => typeIds_tr (sameTRBase u) n) fun _ _ =>
      AccH.pure fun _ ha => ⟨_, _, _, _, rfl, rfl, ha⟩)

/-- what is known of the heritage `a` with the tokens `x` -/
structure HeritageOf (u : Uni) (Γ : NameEnv) (x : List Token) (a : List (TypeId (Decl Node))) (k : DS) : Prop where
  ends : Orphan u Γ x ∨ Descends u Γ x → SearchEnds u a k
  grounded : Descends u Γ x → GroundedList k.types a

theorem heritage_settled {x : List Token} {a : List (TypeId (Decl Node))} : Settled (HeritageOf u Γ x a) := fun _ _ e h =>
  ⟨ends_imp _ _ e h.ends, fun hd => by rw [e.1]; exact h.grounded hd⟩

theorem acc_heritage {x : List Token} (h : OkHeritage u Γ x) (hr : Nxt tl rest fun t => ¬ IsSym r!"(" t) :
    Acc u tl (parseHeritage u (declEnv u)) Γ (x ++ rest) (HeritageOf u Γ x) Γ rest := by
  unfold parseHeritage
  refine Acc.traced ?_ (nxt_append hr) hr.live
  cases h with
  | none => exact Acc.isF (hr.mono fun _ h => symF h) (Acc.pure fun _ => ⟨fun _ => groundedList_ends (.inl rfl), fun _ => .inl rfl⟩)
  | some h1 h2 h3 =>
    simp only [List.cons_append, List.append_assoc, List.nil_append]
    refine Acc.isT (.cons (symbol_iff.2 h1)) (Acc.next nxt_snoc (AccH.acc (AccH.bind (acc_typeIds h2 (.cons h3)).h fun _ _ => ?_)))
    refine AccH.next hr.live (AccH.pure fun k ha => ?_)
    obtain ⟨b, bs, t, y, rfl, rfl, hf⟩ := ha
    have hg : ∀ {o z}, Descends u Γ (o :: t :: z) → GroundedList k.types (b :: bs) := by
      intro o z hd
      rcases hd with hd | ⟨o', t', x', e, hd⟩
      · cases hd
      · cases e
        obtain ⟨d, j, f1, f2, f3⟩ := hf.known hd
        exact .inr ⟨_, _, d, j, rfl, f1, f2, f3⟩
    refine ⟨fun ho => ?_, hg⟩
    rcases ho with ho | hd
    · exact fun ms a => findProp_ends (noParent_of (hf.unknown (ho _ _ _ rfl)))
    · exact groundedList_ends (hg hd)

theorem acc_classWord {c : Token} {ts ts' : List Token} {Q : PType (Decl Node) → DS → Prop} (h : IsKw u r!"CLASS" c) (hr : Nxt tl ts' fun _ => True)
    (hl : Nxt tl ts fun _ => True) (hf : Acc u tl (fun n => P.is (sym r!";") >>= fun b => if b = true then pure .forward else
      P.is (kw u r!"OF") >>= fun b => if b = true then parseClassRef u (declEnv u) else parseClass u (declEnv u) n) Γ ts Q Γ' ts') :
    Acc u tl (parseType u (declEnv u)) Γ (c :: ts) Q Γ' ts' := by
  refine acc_kwType h ?_
  simp only [show ([r!"PACKED", r!"ARRAY", r!"SET", r!"RECORD", r!"FILE"].contains r!"CLASS") = false by decide,
    show ([r!"FUNCTION", r!"PROCEDURE"].contains r!"CLASS") = false by decide, if_true, Bool.false_eq_true, if_false]
  refine Acc.succ ?_
  simp only [parseClassOrRef]
  exact Acc.traced (Acc.eatKw h hl hf) (.cons trivial) hr

theorem acc_class {p : Prop} {c : Token} {h x : List Token} (h1 : IsKw u r!"CLASS" c) (h2 : OkHeritage u Γ h) (h3 : OkMembers u p Γ x Γ')
    (hp : p → Orphan u Γ h ∨ Descends u Γ h) (hr : Nxt tl rest (IsKw u r!"END")) : Acc u tl (parseType u (declEnv u)) Γ (c :: (h ++ (x ++ rest)))
      (fun ty k => ∃ l ms, ty = .cls l ms ∧ (Descends u Γ h → GroundedList k.types l)) Γ' rest := by
  have hx : Nxt tl (x ++ rest) fun t => t.typ = .ident ∨ IsKw u r!"END" t := by
    by_cases hne : x = []
    · subst hne; exact hr.mono fun _ h => .inr h
    · obtain ⟨t, y, rfl, ht⟩ := members_head h3 hne
      exact .cons (.inl ht)
  have hns : ∀ {c t}, (t.typ = .ident ∨ IsKw u r!"END" t) → ¬ IsSym c t := by
    rintro c t (h | h)
    · exact ident_not_sym h
    · exact not_sym_kw h
  have hh : Nxt tl (h ++ (x ++ rest)) fun t => ¬ IsSym r!";" t ∧ ¬ IsKw u r!"OF" t := by
    cases h2 with
    | none =>
      refine hx.mono fun t h => ⟨hns h, ?_⟩
      rcases h with h | h
      · exact ident_not_kw h
      · exact kw_ne h (by decide)
    | some h => exact .cons ⟨not_sym h (by decide), sym_not_kw h⟩
  refine acc_classWord h1 hr.live hh.live (Acc.isF (hh.mono fun _ h => symF h.1) (Acc.isF (hh.mono fun _ h => kwF h.2) (Acc.succ ?_)))
  simp only [parseClass]
  refine Acc.traced ?_ hh.live hr.live
  refine AccH.acc (AccH.bind (acc_heritage h2 (hx.mono fun _ h => hns h)).h fun hs _ => ?_)
  by_cases hne : x = []
  · subst hne
    have : Γ' = Γ := by
      generalize he : ([] : List Token) = l at h3
      cases h3 with
      | sections h =>
        subst he
        cases h with | nil => rfl
      | fields h0 => exact (h0 (List.append_eq_nil_iff.1 he.symm).1).elim
    subst this
    exact AccH.isT (hr.mono fun _ h => kw_iff.2 h) (AccH.pure fun _ h => ⟨_, _, rfl, h.grounded⟩)
  · obtain ⟨t, y, e, ht⟩ := members_head h3 hne
    have hm := accH_members (h := hs) h3 hr hne
    subst e
    refine AccH.isF (.cons (kwF (ident_not_kw ht))) (AccH.isF (.cons (symF (ident_not_sym ht))) ?_)
    refine AccH.bind ((AccH.traced (hm.weaken fun _ h h' => h.ends (hp h')) (.cons trivial) hr.live).keeps heritage_settled
      (idle_of_tr fun n => (typesTr (sameTRBase u) n).sects hs .nil (idsSects .nil) fun _ h => h).traced) fun _ _ => AccH.pure fun _ h => ⟨_, _, rfl, h.2.grounded⟩

/-! ## Right sides of type declarations -/

theorem acc_typeDef {x : List Token} {o : NameSort} {s : Token} (h : OkTypeDef u Γ x o Γ') (hs : IsSym r!";" s) :
    ∃ ts', (ts' = s :: rest ∨ ∃ l, ts' = l :: s :: rest ∧ ¬ IsSym r!";" l) ∧
      Acc u tl (parseType u (declEnv u)) Γ (x ++ s :: rest) (fun ty k => HasSort k.types o ty) Γ' ts' := by
  cases h with
  | @type _ o _ h =>
    refine ⟨_, .inl rfl, (acc_type h (.cons (sym_stopsTy hs (by decide)))).mono fun ty _ hty => ?_⟩
    cases o with
    | false => trivial
    | true => exact hty rfl
  | @record p r x e _ h1 h2 h3 h4 =>
    refine ⟨e :: s :: rest, .inr ⟨_, rfl, not_sym_kw h4⟩, ?_⟩
    simp only [List.cons_append, List.append_assoc, List.nil_append]
    exact (acc_record h1 h2 h3 (.cons h4)).mono fun _ _ _ => trivial
  | @variant p r x Γ1 c y Γ2 o z e _ h1 h2 h3 h4 h5 h6 h7 h8 =>
    refine ⟨e :: s :: rest, .inr ⟨_, rfl, not_sym_kw h8⟩, ?_⟩
    simp only [List.cons_append, List.append_assoc, List.nil_append]
    exact (acc_variantRecord h1 h2 h3 h4 h5 h6 h7 (.cons h8)).mono fun _ _ _ => trivial
  | forward h =>
    refine ⟨_, .inl rfl, acc_classWord h (.cons trivial) (.cons trivial) ?_⟩
    exact Acc.isT (.cons (symbol_iff.2 hs)) (Acc.pure fun _ => rfl)
  | @classOf c o t h1 h2 h3 =>
    refine ⟨t :: s :: rest, .inr ⟨_, rfl, ident_not_sym h3⟩,
      acc_classWord h1 (.cons trivial) (.cons trivial) ?_⟩
    refine Acc.isF (.cons (symF (not_sym_kw h2))) (Acc.isT (.cons (kw_iff.2 h2)) ?_)
    unfold parseClassRef
    exact Acc.nextIs (typT h3) (Acc.getDecl fun k _ => Acc.pure fun _ => trivial)
  | @cls c h x e _ h1 h2 h3 h4 =>
    refine ⟨e :: s :: rest, .inr ⟨_, rfl, not_sym_kw h4⟩, ?_⟩
    simp only [List.cons_append, List.append_assoc, List.nil_append]
    exact (acc_class h1 h2 h3 .inl (.cons h4)).mono fun _ _ ⟨l, ms, h, _⟩ => ⟨l, ms, h⟩
  | @rooted c h x e _ h1 h2 h3 h4 h5 =>
    refine ⟨e :: s :: rest, .inr ⟨_, rfl, not_sym_kw h5⟩, ?_⟩
    simp only [List.cons_append, List.append_assoc, List.nil_append]
    exact (acc_class h1 h2 h4 (fun _ => .inr h3) (.cons h5)).mono fun _ _ ⟨l, ms, h, hg⟩ => ⟨l, ms, h, hg h3⟩

end TP
