import Verif.Lemmas.AccStmt

/-!
# Acceptance of types
-/

namespace TP
open Spec

variable {u : Uni} {tl : Tail} {α β : Type} {Γ Γ1 Γ' : NameEnv} {rest : List Token}

/-! ## Tokens -/

theorem ident_not_sym {t : Token} {c : Str} (h : t.typ = .ident) : ¬ IsSym c t := fun h' => by
  have := h'.1; rw [h] at this; cases this
theorem ident_not_kw {t : Token} {c : Str} (h : t.typ = .ident) : ¬ IsKw u c t := fun h' => by
  have := h'.1; rw [h] at this; cases this
theorem sym_not_kw {t : Token} {c d : Str} (h : IsSym c t) : ¬ IsKw u d t := fun h' => not_sym_kw h' h
theorem ident_value {t : Token} (h : t.typ = .ident) : t.value u = t.raw := value_of_ne (by rw [h]; decide)
theorem typT {t : Token} {k : TType} (h : t.typ = k) : Pred.typ k t = true := by simp [Pred.typ, h]

/-- cannot continue a type name -/
def StopsName (u : Uni) (t : Token) : Prop := t.value u ≠ r!".." ∧ ¬ IsSym r!"[" t

/-- cannot continue a type -/
def StopsTy (u : Uni) (t : Token) : Prop := StopsExpr u t ∧ t.value u ≠ r!".." ∧ ¬ IsKw u r!"OF" t ∧ ¬ IsKw u r!"PACKED" t

/-- cannot continue an ordinal type -/
def StopsOrd (u : Uni) (t : Token) : Prop := StopsExpr u t ∧ t.value u ≠ r!".."

theorem StopsTy.ord {t : Token} (h : StopsTy u t) : StopsOrd u t := ⟨h.1, h.2.1⟩
theorem StopsOrd.name {t : Token} (h : StopsOrd u t) : StopsName u t := ⟨h.2, h.1.1.1.1.2.1⟩

theorem StopsTy.name {t : Token} (h : StopsTy u t) : StopsName u t := ⟨h.2.1, h.1.1.1.1.2.1⟩

theorem sym_stopsTy {c : Str} {t : Token} (h : IsSym c t) (hc : c ∉ contSyms ++ contWords ∧ c ≠ r!"..") : StopsTy u t :=
  ⟨stops_of_value (sym_value h) hc.1, by rw [sym_value h]; exact hc.2, sym_not_kw h, sym_not_kw h⟩

theorem kw_stopsTy {c : Str} {t : Token} (h : IsKw u c t)
    (hc : c ∉ contSyms ++ contWords ∧ c ≠ r!".." ∧ c ≠ r!"OF" ∧ c ≠ r!"PACKED") : StopsTy u t :=
  ⟨stops_of_value (kw_value h) hc.1, by rw [kw_value h]; exact hc.2.1, kw_ne h hc.2.2.1, kw_ne h hc.2.2.2⟩

theorem sym_stopsName {c : Str} {t : Token} (h : IsSym c t) (hc : c ≠ r!".." ∧ c ≠ r!"[") : StopsName u t :=
  ⟨by rw [sym_value h]; exact hc.1, not_sym h hc.2⟩

/-! ## Lists of names, type names -/

theorem acc_idents {term : Pred} (hterm : ∀ t, IsSym r!"," t → term t = false) {x : List Token} {ns : List Str} (h : OkIdents x ns)
    (hr : Nxt tl rest fun t => term t = true) :
    Acc u tl (parseIdents term) Γ (x ++ rest) (fun a _ => a.map Ident.name = ns) Γ rest := by
  induction h with
  | one h1 =>
    refine Acc.succ ?_
    simp only [parseIdents]
    obtain ⟨t', e, h2⟩ := id hr
    refine Acc.eat (typT h1) hr.live (Acc.cur? e ?_)
    simp only [h2, if_true]
    exact Acc.pure fun _ => rfl
  | cons h1 h2 h3 ih =>
    refine Acc.succ ?_
    simp only [parseIdents]
    refine Acc.eat (typT h1) (.cons trivial) (Acc.cur? rfl ?_)
    simp only [hterm _ h2, symbol_iff.2 h2, if_true, Bool.false_eq_true, if_false]
    refine Acc.next (nxt_append hr) (Acc.bind ih fun a ha => Acc.pure fun _ => ?_)
    obtain ⟨_, ha⟩ := ha
    rw [List.map_cons, ha]; rfl

theorem colon_term : ∀ t, IsSym r!"," t → sym r!":" t = false := fun t h => by
  rw [← Bool.not_eq_true]; exact symF (not_sym h (by decide))

theorem idents_head {x : List Token} {ns : List Str} (h : OkIdents x ns) : ∃ t y, x = t :: y ∧ t.typ = .ident := by
  cases h with
  | one h => exact ⟨_, _, rfl, h⟩
  | cons h => exact ⟨_, _, rfl, h⟩

theorem acc_noUnit {t : Token} {ts ts' : List Token} {f : Nat → Option (TypeId (Decl Node)) → P DS β} {Q : β → DS → Prop}
    (h : Γ.get u (t.value u) ≠ some .space) (hf : Acc u tl (fun n => f n none) Γ (t :: ts) Q Γ' ts') :
    Acc u tl (fun n => parseTypeIdWithUnit u (declEnv u) >>= f n) Γ (t :: ts) Q Γ' ts' := by
  unfold parseTypeIdWithUnit
  simp only [P.bind_assoc]
  refine Acc.cur rfl (Acc.getDecl fun k hk => ?_)
  cases e : k.get u (t.value u) with
  | none =>
    simp only [Bool.false_eq_true, if_false]
    exact hf
  | some d =>
    simp only [(hk.notSpace h e).2, Bool.false_eq_true, if_false]
    exact hf

theorem acc_typeIdWithoutUnit {t : Token} (hr : Nxt tl rest fun _ => True) :
    Acc u tl (fun _ => parseTypeIdWithoutUnit (declEnv u)) Γ (t :: rest) Any Γ rest := by
  unfold parseTypeIdWithoutUnit
  refine Acc.cur rfl (Acc.next hr (Acc.getDecl fun k hk => ?_))
  cases k.get u t.raw with
  | some d => exact Acc.pure fun _ => trivial
  | none => exact Acc.newRef fun _ => Acc.pure fun _ => trivial

theorem acc_typeId {t : Token} (h : OkTypeId u Γ t) (hr : Nxt tl rest fun _ => True) :
    Acc u tl (fun _ => parseTypeId u (declEnv u)) Γ (t :: rest) Any Γ rest := by
  unfold parseTypeId
  exact acc_noUnit h.2 (acc_typeIdWithoutUnit hr)

theorem acc_typeForIdent {t : Token} (hv : t.value u = t.raw) (hn : Γ.get u t.raw ≠ some .space)
    (hr : Nxt tl rest fun t => t.value u ≠ r!"..") :
    Acc u tl (parseTypeForIdent u (declEnv u)) Γ (t :: rest) (fun ty k =>
      (NameEnv.embeddedOrd u t.raw = true → OrdTy ty) ∧
      (NameEnv.embedded u t.raw = false → (u.toLower t.raw, .ord) ∈ Γ.sure → k.ordinal ty = some true)) Γ rest := by
  intro s h1 h2 h3
  obtain ⟨t2, g1, g2⟩ := hr
  have hrun := fun n => typeName_run (n := n) (u := u) (hts := h3) (t2 := t2) (by rw [h1]; exact g1) g2
    (fun d e => (h2.notSpace (by rw [hv]; exact hn) e).2)
  simp only [hrun, hv]
  have hroll := h2.rollback
  have hown : Own s.cx s.cx.rollback := h2.rooted.own.rollback
  cases hm : (((DS.emb u .real t.raw).or (DS.emb u .ordIdent t.raw)).or (DS.emb u .string t.raw)) with
  | some d' =>
    refine ⟨_, { s with ts := rest }, h1, h2, rfl, h2.rooted.own, ⟨fun he => ?_, fun he => ?_⟩, 0, fun _ _ => rfl⟩
    · obtain ⟨e1, d, n, e2, e3⟩ := emb_ord he
      rw [e1, e2] at hm
      cases hm
      exact ⟨_, n, rfl, e3⟩
    · rw [emb_none he, emb_none he, emb_none he] at hm
      cases hm
  | none =>
    cases hg : s.cx.rollback.get u t.raw with
    | some d =>
      refine ⟨_, { s with ts := rest, cx := s.cx.rollback }, h1, hroll, rfl, hown, ⟨fun he => ?_, fun he hs => ?_⟩, 0, fun _ _ => rfl⟩
      · obtain ⟨e1, d, n, e2, e3⟩ := emb_ord he
        rw [e1, e2] at hm
        cases hm
      · obtain ⟨d', i, a1, a2, a3⟩ := hroll.sureT hs (by decide)
        rw [hg] at a1; cases a1
        exact ordinal_decl (a3 (by decide)) _
    | none =>
      refine ⟨_, { s with ts := rest, cx := (s.cx.rollback.newRef t.raw).1 }, h1, hroll.same rfl rfl rfl, rfl,
        hown.same rfl rfl rfl rfl rfl, ⟨fun he => ?_, fun he hs => ?_⟩, 0, fun _ _ => rfl⟩
      · obtain ⟨e1, d, n, e2, e3⟩ := emb_ord he
        rw [e1, e2] at hm
        cases hm
      · obtain ⟨d', i, a1, a2, a3⟩ := hroll.sureT hs (by decide)
        rw [hg] at a1; cases a1

/-! ## Types -/

section
variable {Q : PType (Decl Node) → DS → Prop} {ts ts' : List Token} {t : Token}

theorem acc_identType (ht : t.typ = .ident) (h : Acc u tl (parseTypeForIdent u (declEnv u)) Γ (t :: ts) Q Γ' ts') :
    Acc u tl (parseType u (declEnv u)) Γ (t :: ts) Q Γ' ts' := by
  refine Acc.succ ?_
  simp only [parseType]
  refine Acc.cur rfl ?_
  simp only [ht, reduceCtorEq, if_false, if_true]
  exact h

theorem acc_kwType {c : Str} (ht : IsKw u c t) (h : Acc u tl (fun n =>
      if [r!"PACKED", r!"ARRAY", r!"SET", r!"RECORD", r!"FILE"].contains c then parseStruc u (declEnv u) n
      else if [r!"FUNCTION", r!"PROCEDURE"].contains c then parseProcType u (declEnv u) n
      else if c = r!"CLASS" then parseClassOrRef u (declEnv u) n
      else parseStringType u (declEnv u) n) Γ (t :: ts) Q Γ' ts') :
    Acc u tl (parseType u (declEnv u)) Γ (t :: ts) Q Γ' ts' := by
  refine Acc.succ ?_
  simp only [parseType]
  refine Acc.cur rfl ?_
  simp only [ht.1, reduceCtorEq, or_self, if_false, if_true, kw_value ht]
  exact h

theorem acc_typeName (h : OkTypeId u Γ t) (hr : Nxt tl rest (StopsName u)) :
    Acc u tl (parseType u (declEnv u)) Γ (t :: rest) Any Γ rest := by
  rcases h.1 with ht | ht
  · have hv := ident_value (u := u) ht
    refine acc_identType ht (acc_typeForIdent hv ?_ (hr.mono fun _ h => h.1)).any
    rw [← hv]; exact h.2
  · refine acc_kwType ht ?_
    simp only [show ([r!"PACKED", r!"ARRAY", r!"SET", r!"RECORD", r!"FILE"].contains r!"STRING") = false by decide,
      show ([r!"FUNCTION", r!"PROCEDURE"].contains r!"STRING") = false by decide, show (r!"STRING" = r!"CLASS") = False by decide,
      Bool.false_eq_true, if_false]
    unfold parseStringType
    obtain ⟨d, n, e, -⟩ := emb_string ht
    refine Acc.cur rfl ?_
    simp only [show (declEnv u).emb .string (t.value u) = some d from e]
    exact Acc.next hr.live (Acc.isF (hr.mono fun _ h => symF h.2) (Acc.pure fun _ => trivial))

theorem acc_noEmb {e : EmbKind} {f : Nat → Option (PType (Decl Node)) → P DS β} {Q : β → DS → Prop}
    (h : NameEnv.embedded u (t.value u) = false) (hf : Acc u tl (fun n => f n none) Γ (t :: ts) Q Γ' ts') :
    Acc u tl (fun n => parseEmb u (declEnv u) e >>= f n) Γ (t :: ts) Q Γ' ts' := by
  unfold parseEmb
  simp only [P.bind_assoc]
  refine Acc.cur rfl ?_
  simp only [show (declEnv u).emb e (t.value u) = none from emb_none h]
  exact hf

theorem acc_init {f : Nat → Option (Expr (Decl Node)) → P DS β} {Q : β → DS → Prop} {x : List Token} (h : OkInit u Γ x)
    (hr : Nxt tl rest fun t => StopsExpr u t ∧ ¬ IsSym r!"=" t) (hf : ∀ e, Acc u tl (fun n => f n e) Γ rest Q Γ' ts') :
    Acc u tl (fun n => (do
      if ← P.is (sym r!"=") then do
        P.next
        let e ← parseExpr u (declEnv u).toEnv n
        pure (some e)
      else pure none) >>= f n) Γ (x ++ rest) Q Γ' ts' := by
  refine Acc.bind (Q := Any) (Γ1 := Γ) (ts1 := rest) ?_ fun a _ => hf a
  rcases h with rfl | ⟨e, x, rfl, h1, h2⟩
  · exact Acc.isF (hr.mono fun _ h => symF h.2) (Acc.pure fun _ => trivial)
  · exact Acc.isT (.cons (symbol_iff.2 h1)) (Acc.next (nxt_append hr)
      (Acc.bind (acc_expr h2 (hr.mono fun _ h => h.1)) fun _ _ => Acc.pure fun _ => trivial))

end

theorem acc_elem {t p : Token} {x : List Token} (ht : t.typ = .ident) (h : OkInit u Γ x) (hn : Γ.New u [t.raw])
    (hr : Nxt tl rest fun t => StopsExpr u t ∧ ¬ IsSym r!"=" t) :
    Acc u tl (parseEnumElem u (declEnv u)) Γ (p :: t :: (x ++ rest)) Any (Γ.declare u [t.raw]) rest := by
  unfold parseEnumElem
  refine Acc.nextIs (typT ht) (Acc.next (nxt_append hr) (acc_init h hr fun e => ?_))
  exact Acc.setDecl (is := [Ident.ofTok t]) (Γ := Γ) trivial hn (Acc.pure fun _ => trivial)

theorem comma_ends {t : Token} (h : IsSym r!"," t) : StopsExpr u t ∧ ¬ IsSym r!"=" t :=
  ⟨stops_of_value (sym_value h) (by decide), not_sym h (by decide)⟩
theorem close_ends {t : Token} (h : IsSym r!")" t) : StopsExpr u t ∧ ¬ IsSym r!"=" t :=
  ⟨stops_of_value (sym_value h) (by decide), not_sym h (by decide)⟩

theorem acc_elems {p : Token} {x : List Token} (h : OkElems u Γ x Γ') (hr : Nxt tl rest (IsSym r!")")) :
    Acc u tl (parseEnumElems u (declEnv u)) Γ (p :: (x ++ rest)) Any Γ' rest := by
  induction h generalizing p with
  | one h1 h2 h3 =>
    refine Acc.succ ?_
    simp only [parseEnumElems]
    obtain ⟨c, e, hc⟩ := id hr
    refine Acc.bind (acc_elem h1 h2 h3 (hr.mono fun _ h => close_ends h)) fun a _ => Acc.cur e ?_
    simp only [symbol_iff.2 hc, if_true]
    exact Acc.pure fun _ => trivial
  | cons h1 h2 h3 h4 h5 ih =>
    refine Acc.succ ?_
    simp only [parseEnumElems, List.append_assoc, List.cons_append]
    refine Acc.bind (acc_elem h1 h2 h3 (.cons (comma_ends h4))) fun a _ => Acc.cur rfl ?_
    simp only [Bool.not_eq_true _ ▸ symF (not_sym h4 (by decide) : ¬ IsSym r!")" _), symbol_iff.2 h4, if_true, Bool.false_eq_true,
      if_false]
    exact Acc.bind ih fun _ _ => Acc.pure fun _ => trivial

/-- the rest after a closing token -/
theorem nxt_snoc {x : List Token} {c : Token} : Nxt tl (x ++ c :: rest) fun _ => True := nxt_append (p := fun _ => True) (rest := c :: rest) (.cons trivial)

theorem acc_range {x y : List Token} {d : Token} (h1 : OkExpr u Γ x) (h2 : IsSym r!".." d) (h3 : OkExpr u Γ y)
    (hr : Nxt tl rest (StopsExpr u)) :
    Acc u tl (parseConstSubrange u (declEnv u)) Γ (x ++ d :: (y ++ rest)) (fun ty _ => OrdTy ty) Γ rest := by
  unfold parseConstSubrange
  refine Acc.bind (acc_expr h1 (.cons (stops_of_value (sym_value h2) (by decide)))) fun lo _ => ?_
  refine Acc.current rfl (by simp only [Pred.value, beq_iff_eq]; exact sym_value h2) (Acc.next (nxt_append hr) ?_)
  exact Acc.bind (acc_expr h3 hr) fun _ _ => Acc.pure fun _ => trivial

theorem acc_identRange {t d : Token} {y : List Token} (h1 : t.typ = .ident) (h2 : Γ.get u t.raw ≠ some .space)
    (h3 : NameEnv.embedded u t.raw = false) (h4 : IsSym r!".." d) (h5 : OkExpr u Γ y) (hr : Nxt tl rest (StopsExpr u)) :
    Acc u tl (parseTypeForIdent u (declEnv u)) Γ (t :: d :: (y ++ rest)) (fun ty _ => OrdTy ty) Γ rest := by
  have hv := ident_value (u := u) h1
  rw [← hv] at h2 h3
  unfold parseTypeForIdent
  refine acc_noUnit h2 (acc_noEmb h3 (acc_noEmb h3 (acc_noEmb h3 ?_)))
  refine Acc.bind (p := parseSubrangeIdent u (declEnv u)) (Q := fun o _ => ∃ ty, o = some ty ∧ OrdTy ty) (Γ1 := Γ) (ts1 := rest)
    ?_ fun a ha => ?_
  · unfold parseSubrangeIdent
    refine Acc.point (.cons trivial) fun s0 _ _ s a1 a2 a3 _ => ?_
    have key : Acc u tl (fun n => P.cur >>= fun t1 => P.next >>= fun _ => P.is (Pred.value u r!"..") >>= fun b =>
        if b = true then P.next >>= fun _ => parseExpr u (declEnv u).toEnv n >>= fun e => getDecl (declEnv u).toEnv t1.raw >>= fun r =>
          pure (some (PType.subrange (qualExpr { ns := none, ident := { ident := Ident.ofTok t1, ref := r } }) e))
        else rollbackTo (declEnv u).toEnv s0 >>= fun _ => pure none) Γ (t :: d :: (y ++ rest))
        (fun o _ => ∃ ty, o = some ty ∧ OrdTy ty) Γ rest := ?_
    · exact key s a1 a2 a3
    refine Acc.cur rfl (Acc.next (.cons trivial) (Acc.isT (.cons (by
      simp only [Pred.value, beq_iff_eq]; exact sym_value h4)) (Acc.next (nxt_append hr) ?_)))
    exact Acc.bind (acc_expr h5 hr) fun e _ => Acc.getDecl fun k _ => Acc.pure fun _ => ⟨_, rfl, trivial⟩
  · obtain ⟨_, ty, rfl, ho⟩ := ha
    exact Acc.pure fun _ => ho

theorem acc_simple {x : List Token} {o : Bool} (h : OkSimple u Γ x o Γ') (hr : Nxt tl rest (StopsOrd u)) :
    Acc u tl (parseType u (declEnv u)) Γ (x ++ rest) (fun ty _ => o = true → OrdTy ty) Γ' rest := by
  cases h with
  | name h => exact (acc_typeName h (hr.mono fun _ h => h.name)).mono fun _ _ _ h => by cases h
  | ordName h1 h2 h3 =>
    exact acc_identType h1 ((acc_typeForIdent (ident_value h1) h2 (hr.mono fun _ h => h.2)).mono fun _ _ h _ => h.1 h3)
  | pointer h1 h2 =>
    refine Acc.succ ?_
    simp only [parseType, List.cons_append, List.nil_append]
    refine Acc.cur rfl ?_
    simp only [h1.1, if_true, Bool.not_eq_true _ ▸ symF (not_sym h1 (by decide) : ¬ IsSym r!"(" _), symbol_iff.2 h1,
      Bool.false_eq_true, if_false]
    unfold parsePointer
    exact Acc.eatSym h1 (.cons trivial) (Acc.bind (acc_typeId h2 hr.live) fun _ _ => Acc.pure fun _ h => by cases h)
  | @fixed w _ _ _ h1 h2 h3 h4 =>
    simp only [List.cons_append, List.append_assoc, List.nil_append]
    refine acc_kwType h1 ?_
    simp only [show ([r!"PACKED", r!"ARRAY", r!"SET", r!"RECORD", r!"FILE"].contains r!"STRING") = false by decide,
      show ([r!"FUNCTION", r!"PROCEDURE"].contains r!"STRING") = false by decide, show (r!"STRING" = r!"CLASS") = False by decide,
      Bool.false_eq_true, if_false]
    unfold parseStringType
    obtain ⟨d, n, e, -⟩ := emb_string h1
    refine Acc.cur rfl ?_
    simp only [show (declEnv u).emb .string (w.value u) = some d from e]
    refine Acc.next (.cons trivial) (Acc.isT (.cons (symbol_iff.2 h2)) (Acc.next nxt_snoc ?_))
    refine Acc.bind (acc_expr h3 (.cons (stops_of_value (sym_value h4) (by decide)))) fun _ _ => ?_
    exact Acc.eatSym h4 hr.live (Acc.pure fun _ h => by cases h)
  | enum h1 h2 h3 =>
    refine Acc.succ ?_
    simp only [parseType, List.cons_append, List.append_assoc, List.nil_append]
    refine Acc.cur rfl ?_
    simp only [h1.1, if_true, symbol_iff.2 h1]
    unfold parseEnum
    exact Acc.bind (acc_elems h2 (.cons h3)) fun _ _ => Acc.next hr.live (Acc.pure fun _ _ => trivial)
  | range h1 h2 h3 h4 =>
    refine Acc.succ ?_
    simp only [parseType, List.cons_append, List.append_assoc]
    refine Acc.cur rfl ?_
    have g1 : ∀ t : Token, (t.typ = .numInt ∨ t.typ = .numReal ∨ t.typ = .charString) → t.typ ≠ .symbol ∧ t.typ ≠ .ident := by
      rintro t (h | h | h) <;> rw [h] <;> decide
    simp only [(g1 _ h1).1, (g1 _ h1).2, h1, if_true, if_false]
    exact (acc_range h2 h3 h4 (hr.mono fun _ h => h.1)).mono fun _ _ h _ => h
  | identRange h1 h2 h3 h4 h5 =>
    exact acc_identType h1 ((acc_identRange h1 h2 h3 h4 h5 (hr.mono fun _ h => h.1)).mono fun _ _ h _ => h)

theorem acc_ord {x : List Token} (h : OkOrd u Γ x Γ') (hr : Nxt tl rest (StopsOrd u)) :
    Acc u tl (parseType u (declEnv u)) Γ (x ++ rest) (fun ty k => k.ordinal ty = some true) Γ' rest := by
  cases h with
  | simple h => exact (acc_simple h hr).mono fun _ _ h => ordinal_ty (h rfl)
  | name h1 h2 h3 h4 =>
    exact acc_identType h1 ((acc_typeForIdent (ident_value h1) h2 (hr.mono fun _ h => h.2)).mono fun _ _ h => h.2 h3 h4)

theorem acc_ords {x : List Token} (h : OkOrds u Γ x Γ') (hr : Nxt tl rest (IsSym r!"]")) :
    Acc u tl (parseIndexTypes u (declEnv u)) Γ (x ++ rest) Any Γ' rest := by
  induction h with
  | one h =>
    refine Acc.succ ?_
    simp only [parseIndexTypes]
    obtain ⟨c, e, hc⟩ := id hr
    refine Acc.ordinal (acc_ord h (hr.mono fun _ h => (sym_stopsTy h (by decide)).ord)) fun a => Acc.cur? e ?_
    simp only [symbol_iff.2 hc, if_true]
    exact Acc.pure fun _ => trivial
  | cons h1 h2 h3 ih =>
    refine Acc.succ ?_
    simp only [parseIndexTypes, List.append_assoc, List.cons_append]
    refine Acc.ordinal (acc_ord h1 (.cons ((sym_stopsTy h2 (by decide)).ord))) fun a => Acc.cur? rfl ?_
    simp only [Bool.not_eq_true _ ▸ symF (not_sym h2 (by decide) : ¬ IsSym r!"]" _), symbol_iff.2 h2, if_true, Bool.false_eq_true,
      if_false]
    exact Acc.next (nxt_append hr) (Acc.bind ih fun _ _ => Acc.pure fun _ => trivial)

theorem acc_index {x : List Token} (h : OkIndex u Γ x Γ') (hr : Nxt tl rest (IsKw u r!"OF")) :
    Acc u tl (parseIndex u (declEnv u)) Γ (x ++ rest) Any Γ' rest := by
  refine Acc.succ ?_
  simp only [parseIndex]
  cases h with
  | none => exact Acc.isF (hr.mono fun _ h => symF (not_sym_kw h)) (Acc.pure fun _ => trivial)
  | some h1 h2 h3 =>
    simp only [List.cons_append, List.append_assoc, List.nil_append]
    refine Acc.isT (.cons (symbol_iff.2 h1)) (Acc.next nxt_snoc ?_)
    exact Acc.bind (acc_ords h2 (.cons h3)) fun _ _ => Acc.next hr.live (Acc.pure fun _ => trivial)

/-! ## Parameters -/

theorem acc_parmOpt {β : Type} {f : Nat → Option ParmOpt → P DS β} {Q : β → DS → Prop} {o ts ts' : List Token} (h : OkParmOpt u o)
    (hr : Nxt tl ts fun t => t.typ = .ident) (hf : ∀ a, Acc u tl (fun n => f n a) Γ ts Q Γ' ts') :
    Acc u tl (fun n => parseParmOpt u >>= f n) Γ (o ++ ts) Q Γ' ts' := by
  refine Acc.bind (p := fun _ => parseParmOpt u) (Q := Any) (Γ1 := Γ) (ts1 := ts) ?_ fun a _ => hf a
  unfold parseParmOpt
  rcases h with rfl | ⟨t, rfl, h⟩
  · obtain ⟨t, e, ht⟩ := hr
    refine Acc.cur e ?_
    simp only [ht, reduceCtorEq, if_false]
    exact Acc.pure fun _ => trivial
  · refine Acc.cur rfl ?_
    rcases h with h | h | h
    · simp only [h.1, kw_value h, if_true]
      exact Acc.next hr.live (Acc.pure fun _ => trivial)
    · simp only [h.1, kw_value h, if_true, show (r!"CONST" = r!"VAR") = False by decide, if_false]
      exact Acc.next hr.live (Acc.pure fun _ => trivial)
    · simp only [h.1, kw_value h, if_true, show (r!"OUT" = r!"VAR") = False by decide, show (r!"OUT" = r!"CONST") = False by decide,
        if_false]
      exact Acc.next hr.live (Acc.pure fun _ => trivial)

/-- what closes a list of parameters -/
abbrev Closer (cl : Str) : Prop := cl ∈ [r!")", r!"]"]

/-- `;` or what closes the list -/
def ParmEnd (cl : Str) (t : Token) : Prop := Closer cl ∧ (IsSym r!";" t ∨ IsSym cl t)

theorem ParmEnd.stops {cl : Str} {t : Token} (h : ParmEnd cl t) : StopsTy u t ∧ ¬ IsSym r!"=" t ∧ ¬ IsSym r!":" t := by
  have : ∀ c ∈ [r!")", r!"]"], (c ∉ contSyms ++ contWords ∧ c ≠ r!"..") ∧ c ≠ r!"=" ∧ c ≠ r!":" := by decide
  obtain ⟨hc, h | h⟩ := h
  · exact ⟨sym_stopsTy h (by decide), not_sym h (by decide), not_sym h (by decide)⟩
  · exact ⟨sym_stopsTy h (this _ hc).1, not_sym h (this _ hc).2.1, not_sym h (this _ hc).2.2⟩

theorem init_name {cl : Str} {x : List Token} (h : OkInit u Γ x) (hr : Nxt tl rest (ParmEnd cl)) : Nxt tl (x ++ rest) (StopsName u) := by
  rcases h with rfl | ⟨e, x, rfl, h1, -⟩
  · exact hr.mono fun _ h => h.stops.1.name
  · exact .cons (sym_stopsName h1 (by decide))

theorem acc_parmType {β : Type} {f : Nat → ParamTy (Decl Node) → Option (Expr (Decl Node)) → P DS β} {Q : β → DS → Prop}
    {cl : Str} {x ts' : List Token} (h : OkParmType u Γ x) (hr : Nxt tl rest (ParmEnd cl)) (hf : ∀ a b, Acc u tl (fun n => f n a b) Γ rest Q Γ' ts') :
    Acc u tl (fun n => parseParamTy u (declEnv u) n >>= fun a => parseParmDefault u (declEnv u) n >>= f n a) Γ (x ++ rest) Q Γ' ts' := by
  have hd : ∀ a {y}, OkInit u Γ y → Acc u tl (fun n => parseParmDefault u (declEnv u) n >>= f n a) Γ (y ++ rest) Q Γ' ts' := by
    intro a y hy
    unfold parseParmDefault
    exact acc_init hy (hr.mono fun _ h => ⟨h.stops.1.1, (h.stops (u := u)).2.1⟩) (hf a)
  cases h with
  | none =>
    refine Acc.bind (Q := Any) (Γ1 := Γ) (ts1 := rest) (Acc.succ ?_) fun a _ => hd a (.inl rfl)
    simp only [parseParamTy]
    exact Acc.isF (hr.mono fun _ h => symF (h.stops (u := u)).2.2) (Acc.pure fun _ => trivial)
  | name h1 h2 h3 =>
    refine Acc.bind (Q := Any) (Γ1 := Γ) (Acc.succ ?_) fun a _ => hd a h3
    simp only [parseParamTy]
    refine Acc.isT (.cons (symbol_iff.2 h1)) (Acc.next (.cons trivial) (Acc.isF (.cons (kwF ?_)) ?_))
    · rcases h2.1 with h | h
      · exact ident_not_kw h
      · exact kw_ne h (by decide)
    · exact Acc.bind (acc_typeName h2 (init_name h3 hr)) fun _ _ => Acc.pure fun _ => trivial
  | array h1 h2 h3 h4 h5 =>
    refine Acc.bind (Q := Any) (Γ1 := Γ) (Acc.succ ?_) fun a _ => hd a h5
    simp only [parseParamTy]
    refine Acc.isT (.cons (symbol_iff.2 h1)) (Acc.next (.cons trivial) (Acc.isT (.cons (kw_iff.2 h2)) ?_))
    refine Acc.nextIs (kw_iff.2 h3) (Acc.next (.cons trivial) (Acc.isF (.cons (kwF ?_)) ?_))
    · rcases h4.1 with h | h
      · exact ident_not_kw h
      · exact kw_ne h (by decide)
    · exact Acc.bind (acc_typeName h4 (init_name h5 hr)) fun _ _ => Acc.pure fun _ => trivial
  | const h1 h2 h3 h4 =>
    refine Acc.bind (Q := Any) (Γ1 := Γ) (ts1 := rest) (Acc.succ ?_) fun a _ => hd a (.inl rfl)
    simp only [parseParamTy]
    refine Acc.isT (.cons (symbol_iff.2 h1)) (Acc.next (.cons trivial) (Acc.isT (.cons (kw_iff.2 h2)) ?_))
    exact Acc.nextIs (kw_iff.2 h3) (Acc.next (.cons trivial) (Acc.isT (.cons (kw_iff.2 h4)) (Acc.next hr.live
      (Acc.pure fun _ => trivial))))

theorem parmType_head {cl : Str} {y : List Token} (h : OkParmType u Γ y) (hr : Nxt tl rest (ParmEnd cl)) :
    Nxt tl (y ++ rest) fun t => Pred.some [sym r!":", sym r!";", sym cl] t = true := by
  have hc : ∀ t, IsSym r!":" t → Pred.some [sym r!":", sym r!";", sym cl] t = true := fun t h => by
    simp [Pred.some, symbol_iff.2 h]
  cases h with
  | none =>
    refine hr.mono fun t h => ?_
    rcases h.2 with h | h <;> simp [Pred.some, symbol_iff.2 h]
  | name h => exact .cons (hc _ h)
  | array h => exact .cons (hc _ h)
  | const h => exact .cons (hc _ h)

theorem comma_term {cl : Str} (hc : Closer cl) : ∀ t, IsSym r!"," t → Pred.some [sym r!":", sym r!";", sym cl] t = false := fun t h => by
  have : ∀ c ∈ [r!")", r!"]"], r!"," ≠ c := by decide
  simp [Pred.some, symF (not_sym h (by decide) : ¬ IsSym r!":" t), symF (not_sym h (by decide) : ¬ IsSym r!";" t),
    symF (not_sym h (this _ hc) : ¬ IsSym cl t)]

theorem acc_parm {β : Type} {f : Nat → Option ParmOpt → List Ident → ParamTy (Decl Node) → Option (Expr (Decl Node)) → P DS β}
    {cl : Str} {Q : β → DS → Prop} {o x y ts' : List Token} {ns : List Str} (h1 : OkParmOpt u o) (h2 : OkIdents x ns) (h3 : OkParmType u Γ y)
    (h4 : Γ.New u ns) (hr : Nxt tl rest (ParmEnd cl)) (hf : ∀ a b c d, Acc u tl (fun n => f n a b c d) (Γ.declare u ns) rest Q Γ' ts') :
    Acc u tl (fun n => parseParmOpt u >>= fun a => parseIdents (Pred.some [sym r!":", sym r!";", sym cl]) n >>= fun b =>
      parseParamTy u (declEnv u) n >>= fun c => parseParmDefault u (declEnv u) n >>= fun d =>
      P.current (Pred.some [sym r!";", sym cl]) >>= fun _ => setDecl (declEnv u) b .param >>= fun _ => f n a b c d)
      Γ (o ++ (x ++ (y ++ rest))) Q Γ' ts' := by
  obtain ⟨t, z, e, ht⟩ := idents_head h2
  refine acc_parmOpt h1 (by rw [e]; exact .cons ht) fun a => ?_
  have hcl : Closer cl := by obtain ⟨_, _, h⟩ := hr; exact h.1
  refine Acc.bind (acc_idents (comma_term hcl) h2 (parmType_head h3 hr)) fun b hb => ?_
  obtain ⟨_, rfl⟩ := hb
  refine acc_parmType h3 hr fun c d => ?_
  obtain ⟨t, e1, e2⟩ := id hr
  refine Acc.current e1 ?_ (Acc.setDecl trivial h4 (hf a b c d))
  rcases e2.2 with h | h <;> simp [Pred.some, symbol_iff.2 h]

theorem acc_params {cl : Str} (hcl : Closer cl) {x : List Token} (h : OkParams u Γ x Γ') (hr : Nxt tl rest (IsSym cl)) :
    Acc u tl (parseParamList u (declEnv u) cl) Γ (x ++ rest) Any Γ' rest := by
  have : ∀ c ∈ [r!")", r!"]"], r!";" ≠ c := by decide
  induction h with
  | one h1 h2 h3 h4 =>
    refine Acc.succ ?_
    simp only [parseParamList, List.append_assoc]
    refine acc_parm h1 h2 h3 h4 (hr.mono fun _ h => ⟨hcl, .inr h⟩) fun a b c d => ?_
    obtain ⟨t, e, ht⟩ := hr
    refine Acc.cur? e ?_
    simp only [symbol_iff.2 ht, if_true]
    exact Acc.pure fun _ => trivial
  | cons h1 h2 h3 h4 h5 h6 ih =>
    refine Acc.succ ?_
    simp only [parseParamList, List.append_assoc, List.cons_append]
    refine acc_parm h1 h2 h3 h4 (.cons ⟨hcl, .inl h5⟩) fun a b c d => ?_
    refine Acc.cur? rfl ?_
    simp only [Bool.not_eq_true _ ▸ symF (not_sym h5 (this _ hcl) : ¬ IsSym cl _), symbol_iff.2 h5, if_true, Bool.false_eq_true,
      if_false]
    exact Acc.next (nxt_append hr) (Acc.bind ih fun _ _ => Acc.pure fun _ => trivial)

theorem acc_optParams {x : List Token} (h : OkOptParams u Γ x Γ') (hr : Nxt tl rest fun t => ¬ IsSym r!"(" t) :
    Acc u tl (parseOptParams u (declEnv u) r!"(" r!")") Γ (x ++ rest) Any Γ' rest := by
  refine Acc.succ ?_
  simp only [parseOptParams]
  cases h with
  | none => exact Acc.isF (hr.mono fun _ h => symF h) (Acc.pure fun _ => trivial)
  | some h1 h2 h3 =>
    simp only [List.cons_append, List.append_assoc, List.nil_append]
    refine Acc.isT (.cons (symbol_iff.2 h1)) ?_
    refine Acc.bind (p := parseParams u (declEnv u) r!"(" r!")") (Q := Any) (Acc.succ ?_) fun _ _ => Acc.pure fun _ => trivial
    simp only [parseParams]
    refine Acc.eatSym h1 nxt_snoc (Acc.bind (acc_params (by decide) h2 (.cons h3)) fun _ _ => ?_)
    exact Acc.eatSym h3 hr.live (Acc.pure fun _ => trivial)

theorem acc_return {fn : Bool} {r : List Token} (h : OkReturn u Γ fn r) (hr : Nxt tl rest fun _ => True) :
    Acc u tl (fun _ => parseReturn u (declEnv u) fn) Γ (r ++ rest) Any Γ rest := by
  unfold parseReturn
  cases h with
  | proc =>
    simp only [Bool.false_eq_true, if_false]
    exact Acc.pure fun _ => trivial
  | func h1 h2 =>
    simp only [if_true]
    exact Acc.eatSym h1 (.cons trivial) (Acc.bind (acc_typeId h2 hr) fun _ _ => Acc.pure fun _ => trivial)

theorem acc_funcWord {β : Type} {f : Nat → Bool → P DS β} {Q : β → DS → Prop} {fn : Bool} {w : Token} {ts ts' : List Token}
    (h : IsRoutineWord u fn w) (hf : Acc u tl (fun n => f n fn) Γ (w :: ts) Q Γ' ts') :
    Acc u tl (fun n => parseFuncWord u >>= f n) Γ (w :: ts) Q Γ' ts' := by
  refine Acc.look (q := parseFuncWord u) (a := fn) (fun s hs => ?_) hf
  unfold parseFuncWord
  rw [bind_ok (cur_run hs)]
  unfold IsRoutineWord at h
  cases fn with
  | true =>
    simp only [if_true] at h
    rw [if_pos (kw_value h)]; rfl
  | false =>
    simp only [Bool.false_eq_true, if_false] at h
    rw [if_neg (by rw [kw_value h]; decide), if_pos (kw_value h)]; rfl

theorem return_head {fn : Bool} {r : List Token} {p : Token → Prop} (h : OkReturn u Γ fn r) (hc : ∀ t, IsSym r!":" t → p t)
    (hr : Nxt tl rest p) : Nxt tl (r ++ rest) p := by
  cases h with
  | proc => exact hr
  | func h1 => exact .cons (hc _ h1)

theorem colon_not_open (t : Token) (h : IsSym r!":" t) : ¬ IsSym r!"(" t := not_sym h (by decide)

theorem acc_procType {fn : Bool} {w : Token} {x r o : List Token} (h1 : IsRoutineWord u fn w) (h2 : OkOptParams u Γ.opened x Γ1)
    (h3 : OkReturn u Γ1 fn r) (h4 : OkOfObject u o) (hr : Nxt tl rest (StopsTy u)) :
    Acc u tl (parseProcType u (declEnv u)) Γ (w :: (x ++ (r ++ (o ++ rest)))) Any (Γ.closed Γ1) rest := by
  refine Acc.succ ?_
  simp only [parseProcType]
  refine acc_funcWord h1 (Acc.stacked (Q := Any) ?_)
  have ho : Nxt tl (o ++ rest) fun t => ¬ IsSym r!"(" t := by
    rcases h4 with rfl | ⟨a, b, rfl, ha, hb⟩
    · exact hr.mono fun _ h => h.1.1.1.1.2.2.2
    · exact .cons (not_sym_kw ha)
  have hrr := return_head h3 colon_not_open ho
  refine Acc.next (nxt_append hrr) (Acc.bind (acc_optParams h2 hrr) fun _ _ => Acc.bind (acc_return h3 ho.live) fun _ _ => ?_)
  refine Acc.bind (p := fun _ => parseOfObject u) (Q := Any) (Γ1 := Γ1) (ts1 := rest) ?_ fun _ _ => Acc.pure fun _ => trivial
  unfold parseOfObject
  rcases h4 with rfl | ⟨a, b, rfl, ha, hb⟩
  · exact Acc.isF (hr.mono fun _ h => kwF h.2.2.1) (Acc.pure fun _ => trivial)
  · exact Acc.isT (.cons (kw_iff.2 ha)) (Acc.next (.cons trivial) (Acc.eatKw hb hr.live (Acc.pure fun _ => trivial)))

/-! ## Structured types -/

/-- the word after `PACKED` -/
theorem acc_packed {p : List Token} {w : Token} {c : Str} {ts ts' : List Token} {Q : PType (Decl Node) → DS → Prop}
    (hp : OkPacked u p) (hw : IsKw u c w) (hc : c = r!"ARRAY" ∨ c = r!"SET" ∨ c = r!"RECORD" ∨ c = r!"FILE")
    (h : ∀ b, Acc u tl (fun n => if c = r!"ARRAY" then parseArray u (declEnv u) b n
      else if c = r!"SET" then parseSet u (declEnv u) b n
      else if c = r!"RECORD" then parseRec u (declEnv u) b n
      else parseFile u (declEnv u) b) Γ (w :: ts) Q Γ' ts') :
    Acc u tl (parseType u (declEnv u)) Γ (p ++ w :: ts) Q Γ' ts' := by
  have main : ∀ b, Acc u tl (fun n => P.cur >>= fun t =>
      if t.value u = r!"ARRAY" then parseArray u (declEnv u) b n
      else if t.value u = r!"SET" then parseSet u (declEnv u) b n
      else if t.value u = r!"RECORD" then parseRec u (declEnv u) b n
      else if t.value u = r!"FILE" then parseFile u (declEnv u) b else P.fail) Γ (w :: ts) Q Γ' ts' := by
    intro b
    refine Acc.cur rfl ?_
    simp only [kw_value hw]
    have := h b
    rcases hc with rfl | rfl | rfl | rfl
    · exact this
    · exact this
    · exact this
    · exact this
  rcases hp with rfl | ⟨t, rfl, ht⟩
  · refine acc_kwType hw ?_
    have : ([r!"PACKED", r!"ARRAY", r!"SET", r!"RECORD", r!"FILE"].contains c) = true := by
      rcases hc with rfl | rfl | rfl | rfl <;> decide
    simp only [this, if_true]
    refine Acc.succ ?_
    simp only [parseStruc, P.bind_assoc]
    refine Acc.isF (.cons (kwF (kw_ne hw ?_))) (main false)
    rcases hc with rfl | rfl | rfl | rfl <;> decide
  · refine acc_kwType ht ?_
    simp only [show ([r!"PACKED", r!"ARRAY", r!"SET", r!"RECORD", r!"FILE"].contains r!"PACKED") = true by decide, if_true]
    refine Acc.succ ?_
    simp only [parseStruc, P.bind_assoc]
    refine Acc.isT (.cons (kw_iff.2 ht)) ?_
    simp only [if_true, P.bind_assoc]
    exact Acc.next (.cons trivial) (main true)

theorem acc_type {x : List Token} {o : Bool} (h : OkType u Γ x o Γ') (hr : Nxt tl rest (StopsTy u)) :
    Acc u tl (parseType u (declEnv u)) Γ (x ++ rest) (fun ty _ => o = true → OrdTy ty) Γ' rest := by
  induction h with
  | simple h => exact acc_simple h (hr.mono fun _ h => h.ord)
  | set h1 h2 h3 h4 =>
    simp only [List.append_assoc, List.cons_append]
    refine acc_packed h1 h2 (by decide) fun b => Acc.succ ?_
    simp only [parseSet, show (r!"SET" = r!"ARRAY") = False by decide, if_true, if_false]
    refine Acc.eatKwP h2 (.cons trivial) (Acc.eatKwP h3 (nxt_append hr) ?_)
    exact Acc.ordinal (acc_ord h4 (hr.mono fun _ h => h.ord)) fun a => Acc.pure fun _ h => by cases h
  | file h1 h2 h3 h4 =>
    simp only [List.append_assoc, List.cons_append, List.nil_append]
    refine acc_packed h1 h2 (by decide) fun b => ?_
    simp only [parseFile, show (r!"FILE" = r!"ARRAY") = False by decide, show (r!"FILE" = r!"SET") = False by decide,
      show (r!"FILE" = r!"RECORD") = False by decide, if_false]
    refine Acc.eatKwP h2 (.cons trivial) (Acc.eatKwP h3 (.cons trivial) ?_)
    exact Acc.bind (acc_typeId h4 hr.live) fun a _ => Acc.pure fun _ h => by cases h
  | array h1 h2 h3 h4 h5 ih =>
    simp only [List.append_assoc, List.cons_append]
    refine acc_packed h1 h2 (by decide) fun b => Acc.succ ?_
    simp only [parseArray, if_true]
    refine Acc.eatKwP h2 nxt_snoc (Acc.bind (acc_index h3 (.cons h4)) fun _ _ => Acc.eatKwP h4 (nxt_append hr) ?_)
    refine Acc.bind ih fun _ _ => Acc.isF (hr.mono fun _ h => kwF h.2.2.2) (Acc.pure fun _ h => by cases h)
  | @proc Γ fn w x Γ1 r o h1 h2 h3 h4 =>
    have h1' := h1
    unfold IsRoutineWord at h1'
    have hc : ∀ fn : Bool, ([r!"PACKED", r!"ARRAY", r!"SET", r!"RECORD", r!"FILE"].contains
          (if fn = true then r!"FUNCTION" else r!"PROCEDURE")) = false ∧
        ([r!"FUNCTION", r!"PROCEDURE"].contains (if fn = true then r!"FUNCTION" else r!"PROCEDURE")) = true := by decide
    simp only [List.cons_append, List.append_assoc]
    refine acc_kwType h1' ?_
    simp only [(hc fn).1, (hc fn).2, if_true, Bool.false_eq_true, if_false]
    exact (acc_procType h1 h2 h3 h4 hr).mono fun _ _ _ => False.elim

end TP
