import Verif.Lemmas.AccClass
import Verif.Lemmas.Larger
import Verif.Model.Goal

/-!
# Acceptance of declarations and blocks
-/

namespace TP
open Spec

variable {u : Uni} {tl : Tail} {α β : Type} {Γ Γ1 Γ2 Γ' : NameEnv} {rest : List Token}

theorem acc_begin {x : List Token} (h : OkCompound u Γ x Γ') (hr : Nxt tl rest fun _ => True) :
    Acc u tl (parseCompound u (SD u)) Γ (x ++ rest) Any Γ' rest := by
  obtain ⟨hl, l, h⟩ := h
  rw [DBody] at h
  obtain ⟨t, x, c, rfl, h1, h2, h3⟩ := h
  simp only [List.cons_append, List.append_assoc, List.nil_append]
  refine Acc.succ ?_
  simp only [parseCompound]
  refine Acc.eatKw h1 nxt_snoc (Acc.bind (Q := Any) (Γ1 := Γ') (ts1 := c :: rest) (Acc.go (lab := (declEnv u).isLabel)
    (fun _ hk => noLabels hl hk) fun k hk => ?_) fun _ _ =>
    Acc.eatKw h3 hr (Acc.pure fun _ => trivial))
  obtain ⟨l', k', g1, g2⟩ := elabStmts (W := t :: (x ++ [c])) l ⟨hk, hl.1⟩ (fun _ ht => by simp [ht]) h2
  exact ⟨l', k', g2.1, stmts_go (simBase u (lab := (declEnv u).isLabel) (fun _ _ => rfl) k tl) l' (term_kw (by decide)) g1 (.cons (kw_iff.2 h3))⟩

/-! ## Tokens -/

/-- the first word of a section, or of what follows the sections -/
def BlockWord (u : Uni) (t : Token) : Prop :=
  ∃ c ∈ [r!"LABEL", r!"CONST", r!"TYPE", r!"VAR", r!"THREADVAR", r!"FUNCTION", r!"PROCEDURE", r!"EXPORTS", r!"BEGIN", r!"ASM", r!"IMPLEMENTATION",
    r!"INITIALIZATION", r!"END"], IsKw u c t

/-- the first word of what follows the sections of a block or of an implementation -/
def BodyWord (u : Uni) (t : Token) : Prop := ∃ c ∈ [r!"EXPORTS", r!"BEGIN", r!"ASM", r!"INITIALIZATION", r!"END"], IsKw u c t

theorem BlockWord.ends {t : Token} (h : BlockWord u t) : sectionEnd t = true := by
  obtain ⟨c, -, h⟩ := h
  exact sectionEnd_iff.2 (.inl h.1)
theorem BlockWord.notSym {c : Str} {t : Token} (h : BlockWord u t) : ¬ IsSym c t := by
  obtain ⟨_, -, h⟩ := h
  exact not_sym_kw h
theorem BlockWord.notDir {t : Token} (h : BlockWord u t) : Pred.directive u directiveNames t = false := by
  obtain ⟨c, hc, h⟩ := h
  unfold Pred.directive
  rw [h.2]
  clear h
  revert hc; revert c; decide

theorem ident_notEnd {t : Token} (h : t.typ = .ident) : ¬ sectionEnd t = true := by
  rw [sectionEnd_iff, h]; simp
theorem sym_notEnd {c : Str} {t : Token} (h : IsSym c t) : ¬ sectionEnd t = true := by
  rw [sectionEnd_iff, h.1]; simp

/-! ## Constants -/

theorem const_head {x : List Token} (h : OkConst u Γ x Γ') : ∃ t y, x = t :: y ∧ t.typ = .ident := by
  cases h with
  | plain h => exact ⟨_, _, rfl, h⟩
  | typed h => exact ⟨_, _, rfl, h⟩

theorem acc_const {x : List Token} {s : Token} (h : OkConst u Γ x Γ') (hs : IsSym r!";" s) :
    Acc u tl (parseConstDecl u (declEnv u)) Γ (x ++ s :: rest) (fun d _ => Shows u Γ' .other [d.ident.name]) Γ' (s :: rest) := by
  unfold parseConstDecl
  have hp : ∀ {t : Token}, t.typ = .ident → Pred.some [Pred.typ .ident, Pred.directive u directiveNames] t = true := by
    intro t ht
    simp [Pred.some, typT ht]
  have hstop : Nxt tl (s :: rest) (StopsExpr u) := .cons (stops_of_value (sym_value hs) (by decide))
  cases h with
  | @plain t e x h1 h2 h3 h4 =>
    simp only [List.cons_append]
    refine Acc.current rfl (hp h1) (Acc.setDecl (is := [Ident.ofTok t]) trivial h2 (Acc.next (.cons trivial) ?_))
    refine Acc.bind (Q := Any) (Γ1 := Γ.declare u [t.raw]) (ts1 := e :: (x ++ s :: rest))
      (Acc.isF (.cons (symF (not_sym h3 (by decide)))) (Acc.pure fun _ => trivial)) fun _ _ => ?_
    exact Acc.eatSym h3 (nxt_append hstop) (Acc.bind (acc_expr h4 hstop) fun _ _ => Acc.pure fun _ => .declare _ _)
  | @typed t c y e x h1 h2 h3 h4 h5 h6 =>
    simp only [List.cons_append]
    refine Acc.current rfl (hp h1) (Acc.setDecl (is := [Ident.ofTok t]) trivial h2 (Acc.next (.cons trivial) ?_))
    refine Acc.bind (Q := Any) (Γ1 := Γ.declare u [t.raw]) (ts1 := e :: (x ++ s :: rest))
      (Acc.isT (.cons (symbol_iff.2 h3)) (Acc.next (.cons trivial)
        (Acc.bind (acc_typeName h4 (.cons (sym_stopsName h5 (by decide)))) fun _ _ => Acc.pure fun _ => trivial))) fun _ _ => ?_
    exact Acc.eatSym h5 (nxt_append hstop) (Acc.bind (acc_expr h6 hstop) fun _ _ => Acc.pure fun _ => .declare _ _)

theorem consts_head {x : List Token} (h : OkConsts u Γ x Γ') : ∃ t y, x = t :: y ∧ t.typ = .ident := by
  cases h with
  | one h =>
    obtain ⟨t, y, rfl, ht⟩ := const_head h
    exact ⟨_, _, rfl, ht⟩
  | cons h =>
    obtain ⟨t, y, rfl, ht⟩ := const_head h
    exact ⟨_, _, rfl, ht⟩

theorem acc_consts {x : List Token} (h : OkConsts u Γ x Γ') (hr : Nxt tl rest (BlockWord u)) :
    Acc u tl (parseConstDecls u (declEnv u)) Γ (x ++ rest) (fun ds _ => ∀ d ∈ ds, Shows u Γ' .other [d.ident.name]) Γ' rest := by
  induction h with
  | one h1 h2 =>
    refine Acc.succ ?_
    simp only [parseConstDecls, List.append_assoc, List.cons_append, List.nil_append]
    refine Acc.bind (acc_const h1 h2) fun d hd => Acc.eatSym h2 hr.live ?_
    exact Acc.isT (hr.mono fun _ h => h.ends) (Acc.pure fun _ d' h' => by
      obtain ⟨_, hd⟩ := hd
      rw [List.mem_singleton] at h'
      subst h'
      exact hd)
  | cons h1 h2 h3 ih =>
    refine Acc.succ ?_
    simp only [parseConstDecls, List.append_assoc, List.cons_append]
    refine Acc.bind (acc_const h1 h2) fun d hd => Acc.eatSym h2 (nxt_append hr) ?_
    obtain ⟨t, y, e, ht⟩ := consts_head h3
    exact Acc.isF (by rw [e]; exact .cons (ident_notEnd ht)) (Acc.bind ih fun ds hds => Acc.pure fun _ d' h' => by
      obtain ⟨_, hd⟩ := hd
      obtain ⟨_, hds⟩ := hds
      rcases List.mem_cons.1 h' with rfl | h'
      · exact hd.grows (OkConsts.grows h3)
      · exact hds d' h')

/-! ## Variables -/

theorem acc_var {x : List Token} {s : Token} (h : OkVar u Γ x Γ') (hs : IsSym r!";" s) :
    Acc u tl (parseVarDecl u (declEnv u)) Γ (x ++ s :: rest) (fun d _ => Shows u Γ' .other (d.idents.map Ident.name)) Γ' (s :: rest) := by
  unfold parseVarDecl
  have hup : ∀ {c : Str} {t : Token}, IsSym c t → Asc c → c.map asciiUp ≠ r!"ABSOLUTE" → ¬ Pred.upperCase u r!"ABSOLUTE" t = true :=
    fun h ha hc => upF (value_not_up (sym_value h) ha hc)
  cases h with
  | @plain x ns c y b Γ1 h1 h2 h3 h4 =>
    simp only [List.cons_append, List.append_assoc]
    refine Acc.bind (acc_idents colon_term h1 (.cons (symbol_iff.2 h2))) fun is his => Acc.next nxt_snoc ?_
    obtain ⟨_, rfl⟩ := his
    refine Acc.bind (acc_type h3 (.cons (sym_stopsTy hs (by decide)))) fun _ _ => ?_
    refine Acc.bind (Q := Any) (Γ1 := Γ1) (ts1 := s :: rest) (Acc.isF (.cons (hup hs (by decide) (by decide)))
      (Acc.pure fun _ => trivial)) fun _ _ => ?_
    refine Acc.bind (Q := Any) (Γ1 := Γ1) (ts1 := s :: rest) (Acc.isF (.cons (symF (not_sym hs (by decide))))
      (Acc.pure fun _ => trivial)) fun _ _ => ?_
    exact Acc.setDecl trivial h4 (Acc.pure fun _ => .declare _ _)
  | @init x ns c t e y h1 h2 h3 h4 h5 h6 =>
    simp only [List.cons_append, List.append_assoc]
    refine Acc.bind (acc_idents colon_term h1 (.cons (symbol_iff.2 h2))) fun is his => Acc.next (.cons trivial) ?_
    obtain ⟨_, rfl⟩ := his
    have hstop : Nxt tl (s :: rest) (StopsExpr u) := .cons (stops_of_value (sym_value hs) (by decide))
    refine Acc.bind (acc_typeName h3 (.cons (sym_stopsName h4 (by decide)))) fun _ _ => ?_
    refine Acc.bind (Q := Any) (Γ1 := Γ) (ts1 := e :: (y ++ s :: rest)) (Acc.isF (.cons (hup h4 (by decide) (by decide)))
      (Acc.pure fun _ => trivial)) fun _ _ => ?_
    refine Acc.bind (Q := Any) (Γ1 := Γ) (ts1 := s :: rest) (Acc.isT (.cons (symbol_iff.2 h4)) (Acc.next (nxt_append hstop)
      (Acc.bind (acc_expr h5 hstop) fun _ _ => Acc.pure fun _ => trivial))) fun _ _ => ?_
    exact Acc.setDecl trivial h6 (Acc.pure fun _ => .declare _ _)
  | @absolute x ns c y b Γ1 a t h1 h2 h3 h4 h5 h6 =>
    simp only [List.cons_append, List.append_assoc, List.nil_append]
    refine Acc.bind (acc_idents colon_term h1 (.cons (symbol_iff.2 h2))) fun is his => Acc.next nxt_snoc ?_
    obtain ⟨_, rfl⟩ := his
    have hst : StopsTy u a := ⟨stops_of_up h4 (by decide), up_value h4 (by decide) (by decide),
      fun h => up_value h4 (by decide) (by decide) (kw_value h), fun h => up_value h4 (by decide) (by decide) (kw_value h)⟩
    refine Acc.bind (acc_type h3 (.cons hst)) fun _ _ => ?_
    refine Acc.bind (Q := Any) (Γ1 := Γ1) (ts1 := s :: rest) (Acc.isT (.cons (upper_iff.2 h4)) (Acc.nextIs (typT h5) (Acc.next (.cons trivial)
      (Acc.pure fun _ => trivial)))) fun _ _ => ?_
    refine Acc.bind (Q := Any) (Γ1 := Γ1) (ts1 := s :: rest) (Acc.isF (.cons (symF (not_sym hs (by decide))))
      (Acc.pure fun _ => trivial)) fun _ _ => ?_
    exact Acc.setDecl trivial h6 (Acc.pure fun _ => .declare _ _)

theorem head_append {x y : List Token} (h : ∃ t z, x = t :: z ∧ t.typ = .ident) : ∃ t z, x ++ y = t :: z ∧ t.typ = .ident := by
  obtain ⟨t, z, rfl, ht⟩ := h
  exact ⟨_, _, rfl, ht⟩

theorem var_head {x : List Token} (h : OkVar u Γ x Γ') : ∃ t y, x = t :: y ∧ t.typ = .ident := by
  cases h with
  | plain h => exact head_append (idents_head h)
  | init h => exact head_append (idents_head h)
  | absolute h => exact head_append (idents_head h)

theorem vars_head {x : List Token} (h : OkVars u Γ x Γ') : ∃ t y, x = t :: y ∧ t.typ = .ident := by
  cases h with
  | one h => exact head_append (var_head h)
  | cons h => exact head_append (var_head h)

theorem acc_vars {x : List Token} (h : OkVars u Γ x Γ') (hr : Nxt tl rest (BlockWord u)) :
    Acc u tl (parseVarDecls u (declEnv u)) Γ (x ++ rest) (fun ds _ => ∀ d ∈ ds, Shows u Γ' .other (d.idents.map Ident.name)) Γ' rest := by
  induction h with
  | one h1 h2 =>
    refine Acc.succ ?_
    simp only [parseVarDecls, List.append_assoc, List.cons_append, List.nil_append]
    refine Acc.bind (acc_var h1 h2) fun d hd => Acc.isF (.cons (sym_notEnd h2)) (Acc.eatSym h2 hr.live ?_)
    exact Acc.isT (hr.mono fun _ h => h.ends) (Acc.pure fun _ d' h' => by
      obtain ⟨_, hd⟩ := hd
      rw [List.mem_singleton] at h'
      subst h'
      exact hd)
  | cons h1 h2 h3 ih =>
    refine Acc.succ ?_
    simp only [parseVarDecls, List.append_assoc, List.cons_append]
    refine Acc.bind (acc_var h1 h2) fun d hd => Acc.isF (.cons (sym_notEnd h2)) (Acc.eatSym h2 (nxt_append hr) ?_)
    obtain ⟨t, y, e, ht⟩ := vars_head h3
    exact Acc.isF (by rw [e]; exact .cons (ident_notEnd ht)) (Acc.bind ih fun ds hds => Acc.pure fun _ d' h' => by
      obtain ⟨_, hd⟩ := hd
      obtain ⟨_, hds⟩ := hds
      rcases List.mem_cons.1 h' with rfl | h'
      · exact hd.grows (OkVars.grows h3)
      · exact hds d' h')

theorem acc_threadVar {x y : List Token} {ns : List Str} {c s : Token} {b : Bool} (h1 : OkIdents x ns) (h2 : IsSym r!":" c)
    (h3 : OkType u Γ y b Γ1) (h4 : Γ1.New u ns) (hs : IsSym r!";" s) :
    Acc u tl (parseThreadVarDecl u (declEnv u)) Γ (x ++ c :: (y ++ s :: rest)) (fun d _ => Shows u (Γ1.declare u ns) .other (d.idents.map Ident.name))
      (Γ1.declare u ns) (s :: rest) := by
  unfold parseThreadVarDecl
  refine Acc.bind (acc_idents colon_term h1 (.cons (symbol_iff.2 h2))) fun is his => Acc.next nxt_snoc ?_
  obtain ⟨_, rfl⟩ := his
  refine Acc.bind (acc_type h3 (.cons (sym_stopsTy hs (by decide)))) fun _ _ => ?_
  exact Acc.setDecl trivial h4 (Acc.pure fun _ => .declare _ _)

theorem threadVars_head {x : List Token} (h : OkThreadVars u Γ x Γ') : ∃ t y, x = t :: y ∧ t.typ = .ident := by
  cases h with
  | one h => exact head_append (idents_head h)
  | cons h => exact head_append (idents_head h)

theorem acc_threadVars {x : List Token} (h : OkThreadVars u Γ x Γ') (hr : Nxt tl rest (BlockWord u)) :
    Acc u tl (parseThreadVarDecls u (declEnv u)) Γ (x ++ rest) (fun ds _ => ∀ d ∈ ds, Shows u Γ' .other (d.idents.map Ident.name)) Γ' rest := by
  induction h with
  | one h1 h2 h3 h4 h5 =>
    refine Acc.succ ?_
    simp only [parseThreadVarDecls, List.append_assoc, List.cons_append, List.nil_append]
    refine Acc.bind (acc_threadVar h1 h2 h3 h4 h5) fun d hd => Acc.eatSym h5 hr.live ?_
    exact Acc.isT (hr.mono fun _ h => h.ends) (Acc.pure fun _ d' h' => by
      obtain ⟨_, hd⟩ := hd
      rw [List.mem_singleton] at h'
      subst h'
      exact hd)
  | cons h1 h2 h3 h4 h5 h6 ih =>
    refine Acc.succ ?_
    simp only [parseThreadVarDecls, List.append_assoc, List.cons_append]
    refine Acc.bind (acc_threadVar h1 h2 h3 h4 h5) fun d hd => Acc.eatSym h5 (nxt_append hr) ?_
    obtain ⟨t, y, e, ht⟩ := threadVars_head h6
    exact Acc.isF (by rw [e]; exact .cons (ident_notEnd ht)) (Acc.bind ih fun ds hds => Acc.pure fun _ d' h' => by
      obtain ⟨_, hd⟩ := hd
      obtain ⟨_, hds⟩ := hds
      rcases List.mem_cons.1 h' with rfl | h'
      · exact hd.grows (OkThreadVars.grows h6)
      · exact hds d' h')

/-! ## Types -/

theorem Acc.declareType {p : Nat → P DS (PType (Decl Node))} {f : Nat → PType (Decl Node) → Unit → P DS β} {Q : β → DS → Prop}
    {ts ts1 ts' : List Token} {o : NameSort} {i : Ident} (h : Acc u tl p Γ ts (fun ty k => HasSort k.types o ty) Γ1 ts1)
    (hn : OkName u Γ1 i.name o Γ2) (hf : ∀ ty, Acc u tl (fun n => f n ty ()) Γ2 ts1 Q Γ' ts') :
    Acc u tl (fun n => p n >>= fun ty => TP.declareType (declEnv u) i ty >>= f n ty) Γ ts Q Γ' ts' := by
  refine AccH.acc (AccH.bind h.h fun ty _ => AccH.op (fun s A hty => ?_) fun _ => hf ty)
  cases hn with
  | new hn =>
    obtain ⟨k', h1, h2, h3⟩ := A.declareType hn hty
    refine ⟨(), k', ?_, h2, h3⟩
    unfold TP.declareType
    rw [bind_ok (show TP.getDecl (declEnv u).toEnv i.name s = .ok none s by
      unfold TP.getDecl
      rw [show (declEnv u).toEnv.get s.cx i.name = s.cx.get u i.name from rfl, A.unseen hn])]
    show TP.setDecl (declEnv u) [i] (.type ty) s = _
    unfold TP.setDecl
    rw [show (declEnv u).set s.cx [i] (.type ty) = s.cx.set u [i] (.type ty) from rfl, h1]
  | complete hn ho =>
    obtain ⟨h, ms, rfl⟩ : ∃ h ms, ty = .cls h ms := by
      rcases ho with rfl | rfl
      · exact hty
      · obtain ⟨h, ms, hty, -⟩ := hty
        exact ⟨h, ms, hty⟩
    obtain ⟨d, k', h0, ht, h1, h2, h3⟩ := A.completeType hn hty
    refine ⟨(), k', ?_, h2, h3⟩
    unfold TP.declareType
    rw [bind_ok (show TP.getDecl (declEnv u).toEnv i.name s = .ok (some d) s by
      unfold TP.getDecl
      rw [show (declEnv u).toEnv.get s.cx i.name = s.cx.get u i.name from rfl, h0])]
    simp only [ht, if_true]
    unfold TP.completeType
    rw [show (declEnv u).complete s.cx d i (.cls h ms) = s.cx.complete u d i (.cls h ms) from rfl, h1]

theorem packed_head {p : List Token} {w : Token} {c : Str} {ts : List Token} (hp : OkPacked u p) (hw : IsKw u c w) (hc : c ≠ r!"TYPE") :
    Nxt tl (p ++ w :: ts) fun t => ¬ IsKw u r!"TYPE" t := by
  rcases hp with rfl | ⟨t, rfl, ht⟩
  · exact .cons (kw_ne hw hc)
  · exact .cons (kw_ne ht (by decide))

theorem typeId_notType {t : Token} (h : OkTypeId u Γ t) : ¬ IsKw u r!"TYPE" t := by
  rcases h.1 with h | h
  · exact ident_not_kw h
  · exact kw_ne h (by decide)

theorem type_head {x : List Token} {o : Bool} (h : OkType u Γ x o Γ') : Nxt tl (x ++ rest) fun t => ¬ IsKw u r!"TYPE" t := by
  cases h with
  | simple h =>
    cases h with
    | name h => exact .cons (typeId_notType h)
    | ordName h => exact .cons (ident_not_kw h)
    | pointer h => exact .cons (sym_not_kw h)
    | fixed h => exact .cons (kw_ne h (by decide))
    | enum h => exact .cons (sym_not_kw h)
    | range h => exact .cons fun h' => by rcases h with h | h | h <;> (have := h'.1; rw [h] at this; cases this)
    | identRange h => exact .cons (ident_not_kw h)
  | set h1 h2 =>
    simp only [List.append_assoc, List.cons_append]
    exact packed_head h1 h2 (by decide)
  | file h1 h2 =>
    simp only [List.append_assoc, List.cons_append]
    exact packed_head h1 h2 (by decide)
  | array h1 h2 =>
    simp only [List.append_assoc, List.cons_append]
    exact packed_head h1 h2 (by decide)
  | @proc _ fn w x Γ1 r o h h2 h3 =>
    unfold IsRoutineWord at h
    refine .cons (kw_ne h ?_)
    cases fn <;> decide

theorem typeDef_head {x : List Token} {o : NameSort} (h : OkTypeDef u Γ x o Γ') : Nxt tl (x ++ rest) fun t => ¬ IsKw u r!"TYPE" t := by
  cases h with
  | type h => exact type_head h
  | record h1 h2 =>
    simp only [List.append_assoc, List.cons_append]
    exact packed_head h1 h2 (by decide)
  | variant h1 h2 =>
    simp only [List.append_assoc, List.cons_append]
    exact packed_head h1 h2 (by decide)
  | forward h => exact .cons (kw_ne h (by decide))
  | classOf h => exact .cons (kw_ne h (by decide))
  | cls h => exact .cons (kw_ne h (by decide))
  | rooted h => exact .cons (kw_ne h (by decide))

theorem acc_typeDecl {t e s : Token} {x : List Token} {o : NameSort} (h1 : t.typ = .ident) (h2 : IsSym r!"=" e) (h3 : OkTypeDef u Γ x o Γ1)
    (h4 : OkName u Γ1 t.raw o Γ') (h5 : IsSym r!";" s) :
    Acc u tl (parseTypeDecl u (declEnv u)) Γ (t :: e :: (x ++ s :: rest)) (fun d _ => Shows u Γ' .type [d.ident.name]) Γ' (s :: rest) := by
  unfold parseTypeDecl
  refine Acc.traced ?_ (.cons trivial) (.cons trivial)
  have hh := typeDef_head (tl := tl) (rest := s :: rest) h3
  refine Acc.current rfl (typT h1) (Acc.nextIs (symbol_iff.2 h2) (Acc.next hh.live ?_))
  refine Acc.isF (hh.mono fun _ h => kwF h) ?_
  simp only [Bool.false_eq_true, if_false]
  obtain ⟨ts', hts, ha⟩ := acc_typeDef (tl := tl) (rest := rest) h3 h5
  have hend : Acc u tl (fun _ => typeDeclEnd u) Γ' ts' Any Γ' (s :: rest) := by
    unfold typeDeclEnd
    rcases hts with rfl | ⟨l, rfl, hl⟩
    · exact Acc.isT (.cons (symbol_iff.2 h5)) (Acc.pure fun _ => trivial)
    · refine Acc.isF (.cons (symF hl)) (Acc.next (.cons trivial) (Acc.cur rfl ?_))
      have : Pred.directive u portabilityNames s = false := by
        unfold Pred.directive
        rw [h5.2, toUpper_asc (by decide)]
        decide
      simp only [this, Bool.false_eq_true, if_false]
      exact Acc.pure fun _ => trivial
  exact Acc.declareType (i := Ident.ofTok t) ha h4 fun ty => Acc.bind hend fun _ _ => Acc.pure fun _ => .declares h4

theorem types_head {x : List Token} (h : OkTypes u Γ x Γ') : ∃ t y, x = t :: y ∧ t.typ = .ident := by
  cases h with
  | one h => exact ⟨_, _, rfl, h⟩
  | cons h => exact ⟨_, _, rfl, h⟩

theorem acc_types {x : List Token} (h : OkTypes u Γ x Γ') (hr : Nxt tl rest (BlockWord u)) :
    Acc u tl (parseTypeDecls u (declEnv u)) Γ (x ++ rest) (fun ds _ => ∀ d ∈ ds, Shows u Γ' .type [d.ident.name]) Γ' rest := by
  induction h with
  | one h1 h2 h3 h4 h5 =>
    refine Acc.succ ?_
    simp only [parseTypeDecls, List.append_assoc, List.cons_append, List.nil_append]
    refine Acc.bind (acc_typeDecl h1 h2 h3 h4 h5) fun d hd => Acc.isF (.cons (sym_notEnd h5)) (Acc.eatSym h5 hr.live ?_)
    exact Acc.isT (hr.mono fun _ h => h.ends) (Acc.pure fun _ d' h' => by
      obtain ⟨_, hd⟩ := hd
      rw [List.mem_singleton] at h'
      subst h'
      exact hd)
  | cons h1 h2 h3 h4 h5 h6 ih =>
    refine Acc.succ ?_
    simp only [parseTypeDecls, List.append_assoc, List.cons_append]
    refine Acc.bind (acc_typeDecl h1 h2 h3 h4 h5) fun d hd => Acc.isF (.cons (sym_notEnd h5)) (Acc.eatSym h5 (nxt_append hr) ?_)
    obtain ⟨t, y, e, ht⟩ := types_head h6
    exact Acc.isF (by rw [e]; exact .cons (ident_notEnd ht)) (Acc.bind ih fun ds hds => Acc.pure fun _ d' h' => by
      obtain ⟨_, hd⟩ := hd
      obtain ⟨_, hds⟩ := hds
      rcases List.mem_cons.1 h' with rfl | h'
      · exact hd.grows (OkTypes.grows h6)
      · exact hds d' h')

/-! ## Routines and blocks -/

theorem acc_external {t : Token} {x : List Token} (h1 : IsWordOf u [r!"EXTERNAL"] t) (h2 : OkExternal u x) (hr : Nxt tl rest (IsSym r!";")) :
    Acc u tl (fun _ => parseExternal u) Γ (t :: (x ++ rest)) Any Γ rest := by
  unfold parseExternal
  obtain ⟨s, e, hs⟩ := id hr
  have hstr : ∀ {t : Token} {ts : List Token}, t.typ = .charString → (Nxt tl ts fun _ => True) →
      Acc u tl (fun _ => stringFactor (κ := DS) u) Γ (t :: ts) Any Γ ts := by
    intro t ts ht hl
    unfold stringFactor
    refine Acc.cur rfl ?_
    simp only [ht, if_true]
    exact Acc.next hl (Acc.pure fun _ => trivial)
  have hn : ∀ {t : Token}, t.typ = .charString → ¬ IsSym r!";" t := fun h h' => by have := h'.1; rw [h] at this; cases this
  refine Acc.current rfl (directive_iff.2 h1) (Acc.next (nxt_append hr) ?_)
  cases h2 with
  | none => exact Acc.isT (hr.mono fun _ h => symbol_iff.2 h) (Acc.pure fun _ => trivial)
  | lib h =>
    refine Acc.isF (.cons (symF (hn h))) (Acc.bind (p := fun _ => stringFactor u) (hstr h hr.live) fun _ _ => ?_)
    exact Acc.isT (hr.mono fun _ h => symbol_iff.2 h) (Acc.pure fun _ => trivial)
  | @name l w n g1 g2 g3 =>
    have hw : ¬ IsSym r!";" w := by
      intro h
      unfold IsWordOf at g2
      rw [h.2, toUpper_asc (by decide)] at g2
      revert g2; decide
    refine Acc.isF (.cons (symF (hn g1))) (Acc.bind (p := fun _ => stringFactor u) (hstr g1 (.cons trivial)) fun _ _ => ?_)
    refine Acc.isF (.cons (symF hw)) (Acc.isT (.cons (directive_iff.2 g2)) (Acc.next (.cons trivial) ?_))
    exact Acc.bind (p := fun _ => stringFactor u) (hstr g3 hr.live) fun _ _ => Acc.pure fun _ => trivial

theorem acc_directives {d : List Token} (h : OkDirectives u d) (hr : Nxt tl rest (BlockWord u)) (o : Option ExternalOptions) :
    Acc u tl (fun n => parseDirectives u n o) Γ (d ++ rest) Any Γ rest := by
  induction h generalizing o with
  | nil =>
    refine Acc.succ (p := fun n => parseDirectives u n o) ?_
    simp only [parseDirectives]
    obtain ⟨t, e, ht⟩ := hr
    refine Acc.cur e ?_
    simp only [ht.notDir, Bool.false_eq_true, if_false]
    exact Acc.pure fun _ => trivial
  | @cons t s ts h1 h2 h3 h4 h5 ih =>
    refine Acc.succ (p := fun n => parseDirectives u n o) ?_
    simp only [parseDirectives, List.cons_append]
    refine Acc.cur rfl ?_
    have hx : ¬ u.toUpper (t.value u) = r!"EXTERNAL" := h3
    simp only [directive_iff.2 h2, if_true, hx, if_false]
    refine Acc.bind (Q := Any) (Γ1 := Γ) (ts1 := s :: (ts ++ rest)) (Acc.next (.cons trivial) (Acc.pure fun _ => trivial)) fun a _ => ?_
    exact Acc.eatSym h4 (nxt_append hr) (Acc.bind (ih a) fun _ _ => Acc.pure fun _ => trivial)
  | @ext t x s ts h1 h2 h3 h4 h5 ih =>
    refine Acc.succ (p := fun n => parseDirectives u n o) ?_
    simp only [parseDirectives, List.cons_append, List.append_assoc]
    refine Acc.cur rfl ?_
    have hx : u.toUpper t.raw = r!"EXTERNAL" := List.mem_singleton.1 h2
    have hd : Pred.directive u directiveNames t = true := directive_iff.2 (by unfold IsWordOf; rw [hx]; decide)
    simp only [hd, if_true, ident_value h1, hx]
    refine Acc.bind (Q := Any) (Γ1 := Γ) (ts1 := s :: (ts ++ rest)) (acc_external h2 h3 (.cons h4)) fun a _ => ?_
    exact Acc.eatSym h4 (nxt_append hr) (Acc.bind (ih a) fun _ _ => Acc.pure fun _ => trivial)

theorem acc_routineOpts {d : List Token} (h : OkDirectives u d) (hr : Nxt tl rest (BlockWord u)) :
    Acc u tl (parseRoutineOpts u) Γ (d ++ rest) Any Γ rest := by
  unfold parseRoutineOpts
  have := acc_directives (Γ := Γ) h hr none
  cases h with
  | nil => exact Acc.isF (hr.mono fun _ h => by rw [h.notDir]; decide) (Acc.pure fun _ => trivial)
  | cons h1 h2 => exact Acc.isT (.cons (directive_iff.2 h2)) this
  | ext h1 h2 =>
    have hx := List.mem_singleton.1 h2
    exact Acc.isT (.cons (directive_iff.2 (by unfold IsWordOf; rw [hx]; decide))) this

theorem compound_head {x : List Token} (h : OkCompound u Γ x Γ') : ∃ t y, x = t :: y ∧ IsKw u r!"BEGIN" t := by
  obtain ⟨-, l, h⟩ := h
  rw [DBody] at h
  obtain ⟨t, x, c, rfl, h1, -⟩ := h
  exact ⟨_, _, rfl, h1⟩

theorem main_head {x : List Token} (h : OkMain u Γ x Γ') : ∃ t y, x = t :: y ∧ (IsKw u r!"BEGIN" t ∨ IsKw u r!"ASM" t) := by
  cases h with
  | compound h =>
    obtain ⟨t, y, rfl, ht⟩ := compound_head h
    exact ⟨_, _, rfl, .inl ht⟩
  | asm h => exact ⟨_, _, rfl, .inr h⟩

theorem exports_head {x : List Token} {p : Token → Prop} (h : OkExports u Γ x) (hp : ∀ t, IsKw u r!"EXPORTS" t → p t) (hr : Nxt tl rest p) :
    Nxt tl (x ++ rest) p := by
  cases h with
  | nil => exact hr
  | cons h => exact .cons (hp _ h)

theorem okBody_head {x : List Token} (h : OkBody u Γ x Γ') : Nxt tl (x ++ rest) (BodyWord u) := by
  cases h with
  | mk h1 h2 =>
    simp only [List.append_assoc]
    obtain ⟨t, y, rfl, h⟩ := main_head h2
    refine exports_head h1 (fun _ h => ⟨_, by decide, h⟩) (.cons ?_)
    rcases h with h | h
    · exact ⟨_, by decide, h⟩
    · exact ⟨_, by decide, h⟩

theorem BodyWord.block {t : Token} (h : BodyWord u t) : BlockWord u t := by
  obtain ⟨c, h1, h2⟩ := h
  refine ⟨c, ?_, h2⟩
  clear h2
  revert h1; revert c; decide

theorem sect_head {x : List Token} (h : OkSect u Γ x Γ') : ∃ t y, x = t :: y ∧ BlockWord u t := by
  cases h with
  | label h => exact ⟨_, _, rfl, _, by decide, h⟩
  | const h => exact ⟨_, _, rfl, _, by decide, h⟩
  | type h => exact ⟨_, _, rfl, _, by decide, h⟩
  | var h => exact ⟨_, _, rfl, _, by decide, h⟩
  | threadVar h => exact ⟨_, _, rfl, _, by decide, h⟩
  | func h =>
    obtain ⟨t, y, rfl, ht⟩ := heading_word h
    refine ⟨_, _, rfl, ?_⟩
    cases h with
    | @mk fn w _ _ _ _ h1 =>
      unfold IsRoutineWord at h1
      refine ⟨_, ?_, h1⟩
      cases fn <;> decide

theorem sects_head {x : List Token} (h : OkSects u Γ x Γ') (hr : Nxt tl rest (BlockWord u)) : Nxt tl (x ++ rest) (BlockWord u) := by
  cases h with
  | nil => exact hr
  | cons h =>
    obtain ⟨t, y, rfl, ht⟩ := sect_head h
    exact .cons ht

theorem block_head {x : List Token} (h : OkBlock u Γ x Γ') : Nxt tl (x ++ rest) (BlockWord u) := by
  cases h with
  | mk h1 h2 =>
    simp only [List.append_assoc]
    exact sects_head h1 ((okBody_head h2).mono fun _ h => h.block)

theorem acc_export {x : List Token} (h : OkExport u Γ x) (hr : Nxt tl rest fun t => IsSym r!";" t ∨ IsSym r!"," t) :
    Acc u tl (parseExportsItem u (declEnv u)) Γ (x ++ rest) Any Γ rest := by
  have hs : Nxt tl rest (StopsExpr u) := hr.mono fun _ h => by
    rcases h with h | h
    · exact stops_of_value (sym_value h) (by decide)
    · exact stops_of_value (sym_value h) (by decide)
  have hd : ∀ names : List Str, r!";" ∉ names → r!"," ∉ names → Nxt tl rest fun t => ¬ Pred.directive u names t = true := by
    intro names h1 h2
    refine hr.mono fun t h => ?_
    rw [directive_iff]
    unfold IsWordOf
    rcases h with h | h
    · rw [h.2, toUpper_asc (by decide)]; exact h1
    · rw [h.2, toUpper_asc (by decide)]; exact h2
  unfold parseExportsItem
  cases h with
  | plain h => exact Acc.eat (typT h) hr.live (Acc.isF (hd _ (by decide) (by decide)) (Acc.isF (hd _ (by decide) (by decide)) (Acc.pure fun _ => trivial)))
  | @named t w x h1 h2 h3 =>
    refine Acc.eat (typT h1) (.cons trivial) ?_
    by_cases g : IsWordOf u [r!"NAME"] w
    · exact Acc.isT (.cons (directive_iff.2 g)) (Acc.next (nxt_append hr) (Acc.bind (acc_expr h3 hs) fun _ _ => Acc.pure fun _ => trivial))
    · refine Acc.isF (.cons (fun h => g (directive_iff.1 h))) (Acc.isT (.cons (directive_iff.2 (h2.resolve_left g))) (Acc.next (nxt_append hr) ?_))
      exact Acc.bind (acc_expr h3 hs) fun _ _ => Acc.pure fun _ => trivial

theorem acc_exportItems {x : List Token} (h : OkExportItems u Γ x) (hr : Nxt tl rest (IsSym r!";")) :
    Acc u tl (parseExportsItems u (declEnv u)) Γ (x ++ rest) Any Γ rest := by
  induction h with
  | one h =>
    refine Acc.succ ?_
    simp only [parseExportsItems]
    obtain ⟨t, e, ht⟩ := id hr
    refine Acc.bind (acc_export h (hr.mono fun _ h => .inl h)) fun _ _ => Acc.cur? e ?_
    simp only [symbol_iff.2 ht, if_true]
    exact Acc.pure fun _ => trivial
  | cons h1 h2 h3 ih =>
    refine Acc.succ ?_
    simp only [parseExportsItems, List.append_assoc, List.cons_append]
    refine Acc.bind (acc_export h1 (.cons (.inr h2))) fun _ _ => Acc.cur? rfl ?_
    simp only [Bool.not_eq_true _ ▸ symF (not_sym h2 (by decide) : ¬ IsSym r!";" _), symbol_iff.2 h2, if_true, Bool.false_eq_true, if_false]
    exact Acc.next (nxt_append hr) (Acc.bind ih fun _ _ => Acc.pure fun _ => trivial)

theorem acc_exports {x : List Token} (h : OkExports u Γ x) (hr : Nxt tl rest fun t => ¬ IsKw u r!"EXPORTS" t) :
    Acc u tl (parseExports u (declEnv u)) Γ (x ++ rest) Any Γ rest := by
  induction h with
  | nil =>
    refine Acc.succ ?_
    simp only [parseExports]
    exact Acc.isF (hr.mono fun _ h => kwF h) (Acc.pure fun _ => trivial)
  | cons h1 h2 h3 h4 ih =>
    refine Acc.succ ?_
    simp only [parseExports, List.append_assoc, List.cons_append]
    refine Acc.isT (.cons (kw_iff.2 h1)) (Acc.next nxt_snoc (Acc.bind (acc_exportItems h2 (.cons h3)) fun _ _ => Acc.next (nxt_append hr) ?_))
    exact Acc.bind ih fun _ _ => Acc.pure fun _ => trivial

theorem acc_asm {a f e : Token} {x : List Token} (h1 : IsKw u r!"ASM" a) (h2 : ∀ t ∈ x, ¬ IsKw u r!"END" t) (h3 : IsKw u r!"END" e)
    (hr : Nxt tl rest fun _ => True) : Acc u tl (parseAsm u) Γ (a :: f :: (x ++ e :: rest)) (Any (α := Body (Decl Node) (PType (Decl Node)))) Γ rest :=
  Acc.go (lab := fun _ => false) (fun _ _ _ _ _ _ => rfl) fun k hk => ⟨.asm, k, hk, asm_go h1 h2 h3 hr⟩

theorem acc_main {x : List Token} (h : OkMain u Γ x Γ') (hr : Nxt tl rest fun _ => True) :
    Acc u tl (parseBlockBody u (declEnv u)) Γ (x ++ rest) Any Γ' rest := by
  unfold parseBlockBody
  cases h with
  | compound h =>
    obtain ⟨t, y, e, ht⟩ := compound_head h
    have hc := acc_begin h hr
    rw [e] at hc ⊢
    refine Acc.cur rfl ?_
    simp only [kw_value ht, if_true]
    exact Acc.bind hc fun _ _ => Acc.pure fun _ => trivial
  | asm h1 h2 h3 =>
    simp only [List.append_assoc, List.cons_append, List.nil_append]
    refine Acc.cur rfl ?_
    simp only [kw_value h1, show (r!"ASM" = r!"BEGIN") = False by decide, if_true, if_false]
    exact Acc.bind (acc_asm h1 h2 h3 hr) fun _ _ => Acc.pure fun _ => trivial

/-- `parseDeclSect` at a keyword -/
theorem acc_sectWord {c : Str} {w : Token} {ts ts' : List Token} {Q : Option (DeclSect (Decl Node)) → DS → Prop} (h : IsKw u c w)
    (hf : Acc u tl (fun n =>
      if r!"LABEL" = c then parseLabelDecl (declEnv u) >>= fun i => pure (some (.label i))
      else if r!"CONST" = c then P.next >>= fun _ => parseConstDecls u (declEnv u) n >>= fun ds => pure (some (.const ds))
      else if r!"TYPE" = c then parseTypeSection u (declEnv u) n >>= fun ds => pure (some (.type ds))
      else if r!"VAR" = c then P.next >>= fun _ => parseVarDecls u (declEnv u) n >>= fun ds => pure (some (.var ds))
      else if r!"THREADVAR" = c then P.next >>= fun _ => parseThreadVarDecls u (declEnv u) n >>= fun ds => pure (some (.threadVar ds))
      else if c = r!"PROCEDURE" ∨ c = r!"FUNCTION" then parseFunc u (declEnv u) n >>= fun f => pure (some f)
      else pure none) Γ (w :: ts) Q Γ' ts') :
    Acc u tl (parseDeclSect u (declEnv u)) Γ (w :: ts) Q Γ' ts' := by
  refine Acc.succ ?_
  simp only [parseDeclSect]
  refine Acc.cur rfl ?_
  have hk : ∀ d : Str, (kw u d w = true) = (d = c) := by
    intro d
    refine propext ⟨fun h' => ?_, fun e => ?_⟩
    · have := (kw_iff.1 h').2
      rw [h.2] at this
      exact this.symm
    · subst e; exact kw_iff.2 h
  simp only [hk, kw_value h]
  exact hf

mutual
theorem acc_block : ∀ {Γ : NameEnv} {x : List Token} {Γ' : NameEnv} {rest : List Token}, OkBlock u Γ x Γ' →
    (Nxt tl rest fun t => ¬ IsKw u r!"EXPORTS" t) → Acc u tl (parseBlock u (declEnv u)) Γ (x ++ rest) Any Γ' rest
  | _, _, _, rest, .mk h1 h2, hr => by
    refine Acc.succ ?_
    simp only [parseBlock, List.append_assoc]
    have hb := okBody_head (tl := tl) (rest := rest) h2
    refine Acc.bind (acc_sects h1 (hb.mono fun _ h => h.block) hb) fun _ _ => ?_
    cases h2 with
    | mk h2 h3 h4 =>
      simp only [List.append_assoc]
      obtain ⟨t, y, e, ht⟩ := main_head h3
      have hz := exports_head (tl := tl) h4 (p := fun _ => True) (fun _ _ => trivial) hr.live
      refine Acc.bind (acc_exports h2 ?_) fun _ _ => Acc.bind (acc_main h3 hz) fun _ _ => Acc.bind (acc_exports h4 hr) fun _ _ => Acc.pure fun _ => trivial
      rw [e]
      rcases ht with ht | ht
      · exact .cons (kw_ne ht (by decide))
      · exact .cons (kw_ne ht (by decide))
theorem acc_sects : ∀ {Γ : NameEnv} {x : List Token} {Γ' : NameEnv} {rest : List Token}, OkSects u Γ x Γ' →
    Nxt tl rest (BlockWord u) → Nxt tl rest (BodyWord u) → Acc u tl (parseDeclSects u (declEnv u)) Γ (x ++ rest) Any Γ' rest
  | Γ, _, _, rest, .nil, _, hr => by
    obtain ⟨t, e, c, hc, ht⟩ := hr
    refine Acc.succ ?_
    simp only [parseDeclSects]
    refine Acc.bind (Q := fun a _ => a = none) (Γ1 := Γ) (ts1 := rest) (Acc.succ ?_) fun a ha => ?_
    · simp only [parseDeclSect]
      refine Acc.cur e ?_
      have hk : ∀ d : Str, d ≠ c → kw u d t = false := fun d hd => Bool.not_eq_true _ ▸ kwF (kw_ne ht (Ne.symm hd))
      have hne : ∀ c ∈ [r!"EXPORTS", r!"BEGIN", r!"ASM", r!"INITIALIZATION", r!"END"], r!"LABEL" ≠ c ∧ r!"CONST" ≠ c ∧ r!"TYPE" ≠ c ∧ r!"VAR" ≠ c ∧
          r!"THREADVAR" ≠ c ∧ ¬ (c = r!"PROCEDURE" ∨ c = r!"FUNCTION") := by decide
      obtain ⟨e1, e2, e3, e4, e5, e6⟩ := hne c hc
      simp only [hk _ e1, hk _ e2, hk _ e3, hk _ e4, hk _ e5, kw_value ht, Bool.false_eq_true, if_false, e6]
      exact Acc.pure fun _ => rfl
    · obtain ⟨_, rfl⟩ := ha
      exact Acc.pure fun _ => trivial
  | _, _, _, rest, @OkSects.cons _ _ x Γ1 y _ h1 h2, hw, hr => by
    have hh := sects_head h2 hw
    obtain ⟨z, hz, ha⟩ := acc_sect (rest := y ++ rest) h1 hh
    have ih := acc_sects h2 hw hr
    refine Acc.succ ?_
    simp only [parseDeclSects, List.append_assoc]
    refine Acc.bind ha fun a ha => ?_
    obtain ⟨_, ha⟩ := ha
    cases a with
    | none => exact (ha rfl).elim
    | some a =>
      have ih' := Acc.bind (f := fun _ r => pure (DeclSects.cons a r)) ih fun _ _ => Acc.pure (Q := Any) fun _ => trivial
      rcases hz with rfl | ⟨e, rfl, he⟩
      · exact acc_noSemi (hh.mono fun _ h => h.notSym) ih'
      · show Acc u tl (fun n => optSemi >>= fun _ => parseDeclSects u (declEnv u) n >>= fun r => pure (DeclSects.cons a r)) Γ1
          (e :: (y ++ rest)) Any _ rest
        unfold optSemi
        simp only [P.bind_assoc]
        refine Acc.isT (.cons (symbol_iff.2 he)) ?_
        simp only [if_true]
        exact Acc.next hh.live ih'
theorem acc_sect : ∀ {Γ : NameEnv} {x : List Token} {Γ' : NameEnv} {rest : List Token}, OkSect u Γ x Γ' →
    Nxt tl rest (BlockWord u) → ∃ z, (z = [] ∨ ∃ e, z = [e] ∧ IsSym r!";" e) ∧
      Acc u tl (parseDeclSect u (declEnv u)) Γ (x ++ rest) (fun a _ => a ≠ none) Γ' (z ++ rest)
  | _, _, _, rest, .label h1 h2 h3 h4, hr => by
    refine ⟨[], .inl rfl, acc_sectWord h1 ?_⟩
    refine Acc.bind (Q := Any) (Γ1 := _) (ts1 := rest) ?_ fun _ _ => Acc.pure fun _ => by simp
    unfold parseLabelDecl
    exact Acc.nextIs (typT h2) (Acc.nextIs (symbol_iff.2 h4) (Acc.next hr.live (Acc.setLabel h3 (Acc.pure fun _ => trivial))))
  | _, _, _, rest, .const h1 h2, hr => by
    refine ⟨[], .inl rfl, acc_sectWord h1 ?_⟩
    exact Acc.next (nxt_append hr) (Acc.bind (acc_consts h2 hr) fun _ _ => Acc.pure fun _ => by simp)
  | _, _, _, rest, .type h1 h2, hr => by
    refine ⟨[], .inl rfl, acc_sectWord h1 ?_⟩
    refine Acc.bind (Q := Any) (Acc.withSection (Q := Any) (Acc.next (nxt_append hr) (acc_types h2 hr).any)) fun _ _ => Acc.pure fun _ => by simp
  | _, _, _, rest, .var h1 h2, hr => by
    refine ⟨[], .inl rfl, acc_sectWord h1 ?_⟩
    exact Acc.next (nxt_append hr) (Acc.bind (acc_vars h2 hr) fun _ _ => Acc.pure fun _ => by simp)
  | _, _, _, rest, .threadVar h1 h2, hr => by
    refine ⟨[], .inl rfl, acc_sectWord h1 ?_⟩
    exact Acc.next (nxt_append hr) (Acc.bind (acc_threadVars h2 hr) fun _ _ => Acc.pure fun _ => by simp)
  | Γ, _, _, rest, @OkSect.func _ _ x name Γ1 s d b Γ2 e h1 h2 h3 h4 h5 h6, hr => by
    refine ⟨[e], .inr ⟨_, rfl, h6⟩, ?_⟩
    have hx : ∃ c w y, x = w :: y ∧ IsKw u c w ∧ (c = r!"PROCEDURE" ∨ c = r!"FUNCTION") := by
      cases h1 with
      | @mk fn w _ _ _ _ g =>
        unfold IsRoutineWord at g
        refine ⟨_, _, _, rfl, g, ?_⟩
        cases fn <;> decide
    obtain ⟨c, w, y, ex, hw, hc⟩ := hx
    have hb := acc_block (rest := e :: rest) h5 (.cons (sym_not_kw h6))
    have hbh := block_head (tl := tl) (rest := e :: rest) h5
    have hh := acc_funcHeading (tl := tl) (rest := s :: (d ++ (b ++ e :: rest))) h1 (.cons h2)
    simp only [List.append_assoc, List.cons_append, List.nil_append]
    rw [ex] at hh ⊢
    refine acc_sectWord hw ?_
    have hcs : ∀ c : Str, (c = r!"PROCEDURE" ∨ c = r!"FUNCTION") → (r!"LABEL" = c) = False ∧ (r!"CONST" = c) = False ∧
        (r!"TYPE" = c) = False ∧ (r!"VAR" = c) = False ∧ (r!"THREADVAR" = c) = False := by
      rintro c (rfl | rfl) <;> decide
    obtain ⟨e1, e2, e3, e4, e5⟩ := hcs c hc
    simp only [e1, e2, e3, e4, e5, hc, if_true, if_false]
    refine Acc.bind (Q := Any) (Γ1 := Γ.closed Γ2) (ts1 := e :: rest) (Acc.succ ?_) fun _ _ => Acc.pure fun _ => by simp
    simp only [parseFunc]
    refine Acc.stacked (Q := Any) (Acc.bind hh fun a ha => ?_)
    obtain ⟨_, fn, t, ps, r, rfl, rfl⟩ := ha
    refine Acc.current rfl (symbol_iff.2 h2) (Acc.setDecl (is := [Ident.ofTok t]) trivial h3 (Acc.next (nxt_append hbh) ?_))
    exact Acc.bind (acc_routineOpts h4 hbh) fun _ _ => Acc.bind hb fun _ _ => Acc.pure fun _ => trivial
end

/-! ## Programs without uses clause -/

theorem agrees_init (path : Str) : Agrees u NameEnv.empty (DS.init path) where
  rooted := ⟨.program path [] 1, 1, rfl, (fun _ _ _ => by simp), rfl⟩
  shown name := by
    left
    show World.get u (DS.init path).w 0 name = _
    rfl
  inner := by
    rintro t ⟨o, h1, h2⟩ key d hf
    cases h1
    cases h2
    cases hf
  sure _ _ h := by cases h

theorem acc_program {p t s d : Token} {x : List Token} {sep : Char} {files : Str → FileR} {lib : TopoLib} {it : List UParser → List Str}
    {cp : Nat} (h1 : IsKw u r!"PROGRAM" p) (h2 : t.typ = .ident) (h3 : IsSym r!";" s) (h4 : OkBlock u Γ x Γ') (h5 : IsSym r!"." d) :
    Acc u tl (parseProgram u sep files lib it cp) Γ (p :: t :: s :: (x ++ d :: rest)) (fun a _ => a.uses = [] ∧ a.units = [] ∧
      a.ident = Ident.ofTok t) Γ' (d :: rest) := by
  unfold parseProgram
  have hh := block_head (tl := tl) (rest := d :: rest) h4
  refine Acc.current rfl (kw_iff.2 h1) (Acc.nextIs (typT h2) (Acc.nextIs (symbol_iff.2 h3) (Acc.next hh.live ?_)))
  refine Acc.bind (Q := fun a _ => a = ([], [])) (Γ1 := Γ) (ts1 := x ++ d :: rest) ?_ fun a ha => ?_
  · unfold parseProgramUses
    refine Acc.isF (hh.mono fun _ h => ?_) (Acc.pure fun _ => rfl)
    obtain ⟨c, hc, h⟩ := h
    exact kwF (kw_ne h (by clear h; revert hc; revert c; decide))
  · obtain ⟨_, rfl⟩ := ha
    refine Acc.bind (acc_block h4 (.cons (sym_not_kw h5))) fun _ _ => ?_
    exact Acc.current rfl (symbol_iff.2 h5) (Acc.pure fun _ => ⟨rfl, rfl, rfl⟩)

end TP
