import Verif.Lemmas.TypeAll
import Verif.Lemmas.Trace
import Verif.Spec.Decl

/-!
# Soundness of the parser of declarations and blocks
-/

namespace TP
open Spec

variable {κ δ : Type} {u : Uni} {D : DEnv κ δ} {I : κ → Prop} {Good : List Token → Prop} {tl : Tail} {Pp Pw : Prop}

theorem directive_iff {names : List Str} {t : Token} : Pred.directive u names t = true ↔ IsWordOf u names t := by
  simp [Pred.directive, IsWordOf]

theorem wordOf_raw {names : List Str} (hn : [] ∉ names) {t : Token} (h : IsWordOf u names t) : t.raw ≠ [] := by
  intro e
  unfold IsWordOf at h
  rw [e] at h
  exact hn h

theorem notEof_dir {names : List Str} (hn : [] ∉ names) : NotEof (Pred.directive u names) :=
  fun _ h => .inr (wordOf_raw hn (directive_iff.1 h))

theorem sectionEnd_iff {t : Token} : sectionEnd t = true ↔ t.typ = .reserved ∨ t.typ = .eof := by
  unfold sectionEnd
  rw [some_iff]
  simp [typ_iff]

theorem ends_tok {s : PS κ} {t : Token} (ht : s.tok? = some t) (h : sectionEnd t = true) : endsSection s.ts s.ts := by
  refine ⟨rfl, fun t' e => ?_⟩
  cases hs : s.ts with
  | nil => rw [hs] at e; cases e
  | cons a l =>
    rw [hs] at e; cases e
    have := tok_of_cons hs
    rw [ht] at this; cases this
    exact sectionEnd_iff.1 h

section
variable (B : DBase u D I Good tl Pp Pw)
include B

/-- remembers where the parse started -/
theorem DBase.from (ts0 : List Token) : DBase u D I (fun ts => Good ts ∧ ts <:+ ts0) tl Pp Pw := by
  obtain ⟨F, h1, h2⟩ := B.fam
  refine .of (F := F) (fun J hJ => ⟨?_, (h2 J hJ).2.1, fun t ts hg ht c hc => ?_⟩) h1
  rotate_left
  · obtain ⟨J', K, h3, h4, h5⟩ := (h2 J hJ).2.2 t ts hg.1 ht c hc
    exact ⟨J', K, h3, h4, h5.weaken fun _ h => h.1⟩
  have B := (h2 J hJ).1
  exact {
    roll := B.roll
    nil := B.nil
    hang := B.hang
    ns c h t1 t2 t3 ts d g := B.ns c h t1 t2 t3 ts d g.1
    set := B.set
    newRef := B.newRef
    ordinal := B.ordinal
    findMember := B.findMember
    findProp := B.findProp
    good t ts h := ⟨B.good _ _ h.1, (List.suffix_cons t ts).trans h.2⟩
    asm t ts h := B.asm t ts h.1 }

/-- for the statement parser -/
theorem DBase.s : SBase u (D.senv u) (fun _ ty used _ => typeTokens u ty used) (fun _ c => I c) Good tl Pp Pw False where
  roll _ c h := B.roll c h
  get l := l.elim
  member l := l.elim
  nil := B.nil
  hang := B.hang
  ns _ c h := B.ns c h
  set k c h i _ := B.x.set k c h i ()
  good := B.good
  asm := B.asm
  type n s k h1 h2 h3 hf := by
    have := (allTypes (B.from s.ts) (2 * n)).type s ⟨h1, h2, h3, List.suffix_rfl⟩ (fun h => hf (by omega))
    refine wp_mono (p := (D.senv u).parseType n) this ?_ id id
    rintro ty s' ⟨h4, h5, h6⟩
    obtain ⟨used, hu⟩ := h4.good.2
    exact ⟨used, k, ⟨hu.symm, h4.tail.trans h1.symm⟩, h4.cx, s'.ts, by rw [hu]; exact h6⟩

omit B in
theorem body_sound {p : P κ (Body δ (PType δ))} {F : Body δ (PType δ) → PS κ → Prop} {n r : Nat}
    (hp : SSound (fun _ c => I c) Good tl Pp Pw p (DBody u (D.senv u) False fun _ ty used _ => typeTokens u ty used) F n r)
    (hr : r ≤ 10) : TSound I Good tl Pp Pw p (gBody u (D.senv u)) n 10 := by
  intro s hs hf
  refine wp_mono (hp s s.cx hs.at (fun h => hf (by omega))) ?_ id id
  rintro b s' ⟨used, k', h1, h2, h3, -⟩
  exact ⟨⟨h2.tail, h2.cx, h2.good⟩, by have := h1.len; omega, used, s.cx, k', h1.ts, h3⟩

theorem blockBody_sound (n : Nat) : TSound I Good tl Pp Pw (parseBlockBody u D n) (gOptBody u (D.senv u)) n 10 := by
  intro s hs hf
  unfold parseBlockBody
  refine B.cur hs fun t ht => ?_
  refine wp_ite (fun _ => ?_) (fun _ => wp_ite (fun _ => ?_) (fun _ => ⟨hs, Nat.le_refl _, rfl⟩))
  · exact (body_sound (stmt_sound B.s n).compound (by omega)).bind hs hf fun b s1 h1 l1 g1 => ⟨h1, l1, g1⟩
  · exact (body_sound (asm_sound B.s n) (by omega)).bind hs hf fun b s1 h1 l1 g1 => ⟨h1, l1, g1⟩

theorem constDecl_sound (n : Nat) : TSound I Good tl Pp Pw (parseConstDecl u D n)
    (fun d x y => gConstDecl u d x y ∧ y.length < x.length) n 10 := by
  intro s hs hf
  unfold parseConstDecl
  refine B.current hs fun t ht c => ?_
  have c' : t.typ = .ident ∨ IsWordOf u directiveNames t := by
    obtain ⟨p, hp, hpt⟩ := some_iff.1 c
    simp only [List.mem_cons, List.not_mem_nil, or_false] at hp
    rcases hp with rfl | rfl
    · exact .inl (typ_iff.1 hpt)
    · exact .inr (directive_iff.1 hpt)
  obtain ⟨ts, hts⟩ : ∃ ts, s.ts = t :: ts := by
    rcases c' with c' | c'
    · exact tok_cons ht (by rw [c']; decide)
    · exact tok_cons_raw ht (wordOf_raw (by decide) c')
  refine B.setDecl hs fun s0 h0 e0 => ?_
  refine B.next h0 (e0.trans hts) fun s1 h1 e1 => ?_
  have l1 : s.ts.length = s1.ts.length + 1 := by rw [hts, e1]; rfl
  refine wp_then (Q1 := fun ty s' => In' I Good tl s' ∧ s'.ts.length ≤ s1.ts.length ∧ gOptType u ty s1.ts s'.ts) ?_ ?_
  · refine B.opt h1 notEof_sym (fun t2 s2 c2 h2 e2 => ?_) (fun _ _ _ => ⟨h1, Nat.le_refl _, rfl⟩)
    have l2 : s1.ts.length = s2.ts.length + 1 := by rw [e2]; rfl
    refine (allTypes B n).type.bind h2 (fun h => hf (by omega)) fun ty s3 h3 l3 g3 => ?_
    exact ⟨h3, by omega, s2.ts, ⟨t2, e2, symbol_iff.1 c2⟩, g3⟩
  rintro ty s2 ⟨h2, l2, g2⟩
  refine B.eatSym h2 fun t3 s3 c3 h3 e3 => ?_
  have l3 : s2.ts.length = s3.ts.length + 1 := by rw [e3]; rfl
  refine B.expr h3 (fun h => hf (by omega)) fun e s4 h4 l4 g4 => ?_
  exact ⟨h4, by omega, ⟨s1.ts, ⟨t, by rw [hts, e1], rfl, c'⟩, s2.ts, g2, s3.ts, ⟨t3, e3, c3⟩, g4⟩, by omega⟩

theorem constDecls_sound : ∀ n, TSound I Good tl Pp Pw (parseConstDecls u D n) (gConstDecls u) n 11 := by
  intro n
  induction n with
  | zero => intro s hs hf; exact hf (by omega)
  | succ n ih =>
    intro s hs hf
    rw [parseConstDecls]
    refine (constDecl_sound B n).bind hs (fun h => hf (by omega)) fun d s1 h1 l1 ⟨g1, l1'⟩ => ?_
    refine B.eatSym h1 fun t2 s2 c2 h2 e2 => ?_
    have l2 : s1.ts.length = s2.ts.length + 1 := by rw [e2]; rfl
    refine B.is h2 (fun t ht c => ?_) (fun t ht c => ?_)
    · exact ⟨h2, by omega, s1.ts, g1, s2.ts, ⟨t2, e2, c2⟩, .inl ⟨rfl, ends_tok ht c⟩⟩
    · refine ih.bind h2 (fun h => hf (by omega)) fun rest s3 h3 l3 g3 => ?_
      exact ⟨h3, by omega, s1.ts, g1, s2.ts, ⟨t2, e2, c2⟩, .inr g3⟩

theorem varDecl_sound (n : Nat) : TSound I Good tl Pp Pw (parseVarDecl u D n)
    (fun d x y => gVarDecl u d x y ∧ y.length < x.length) n 10 := by
  intro s hs hf
  unfold parseVarDecl
  refine (idents_sound B notEof_sym n).bind hs (fun h => hf (by omega)) fun is s1 h1 l1 ⟨y, g1, ey, t2, ts2, e2, c2⟩ => ?_
  subst ey
  refine B.next h1 e2 fun s2 h2 e3 => ?_
  have l2 : s1.ts.length = s2.ts.length + 1 := by rw [e2, e3]; rfl
  refine (allTypes B n).type.bind h2 (fun h => hf (by omega)) fun ty s3 h3 l3 g3 => ?_
  refine wp_then (Q1 := fun a s' => In' I Good tl s' ∧ s'.ts.length ≤ s3.ts.length ∧ gAbsolute u a s3.ts s'.ts) ?_ ?_
  · refine B.isL h3 (notEof_up (by decide)) (fun t4 ts4 c4 e4 => ?_) (fun _ _ _ => ⟨h3, Nat.le_refl _, rfl⟩)
    refine B.nextIs h3 (fun t h => by rw [typ_iff.1 h]; decide) fun t0 t5 s5 ts5 c5 h5 e5 e5' => ?_
    have : t0 = t4 := by rw [e4] at e5; cases e5; rfl
    subst this
    have l5 : s3.ts.length = s5.ts.length + 1 := by rw [e5]; rfl
    refine B.next h5 e5' fun s6 h6 e6 => ?_
    have l6 : s5.ts.length = s6.ts.length + 1 := by rw [e5', e6]; rfl
    exact ⟨h6, by omega, s5.ts, ⟨t0, e5, upper_iff.1 c4⟩, t5, by rw [e5', e6], typ_iff.1 c5, rfl⟩
  rintro ab s4 ⟨h4, l4, g4⟩
  refine wp_then (Q1 := fun a s' => In' I Good tl s' ∧ s'.ts.length ≤ s4.ts.length ∧ gInit u a s4.ts s'.ts) ?_ ?_
  · refine B.opt h4 notEof_sym (fun t5 s5 c5 h5 e5 => ?_) (fun _ _ _ => ⟨h4, Nat.le_refl _, rfl⟩)
    have l5 : s4.ts.length = s5.ts.length + 1 := by rw [e5]; rfl
    refine B.expr h5 (fun h => hf (by omega)) fun e s6 h6 l6 g6 => ?_
    exact ⟨h6, by omega, s5.ts, ⟨t5, e5, symbol_iff.1 c5⟩, g6⟩
  rintro e s5 ⟨h5, l5, g5⟩
  refine B.setDecl h5 fun s6 h6 e6 => ?_
  refine ⟨h6, by rw [e6]; omega, ?_, by rw [e6]; omega⟩
  rw [e6]
  exact ⟨s1.ts, g1, s2.ts, ⟨t2, by rw [e2, e3], symbol_iff.1 c2⟩, s3.ts, g3, s4.ts, g4, g5⟩

theorem varDecls_sound : ∀ n, TSound I Good tl Pp Pw (parseVarDecls u D n) (gVarDecls u) n 11 := by
  intro n
  induction n with
  | zero => intro s hs hf; exact hf (by omega)
  | succ n ih =>
    intro s hs hf
    rw [parseVarDecls]
    refine (varDecl_sound B n).bind hs (fun h => hf (by omega)) fun d s1 h1 l1 ⟨g1, l1'⟩ => ?_
    refine B.is h1 (fun t ht c => ?_) (fun t ht c => ?_)
    · exact ⟨h1, by omega, s1.ts, g1, .inl ⟨rfl, ends_tok ht c⟩⟩
    refine B.eatSym h1 fun t2 s2 c2 h2 e2 => ?_
    have l2 : s1.ts.length = s2.ts.length + 1 := by rw [e2]; rfl
    refine B.is h2 (fun t ht c => ?_) (fun t ht c => ?_)
    · exact ⟨h2, by omega, s1.ts, g1, .inr ⟨s2.ts, ⟨t2, e2, c2⟩, .inl ⟨rfl, ends_tok ht c⟩⟩⟩
    · refine ih.bind h2 (fun h => hf (by omega)) fun rest s3 h3 l3 g3 => ?_
      exact ⟨h3, by omega, s1.ts, g1, .inr ⟨s2.ts, ⟨t2, e2, c2⟩, .inr g3⟩⟩

theorem threadVarDecl_sound (n : Nat) : TSound I Good tl Pp Pw (parseThreadVarDecl u D n)
    (fun d x y => gThreadVarDecl u d x y ∧ y.length < x.length) n 10 := by
  intro s hs hf
  unfold parseThreadVarDecl
  refine (idents_sound B notEof_sym n).bind hs (fun h => hf (by omega)) fun is s1 h1 l1 ⟨y, g1, ey, t2, ts2, e2, c2⟩ => ?_
  subst ey
  refine B.next h1 e2 fun s2 h2 e3 => ?_
  have l2 : s1.ts.length = s2.ts.length + 1 := by rw [e2, e3]; rfl
  refine (allTypes B n).type.bind h2 (fun h => hf (by omega)) fun ty s3 h3 l3 g3 => ?_
  refine B.setDecl h3 fun s6 h6 e6 => ?_
  refine ⟨h6, by rw [e6]; omega, ?_, by rw [e6]; omega⟩
  rw [e6]
  exact ⟨s1.ts, g1, s2.ts, ⟨t2, by rw [e2, e3], symbol_iff.1 c2⟩, g3⟩

theorem threadVarDecls_sound : ∀ n, TSound I Good tl Pp Pw (parseThreadVarDecls u D n) (gThreadVarDecls u) n 11 := by
  intro n
  induction n with
  | zero => intro s hs hf; exact hf (by omega)
  | succ n ih =>
    intro s hs hf
    rw [parseThreadVarDecls]
    refine (threadVarDecl_sound B n).bind hs (fun h => hf (by omega)) fun d s1 h1 l1 ⟨g1, l1'⟩ => ?_
    refine B.eatSym h1 fun t2 s2 c2 h2 e2 => ?_
    have l2 : s1.ts.length = s2.ts.length + 1 := by rw [e2]; rfl
    refine B.is h2 (fun t ht c => ?_) (fun t ht c => ?_)
    · exact ⟨h2, by omega, s1.ts, g1, s2.ts, ⟨t2, e2, c2⟩, .inl ⟨rfl, ends_tok ht c⟩⟩
    · refine ih.bind h2 (fun h => hf (by omega)) fun rest s3 h3 l3 g3 => ?_
      exact ⟨h3, by omega, s1.ts, g1, s2.ts, ⟨t2, e2, c2⟩, .inr g3⟩

variable {K : List Ident → κ → Prop}

omit B in
theorem declareType_wp (T : DTypes u D I K Good Pp) {α : Type} {Q : α → PS κ → Prop} {s : PS κ} (hs : In' I Good tl s) {i : Ident}
    {ty : PType δ} {l : List Ident} (hc : Came u D (K l) Good s.cx i ty)
    {f : Unit → P κ α} (h : ∀ s', In' I Good tl s' → s'.ts = s.ts → K (l ++ [i]) s'.cx → wp (f ()) s' Q Pp Pw) :
    wp (declareType D i ty >>= f) s Q Pp Pw := by
  refine wp_then (Q1 := fun _ s' => In' I Good tl s' ∧ s'.ts = s.ts ∧ K (l ++ [i]) s'.cx) ?_ (fun _ s' ⟨h1, h2, h3⟩ => h s' h1 h2 h3)
  unfold declareType
  refine wp_declOf ?_
  cases D.get s.cx i.name with
  | none =>
    show wp (setDecl D [i] (.type ty)) s _ _ _
    have := T.set l s.cx hs.cx i ty hc
    unfold wp TP.setDecl
    cases e : D.set s.cx [i] (.type ty) with
    | ok c => rw [e] at this; exact ⟨⟨hs.tail, this.1, hs.good⟩, rfl, this.2⟩
    | err => trivial
    | panic => rw [e] at this; exact this
  | some old =>
    refine wp_ite (fun _ => ?_) (fun _ => trivial)
    have := T.complete l s.cx hs.cx old i ty hc
    unfold wp completeType
    cases e : D.complete s.cx old i ty with
    | ok c => rw [e] at this; exact ⟨⟨hs.tail, this.1, hs.good⟩, rfl, this.2⟩
    | err => trivial
    | panic => rw [e] at this; exact this

omit B in
theorem wp_quiet {α : Type} {p : P κ α} {Q : α → PS κ → Prop} {s : PS κ} (hq : Quiet p) (h : wp p s Q Pp Pw) :
    wp p s (fun a s' => Q a s' ∧ s'.cx = s.cx) Pp Pw := by
  unfold wp at h ⊢
  cases e : p s with
  | ok a s' => rw [e] at h; exact ⟨h, hq _ _ _ e⟩
  | _ => rw [e] at h; exact h

omit B in
theorem wp_runs {α : Type} {p : P κ α} {Q : α → PS κ → Prop} {s : PS κ} (h : wp p s Q Pp Pw) :
    wp p s (fun a s' => Q a s' ∧ p s = .ok a s') Pp Pw := by
  unfold wp at h ⊢
  cases e : p s with
  | ok a s' => rw [e] at h; exact ⟨h, rfl⟩
  | _ => rw [e] at h; exact h

theorem typeDeclEnd_sound (n : Nat) : TSound I Good tl Pp Pw (typeDeclEnd u : P κ _) (gTypeEnd u) n 0 := by
  intro s hs hf
  unfold typeDeclEnd
  refine B.isL hs notEof_sym (fun t ts c e => ⟨hs, Nat.le_refl _, .inl ⟨rfl, t, ts, e, symbol_iff.1 c⟩⟩) (fun t ht c => ?_)
  refine B.skip hs fun s1 h1 e1 => ?_
  have l1 := tail_le s.ts
  rw [← e1] at l1
  have g1 : lost s.ts s1.ts := by
    refine ⟨e1, fun t' h => ?_⟩
    cases hs' : s.ts with
    | nil => rw [hs'] at h; cases h
    | cons a l =>
      rw [hs'] at h; cases h
      have := tok_of_cons hs'
      rw [ht] at this; cases this
      exact fun h => c (symbol_iff.2 h)
  refine B.cur h1 fun t2 ht2 => ?_
  refine wp_ite (fun c2 => ?_) (fun _ => ⟨h1, l1, .inr g1⟩)
  have c2 := directive_iff.1 c2
  obtain ⟨ts, hts⟩ := tok_cons_raw ht2 (wordOf_raw (by decide) c2)
  refine B.next h1 hts fun s2 h2 e2 => ?_
  have l2 : s1.ts.length = s2.ts.length + 1 := by rw [hts, e2]; rfl
  exact ⟨h2, by omega, s1.ts, g1, t2, by rw [hts, e2], c2, rfl⟩

theorem typeDecl_sound (T : DTypes u D I K Good Pp) (n : Nat) (l : List Ident) {s : PS κ} (hs : In' I Good tl s) (hk : K l s.cx)
    (hb : Begins u Good s.ts) (hf : n < 20 * s.ts.length + 10 → Pw) :
    wp (parseTypeDecl u D n) s (fun d s' => In' I Good tl s' ∧ s'.ts.length < s.ts.length ∧ gTypeDecl u d s.ts s'.ts ∧
      K (l ++ [d.ident]) s'.cx) Pp Pw := by
  unfold parseTypeDecl traced
  refine B.cur hs fun _ _ => ?_
  refine wp_then ?_ fun a s' h1 => B.cur h1.1 fun _ _ => h1
  refine B.current hs fun t ht c => ?_
  obtain ⟨ts, hts⟩ := tok_cons' notEof_ident ht c
  unfold P.nextIs
  rw [P.bind_assoc]
  refine B.skipK hs fun s1 h1 e1 k1 => ?_
  rw [hts] at e1
  refine B.current h1 fun t1 ht1 c1 => ?_
  obtain ⟨ts1, e1'⟩ := tok_cons ht1 (sym_ne_eof (symbol_iff.1 c1))
  rw [hts] at hb
  have e1 : s1.ts = ts := e1
  have l1 : s.ts.length = s1.ts.length + 1 := by rw [hts, e1]; rfl
  refine B.skipK h1 fun s2 h2 e2 k2 => ?_
  rw [e1'] at e2
  have e2 : s2.ts = ts1 := e2
  have l2 : s1.ts.length = s2.ts.length + 1 := by rw [e1', e2]; rfl
  have key : ∀ s3, In' I Good tl s3 → s3.cx = s2.cx → s3.ts.length ≤ s2.ts.length → (kwR u r!"TYPE" ∣∣ eps) s2.ts s3.ts →
      wp (parseType u D n >>= fun ty => declareType D (Ident.ofTok t) ty >>= fun _ => typeDeclEnd u >>= fun pd =>
        pure (TypeDecl.mk (Ident.ofTok t) ty pd)) s3 (fun d s' => In' I Good tl s' ∧ s'.ts.length < s.ts.length ∧
        gTypeDecl u d s.ts s'.ts ∧ K (l ++ [d.ident]) s'.cx) Pp Pw := by
    intro s3 h3 k3 l3 g3
    refine wp_then (wp_runs ((allTypes B n).type s3 h3 (fun h => hf (by omega)))) ?_
    rintro ty s4 ⟨⟨h4, l4, g4⟩, r4⟩
    have hc : Came u D (K l) Good s4.cx (Ident.ofTok t) ty := by
      refine ⟨t, t1, s2.ts, n, s3, s4, ?_, typ_iff.1 c, rfl, symbol_iff.1 c1, ?_, by rw [k3, k2, k1]; exact hk, r4, rfl, g4⟩
      · rw [e2, ← e1', e1]; exact hb
      · rcases g3 with ⟨w, h, hw⟩ | h
        · exact .inr ⟨w, h, hw⟩
        · exact .inl h
    refine declareType_wp T h4 hc fun s5 h5 e5 k5 => ?_
    refine wp_then (wp_quiet (by unfold typeDeclEnd; quiets) (typeDeclEnd_sound B n s5 h5 (fun h => hf (by rw [e5] at h; omega)))) ?_
    rintro pd s6 ⟨⟨h6, l6, g6⟩, k6⟩
    rw [e5] at l6 g6
    exact ⟨h6, by omega, ⟨s1.ts, ⟨t, by rw [hts, e1], typ_iff.1 c, rfl⟩, s2.ts, ⟨t1, by rw [e1', e2], symbol_iff.1 c1⟩, s3.ts, g3, s4.ts, g4, g6⟩,
      by rw [k6]; exact k5⟩
  refine B.is h2 (fun t3 ht3 c3 => ?_) (fun _ _ _ => ?_)
  · simp only [if_true]
    obtain ⟨ts3, hts3⟩ := tok_cons ht3 (kw_ne_eof (kw_iff.1 c3))
    refine B.skipK h2 fun s3 h3 e3 k3 => ?_
    rw [hts3] at e3
    have e3 : s3.ts = ts3 := e3
    exact key s3 h3 k3 (by rw [hts3, e3]; simp) (.inl ⟨t3, by rw [hts3, e3], kw_iff.1 c3⟩)
  · simp only [Bool.false_eq_true, if_false]
    exact key s2 h2 rfl (Nat.le_refl _) (.inr rfl)

theorem typeDecls_sound (T : DTypes u D I K Good Pp) : ∀ n l (s : PS κ), In' I Good tl s → K l s.cx → Begins u Good s.ts →
    (n < 20 * s.ts.length + 11 → Pw) → wp (parseTypeDecls u D n) s (fun ds s' => In' I Good tl s' ∧ s'.ts.length ≤ s.ts.length ∧
      gTypeDecls u ds s.ts s'.ts ∧ K (l ++ ds.map TypeDecl.ident) s'.cx) Pp Pw := by
  intro n
  induction n with
  | zero => intro l s hs hk hb hf; exact hf (by omega)
  | succ n ih =>
    intro l s hs hk hb hf
    rw [parseTypeDecls]
    refine wp_then (typeDecl_sound B T n l hs hk hb (fun h => hf (by omega))) fun d s1 ⟨h1, l1, g1, k1⟩ => ?_
    refine B.is h1 (fun t ht c => ?_) (fun t ht c => ?_)
    · exact ⟨h1, by omega, ⟨s1.ts, g1, .inl ⟨rfl, ends_tok ht c⟩⟩, k1⟩
    refine B.current h1 fun t2 ht2 c2 => ?_
    obtain ⟨ts2, hts2⟩ := tok_cons ht2 (sym_ne_eof (symbol_iff.1 c2))
    refine B.skipK h1 fun s2 h2 e2 k2 => ?_
    rw [hts2] at e2
    have e2 : s2.ts = ts2 := e2
    rw [← e2] at hts2
    have c2 := symbol_iff.1 c2
    have l2 : s1.ts.length = s2.ts.length + 1 := by rw [hts2]; rfl
    refine B.is h2 (fun t ht c => ?_) (fun t ht c => ?_)
    · exact ⟨h2, by omega, ⟨s1.ts, g1, .inr ⟨s2.ts, ⟨t2, hts2, c2⟩, .inl ⟨rfl, ends_tok ht c⟩⟩⟩, by rw [k2]; exact k1⟩
    · refine wp_then (ih (l ++ [d.ident]) s2 h2 (by rw [k2]; exact k1) ⟨t2, by rw [← hts2]; exact h1.good, .inr c2⟩ (fun h => hf (by omega)))
        fun rest s3 ⟨h3, l3, g3, k3⟩ => ?_
      exact ⟨h3, by omega, ⟨s1.ts, g1, .inr ⟨s2.ts, ⟨t2, hts2, c2⟩, .inr g3⟩⟩, by simpa using k3⟩

/-- the declarations of a type section, after the opening -/
theorem sectionDecls_sound (T : DTypes u D I K Good Pp) (n : Nat) (l : List Ident) {s : PS κ} (hs : In' I Good tl s) (hk : K l s.cx)
    {t : Token} {ts : List Token} (hts : s.ts = t :: ts) (ht : IsKw u r!"TYPE" t) (hf : n < 20 * ts.length + 11 → Pw) :
    wp (do P.next; parseTypeDecls u D n) s (fun ds s' => In' I Good tl s' ∧ s'.ts.length < s.ts.length ∧
      gTypeDecls u ds ts s'.ts ∧ K (l ++ ds.map TypeDecl.ident) s'.cx) Pp Pw := by
  refine B.skipK hs fun s1 h1 e1 k1 => ?_
  rw [hts] at e1
  have e1 : s1.ts = ts := e1
  subst e1
  refine wp_mono (typeDecls_sound B T n l s1 h1 (by rw [k1]; exact hk) ⟨t, by rw [← hts]; exact hs.good, .inl ht⟩ hf) ?_ id id
  rintro ds s2 ⟨h2, l2, g2, k2⟩
  exact ⟨h2, by rw [hts]; exact Nat.lt_succ_of_le l2, g2, k2⟩

theorem typeSection_sound (n : Nat) {s : PS κ} (hs : In' I Good tl s)
    {t : Token} {ts : List Token} (hts : s.ts = t :: ts) (ht : IsKw u r!"TYPE" t) (hf : n < 20 * ts.length + 11 → Pw) :
    wp (parseTypeSection u D n) s (fun ds s' => In' I Good tl s' ∧ s'.ts.length < s.ts.length ∧ gTypeDecls u ds ts s'.ts) Pp Pw := by
  obtain ⟨J, K, BJ, hJ, T⟩ := B.sect (by rw [← hts]; exact hs.good) ht hs.cx
  have := sectionDecls_sound BJ T n [] (s := { s with cx := D.openSection s.cx }) ⟨hs.tail, hJ.opens, hs.good⟩ hJ.first hts ht hf
  unfold wp at this ⊢
  unfold parseTypeSection withSection
  cases e : (do P.next; parseTypeDecls u D n : P κ _) { s with cx := D.openSection s.cx } with
  | ok a s' =>
    rw [e] at this
    exact ⟨⟨this.1.tail, hJ.closes _ this.1.cx, this.1.good⟩, this.2.1, this.2.2.1⟩
  | err => trivial
  | panic => rw [e] at this; exact this
  | wait => rw [e] at this; exact this

theorem labelDecl_sound {s : PS κ} (hs : In' I Good tl s) {t : Token} {ts : List Token} (hts : s.ts = t :: ts)
    (ht : IsKw u r!"LABEL" t) : wp (parseLabelDecl D) s (fun i s' => In' I Good tl s' ∧ s'.ts.length < s.ts.length ∧
      (kwR u r!"LABEL" ▹ tk u (.ident i) ▹ symR u r!";") s.ts s'.ts) Pp Pw := by
  unfold parseLabelDecl
  refine B.nextIs hs (fun t h => by rw [typ_iff.1 h]; decide) fun t0 t1 s1 ts1 c1 h1 e1 e1' => ?_
  have : t0 = t := by rw [hts] at e1; cases e1; rfl
  subst this
  have l1 : s.ts.length = s1.ts.length + 1 := by rw [e1]; rfl
  refine B.nextIs h1 (fun t h => sym_ne_eof (symbol_iff.1 h)) fun t2 t3 s3 ts3 c3 h3 e3 e3' => ?_
  have : t2 = t1 := by rw [e1'] at e3; cases e3; rfl
  subst this
  have l3 : s1.ts.length = s3.ts.length + 1 := by rw [e3]; rfl
  refine B.next h3 e3' fun s4 h4 e4 => ?_
  have l4 : s3.ts.length = s4.ts.length + 1 := by rw [e3', e4]; rfl
  refine B.setDecl h4 fun s5 h5 e5 => ?_
  refine ⟨h5, by rw [e5]; omega, ?_⟩
  rw [e5]
  exact ⟨s1.ts, ⟨t0, e1, ht⟩, s3.ts, ⟨t2, e3, typ_iff.1 c1, rfl⟩, t3, by rw [e3', e4], symbol_iff.1 c3⟩

theorem exportsItem_sound (n : Nat) : TSound I Good tl Pp Pw (parseExportsItem u D n) (gExportsItem u) n 8 := by
  intro s hs hf
  unfold parseExportsItem
  refine B.eatIdent hs fun t s1 c h1 e1 => ?_
  have l1 : s.ts.length = s1.ts.length + 1 := by rw [e1]; rfl
  refine B.opt h1 (notEof_dir (by decide)) (fun t2 s2 c2 h2 e2 => ?_) (fun _ _ _ => ?_)
  · have l2 : s1.ts.length = s2.ts.length + 1 := by rw [e2]; rfl
    refine B.expr h2 (fun h => hf (by omega)) fun e s3 h3 l3 g3 => ?_
    exact ⟨h3, by omega, s1.ts, ⟨t, e1, c, rfl⟩, s2.ts, ⟨t2, e2, directive_iff.1 c2⟩, g3⟩
  refine B.opt h1 (notEof_dir (by decide)) (fun t2 s2 c2 h2 e2 => ?_) (fun _ _ _ => ?_)
  · have l2 : s1.ts.length = s2.ts.length + 1 := by rw [e2]; rfl
    refine B.expr h2 (fun h => hf (by omega)) fun e s3 h3 l3 g3 => ?_
    exact ⟨h3, by omega, s1.ts, ⟨t, e1, c, rfl⟩, s2.ts, ⟨t2, e2, directive_iff.1 c2⟩, g3⟩
  · exact ⟨h1, by omega, s1.ts, ⟨t, e1, c, rfl⟩, rfl⟩

/-- the items end in front of the semicolon -/
theorem exportsItems_sound : ∀ n, TSound I Good tl Pp Pw (parseExportsItems u D n)
    (fun is x y => ∃ t z, y = t :: z ∧ gExportsItems u is x z) n 9 := by
  intro n
  induction n with
  | zero => intro s hs hf; exact hf (by omega)
  | succ n ih =>
    intro s hs hf
    rw [parseExportsItems]
    refine (exportsItem_sound B n).bind hs (fun h => hf (by omega)) fun i s1 h1 l1 g1 => ?_
    refine B.cur? h1 trivial fun t ht => ?_
    refine wp_ite (fun c => ?_) (fun _ => wp_ite (fun c => ?_) (fun _ => trivial))
    · obtain ⟨ts, hts⟩ := tok_cons' notEof_sym ht c
      exact ⟨h1, l1, t, ts, hts, s1.ts, g1, .inl ⟨rfl, t, hts, symbol_iff.1 c⟩⟩
    · obtain ⟨ts, hts⟩ := tok_cons' notEof_sym ht c
      refine B.next h1 hts fun s2 h2 e2 => ?_
      have l2 : s1.ts.length = s2.ts.length + 1 := by rw [hts, e2]; rfl
      refine ih.bind h2 (fun h => hf (by omega)) fun rest s3 h3 l3 ⟨t', z, e3, g3⟩ => ?_
      exact ⟨h3, by omega, t', z, e3, s1.ts, g1, .inr ⟨s2.ts, ⟨t, by rw [hts, e2], symbol_iff.1 c⟩, g3⟩⟩

theorem exports_sound : ∀ n, TSound I Good tl Pp Pw (parseExports u D n) (gExports u) n 1 := by
  intro n
  induction n with
  | zero => intro s hs hf; exact hf (by omega)
  | succ n ih =>
    intro s hs hf
    rw [parseExports]
    refine B.opt hs notEof_kw (fun t1 s1 c1 h1 e1 => ?_) (fun _ _ _ => ⟨hs, Nat.le_refl _, rfl⟩)
    have l1 : s.ts.length = s1.ts.length + 1 := by rw [e1]; rfl
    refine (exportsItems_sound B n).bind h1 (fun h => hf (by omega)) fun is s2 h2 l2 ⟨t, z, e2, g2⟩ => ?_
    refine B.next h2 e2 fun s3 h3 e3 => ?_
    have l3 : s2.ts.length = s3.ts.length + 1 := by rw [e2, e3]; rfl
    refine ih.bind h3 (fun h => hf (by omega)) fun rest s4 h4 l4 g4 => ?_
    exact ⟨h4, by omega, s1.ts, ⟨t1, e1, kw_iff.1 c1⟩, s3.ts, by rw [e3]; exact g2, g4⟩

theorem stringFactor_sound (n : Nat) : TSound I Good tl Pp Pw (stringFactor u : P κ _) (gStr u) n 0 := by
  intro s hs hf
  unfold stringFactor
  refine B.cur hs fun t ht => ?_
  refine wp_ite (fun c => ?_) (fun _ => trivial)
  obtain ⟨ts, hts⟩ := tok_cons ht (by rw [c]; decide)
  refine B.next hs hts fun s1 h1 e1 => ?_
  refine ⟨h1, by rw [hts, e1]; simp, t, by rw [hts, e1], c, ?_⟩
  unfold Token.value; rw [c]

theorem external_sound (n : Nat) : TSound I Good tl Pp Pw (parseExternal u : P κ _) (gExternal u) n 0 := by
  intro s hs hf
  unfold parseExternal
  refine B.eat hs (notEof_dir (by decide)) fun t1 s1 c1 h1 e1 => ?_
  have c1 := directive_iff.1 c1
  have l1 : s.ts.length = s1.ts.length + 1 := by rw [e1]; rfl
  refine B.isL h1 notEof_sym (fun t ts c e => ?_) (fun t ht c => ?_)
  · exact ⟨h1, by omega, s1.ts, ⟨t1, e1, c1⟩, rfl, t, ts, e, symbol_iff.1 c⟩
  refine (stringFactor_sound B n).bind h1 (fun h => hf (by omega)) fun lib s2 h2 l2 g2 => ?_
  refine B.isL h2 notEof_sym (fun t ts c e => ?_) (fun t ht c => ?_)
  · exact ⟨h2, by omega, s1.ts, ⟨t1, e1, c1⟩, s2.ts, g2, rfl, t, ts, e, symbol_iff.1 c⟩
  refine B.opt h2 (notEof_dir (by decide)) (fun t3 s3 c3 h3 e3 => ?_) (fun _ _ _ => ?_)
  · have l3 : s2.ts.length = s3.ts.length + 1 := by rw [e3]; rfl
    refine (stringFactor_sound B n).bind h3 (fun h => hf (by omega)) fun nm s4 h4 l4 g4 => ?_
    exact ⟨h4, by omega, s1.ts, ⟨t1, e1, c1⟩, s2.ts, g2, s3.ts, ⟨t3, e3, directive_iff.1 c3⟩, g4⟩
  refine B.opt h2 (notEof_dir (by decide)) (fun t3 s3 c3 h3 e3 => ?_) (fun _ _ _ => trivial)
  have l3 : s2.ts.length = s3.ts.length + 1 := by rw [e3]; rfl
  unfold numberFactor
  refine (stringFactor_sound B n).bind h3 (fun h => hf (by omega)) fun v s4 h4 l4 ⟨t, e4, c4, e5⟩ => ?_
  cases e : parseInt64 v with
  | none => trivial
  | some i =>
    exact ⟨h4, by omega, s1.ts, ⟨t1, e1, c1⟩, s2.ts, g2, s3.ts, ⟨t3, e3, directive_iff.1 c3⟩, t, e4, c4, by rw [e5]; exact e⟩

theorem directives_sound : ∀ n opts, TSound I Good tl Pp Pw (parseDirectives u n opts : P κ _)
    (fun o => gRoutineDirs u o.directives opts o.ext) n 1 := by
  intro n
  induction n with
  | zero => intro opts s hs hf; exact hf (by omega)
  | succ n ih =>
    intro opts s hs hf
    rw [parseDirectives]
    refine B.cur hs fun t ht => ?_
    refine wp_ite (fun c => ?_) (fun _ => ⟨hs, Nat.le_refl _, rfl, rfl⟩)
    have c := directive_iff.1 c
    obtain ⟨ts, hts⟩ := tok_cons_raw ht (wordOf_raw (by decide) c)
    refine wp_then (Q1 := fun e1 s' => In' I Good tl s' ∧ s'.ts.length ≤ s.ts.length ∧
      (given (u.toUpper (t.value u) = r!"EXTERNAL") (gExternal u e1) ∣∣ given (u.toUpper (t.value u) ≠ r!"EXTERNAL" ∧ e1 = opts)
        (tkP fun t' => IsWordOf u directiveNames t' ∧ u.toUpper (t'.value u) = u.toUpper (t.value u))) s.ts s'.ts) ?_ ?_
    · refine wp_ite (fun ce => ?_) (fun ce => ?_)
      · refine wp_mono (external_sound B n s hs (fun h => hf (by omega))) ?_ id id
        rintro a s' ⟨h1, h2, h3⟩
        exact ⟨h1, h2, .inl ⟨ce, h3⟩⟩
      · refine B.next hs hts fun s1 h1 e1 => ?_
        exact ⟨h1, by rw [hts, e1]; simp, .inr ⟨⟨ce, rfl⟩, t, by rw [hts, e1], c, rfl⟩⟩
    rintro e1 s1 ⟨h1, l1, g1⟩
    refine B.eatSym h1 fun t2 s2 c2 h2 e2 => ?_
    have l2 : s1.ts.length = s2.ts.length + 1 := by rw [e2]; rfl
    refine (ih e1).bind h2 (fun h => hf (by omega)) fun rest s3 h3 l3 g3 => ?_
    exact ⟨h3, by omega, e1, s1.ts, g1, s2.ts, ⟨t2, e2, c2⟩, g3⟩

theorem routineOpts_sound (n : Nat) : TSound I Good tl Pp Pw (parseRoutineOpts u n : P κ _) (gRoutineOpts u) n 1 := by
  intro s hs hf
  unfold parseRoutineOpts
  refine B.isL hs (notEof_dir (by decide)) (fun _ _ _ _ => directives_sound B n none s hs hf)
    (fun _ _ _ => ⟨hs, Nat.le_refl _, rfl, rfl⟩)

/-- the heading of a routine in an interface -/
theorem exportedHeading_sound (n : Nat) : TSound I Good tl Pp Pw (parseExportedHeading u D n)
    (fun a x y => (gHeading u a.1 ▹ symR u r!";" ▹ gRoutineOpts u a.2) x y ∧ y.length < x.length) n 14 := by
  refine stacked_sound B ?_
  intro J B s hs hf
  refine (allTypes B n).funcHeading.bind hs (fun h => hf (by omega)) fun h s1 h1 l1 ⟨g1, l1'⟩ => ?_
  refine B.current h1 fun t2 ht2 c2 => ?_
  obtain ⟨ts2, hts2⟩ := tok_cons' notEof_sym ht2 c2
  refine B.setDecl h1 fun s2 h2 e2 => ?_
  refine B.next h2 (e2.trans hts2) fun s3 h3 e3 => ?_
  have l3 : s1.ts.length = s3.ts.length + 1 := by rw [hts2, e3]; rfl
  refine (routineOpts_sound B n).bind h3 (fun h => hf (by omega)) fun o s4 h4 l4 g4 => ?_
  exact ⟨h4, by omega, ⟨s1.ts, g1, s3.ts, ⟨t2, by rw [hts2, e3], symbol_iff.1 c2⟩, g4⟩, by omega⟩

end

variable (u D I Good tl Pp Pw) in
structure AllDecls (n : Nat) : Prop where
  block : TSound I Good tl Pp Pw (parseBlock u D n) (gBlock u (D.senv u)) n 18
  sects : TSound I Good tl Pp Pw (parseDeclSects u D n) (gDeclSects u (D.senv u)) n 17
  sect : TSound I Good tl Pp Pw (parseDeclSect u D n) (fun o x y => match o with
    | none => x = y
    | some d => gDeclSect u (D.senv u) d x y ∧ y.length < x.length) n 16
  func : TSound I Good tl Pp Pw (parseFunc u D n) (fun d x y => gDeclSect u (D.senv u) d x y ∧ y.length < x.length) n 15

section
variable (B : DBase u D I Good tl Pp Pw)
include B

theorem allDecls (n : Nat) : AllDecls u D I Good tl Pp Pw n := by
  revert I
  induction n with
  | zero => intro I B; constructor <;> intro s hs hf <;> exact hf (by omega)
  | succ n ihAll =>
    replace ihAll := fun J B => @ihAll J B
    intro I B
    have ih := ihAll I B
    constructor
    · intro s hs hf
      rw [parseBlock]
      refine ih.sects.bind hs (fun h => hf (by omega)) fun ds s1 h1 l1 g1 => ?_
      refine (exports_sound B n).bind h1 (fun h => hf (by omega)) fun ex1 s2 h2 l2 g2 => ?_
      refine (blockBody_sound B n).bind h2 (fun h => hf (by omega)) fun b s3 h3 l3 g3 => ?_
      refine (exports_sound B n).bind h3 (fun h => hf (by omega)) fun ex2 s4 h4 l4 g4 => ?_
      refine ⟨h4, by omega, ?_⟩
      rw [gBlock]
      refine ⟨s1.ts, g1, ex1, ex2, ?_, s2.ts, g2, s3.ts, g3, g4⟩
      cases ex2 <;> rfl
    · intro s hs hf
      rw [parseDeclSects]
      refine ih.sect.bind hs (fun h => hf (by omega)) fun o s1 h1 l1 g1 => ?_
      cases o with
      | none =>
        refine ⟨h1, l1, ?_⟩
        rw [gDeclSects]
        exact g1
      | some d =>
        refine (optSemi_sound B n).bind h1 (fun h => hf (by omega)) fun _ s2 h2 l2 g2 => ?_
        refine ih.sects.bind h2 (fun h => hf (by have := g1.2; omega)) fun rest s3 h3 l3 g3 => ?_
        refine ⟨h3, by omega, ?_⟩
        rw [gDeclSects]
        exact ⟨s1.ts, g1.1, s2.ts, g2, g3⟩
    · intro s hs hf
      rw [parseDeclSect]
      refine B.cur hs fun t ht => ?_
      refine wp_ite (fun c => ?_) (fun _ => wp_ite (fun c => ?_) (fun _ => wp_ite (fun c => ?_) (fun _ => wp_ite (fun c => ?_)
        (fun _ => wp_ite (fun c => ?_) (fun _ => wp_ite (fun c => ?_) (fun _ => ⟨hs, Nat.le_refl _, rfl⟩))))))
      · obtain ⟨ts, hts⟩ := tok_cons' notEof_kw ht c
        refine wp_then (labelDecl_sound B hs hts (kw_iff.1 c)) ?_
        rintro i s1 ⟨h1, l1, g1⟩
        refine ⟨h1, by omega, ?_, l1⟩
        rw [gDeclSect]; exact g1
      · obtain ⟨ts, hts⟩ := tok_cons' notEof_kw ht c
        refine B.next hs hts fun s1 h1 e1 => ?_
        have l1 : s.ts.length = s1.ts.length + 1 := by rw [hts, e1]; rfl
        refine (constDecls_sound B n).bind h1 (fun h => hf (by omega)) fun ds s2 h2 l2 g2 => ?_
        refine ⟨h2, by omega, ?_, by omega⟩
        rw [gDeclSect]; exact ⟨s1.ts, ⟨t, by rw [hts, e1], kw_iff.1 c⟩, g2⟩
      · obtain ⟨ts, hts⟩ := tok_cons' notEof_kw ht c
        have l0 : s.ts.length = ts.length + 1 := by rw [hts]; rfl
        refine wp_then (typeSection_sound B n hs hts (kw_iff.1 c) (fun h => hf (by omega))) fun ds s1 ⟨h1, l1, g1⟩ => ?_
        refine ⟨h1, Nat.le_of_lt l1, ?_, l1⟩
        rw [gDeclSect]; exact ⟨ts, ⟨t, hts, kw_iff.1 c⟩, g1⟩
      · obtain ⟨ts, hts⟩ := tok_cons' notEof_kw ht c
        refine B.next hs hts fun s1 h1 e1 => ?_
        have l1 : s.ts.length = s1.ts.length + 1 := by rw [hts, e1]; rfl
        refine (varDecls_sound B n).bind h1 (fun h => hf (by omega)) fun ds s2 h2 l2 g2 => ?_
        refine ⟨h2, by omega, ?_, by omega⟩
        rw [gDeclSect]; exact ⟨s1.ts, ⟨t, by rw [hts, e1], kw_iff.1 c⟩, g2⟩
      · obtain ⟨ts, hts⟩ := tok_cons' notEof_kw ht c
        refine B.next hs hts fun s1 h1 e1 => ?_
        have l1 : s.ts.length = s1.ts.length + 1 := by rw [hts, e1]; rfl
        refine (threadVarDecls_sound B n).bind h1 (fun h => hf (by omega)) fun ds s2 h2 l2 g2 => ?_
        refine ⟨h2, by omega, ?_, by omega⟩
        rw [gDeclSect]; exact ⟨s1.ts, ⟨t, by rw [hts, e1], kw_iff.1 c⟩, g2⟩
      · refine ih.func.bind hs (fun h => hf (by omega)) fun d s1 h1 l1 g1 => ?_
        exact ⟨h1, l1, g1⟩
    · rw [parseFunc]
      refine stacked_sound B ?_
      intro J B s hs hf
      have ih := ihAll J B
      refine (allTypes B n).funcHeading.bind hs (fun h => hf (by omega)) fun h s1 h1 l1 ⟨g1, l1'⟩ => ?_
      refine B.current h1 fun t2 ht2 c2 => ?_
      obtain ⟨ts2, hts2⟩ := tok_cons' notEof_sym ht2 c2
      refine B.setDecl h1 fun s2 h2 e2 => ?_
      refine B.next h2 (e2.trans hts2) fun s3 h3 e3 => ?_
      have l3 : s1.ts.length = s3.ts.length + 1 := by rw [hts2, e3]; rfl
      refine (routineOpts_sound B n).bind h3 (fun h => hf (by omega)) fun o s4 h4 l4 g4 => ?_
      refine ih.block.bind h4 (fun h => hf (by omega)) fun b s5 h5 l5 g5 => ?_
      refine ⟨h5, by omega, ?_, by omega⟩
      rw [gDeclSect]
      exact ⟨s1.ts, g1, s3.ts, ⟨t2, by rw [hts2, e3], symbol_iff.1 c2⟩, s4.ts, g4, g5⟩

end

end TP
