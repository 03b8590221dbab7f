import Verif.Lemmas.Acc

/-!
# Acceptance of type names, expressions and compound statements
-/

namespace TP
open Spec
open Maps hiding get set

variable {u : Uni} {tl : Tail}

theorem bind_ok {κ α β : Type} {p : P κ α} {f : α → P κ β} {s s' : PS κ} {a : α} (h : p s = .ok a s') : (p >>= f) s = f a s' := by
  show P.bind p f s = _
  unfold P.bind
  rw [h]

/-- how `ParseTypeForIdentifier` reads a name that is no unit, with no `..` behind it -/
theorem typeName_run {s : PS DS} {t t2 : Token} {rest : List Token} {n : Nat} (hts : s.ts = t :: rest) (h2 : tokOf s.tail rest = some t2)
    (hd : t2.value u ≠ r!"..") (hu : ∀ d, s.cx.get u (t.value u) = some d → (declEnv u).isUses d = false) :
    parseTypeForIdent u (declEnv u) n s =
      match ((DS.emb u .real (t.value u)).or (DS.emb u .ordIdent (t.value u))).or (DS.emb u .string (t.value u)) with
      | some d => .ok (.id ⟨none, Ident.ofTok t, .now d⟩) { s with ts := rest }
      | none =>
        match s.cx.rollback.get u t.raw with
        | some d => .ok (.id ⟨none, Ident.ofTok t, .now d⟩) { s with ts := rest, cx := s.cx.rollback }
        | none => .ok (.id ⟨none, Ident.ofTok t, .later (s.cx.rollback.newRef t.raw).2⟩)
            { s with ts := rest, cx := (s.cx.rollback.newRef t.raw).1 } := by
  have ht : ∀ c, ({ s with cx := c } : PS DS).tok? = some t := by
    intro c; obtain ⟨x, y, z⟩ := s; cases hts; rfl
  have ht2 : ∀ c, ({ s with ts := rest, cx := c } : PS DS).tok? = some t2 := by
    intro c; obtain ⟨x, y, z⟩ := s; exact h2
  have hn : ∀ c, P.next ({ s with cx := c } : PS DS) = .ok () { s with ts := rest, cx := c } := fun c =>
    next_run hts ⟨t2, ht2 c, trivial⟩
  have hunit : parseTypeIdWithUnit u (declEnv u) s = .ok none s := by
    unfold parseTypeIdWithUnit
    rw [bind_ok (cur_run (ht s.cx)), bind_ok (get_run _), if_neg]
    · rfl
    · intro h
      rw [show (declEnv u).get s.cx (t.value u) = s.cx.get u (t.value u) from rfl] at h
      cases e : s.cx.get u (t.value u) with
      | none => rw [e] at h; cases h
      | some d =>
        rw [e] at h
        simp only [hu d e] at h
        cases h
  have hemb : ∀ e, parseEmb u (declEnv u) e s = match DS.emb u e (t.value u) with
      | some d => .ok (some (.id ⟨none, Ident.ofTok t, .now d⟩)) { s with ts := rest }
      | none => .ok none s := by
    intro e
    unfold parseEmb
    rw [bind_ok (cur_run (ht s.cx)), show (declEnv u).emb e (t.value u) = DS.emb u e (t.value u) from rfl]
    cases DS.emb u e (t.value u) with
    | none => rfl
    | some d =>
      simp only
      rw [bind_ok (hn s.cx)]
      rfl
  unfold parseTypeForIdent
  rw [bind_ok hunit]
  simp only
  cases e1 : DS.emb u .real (t.value u) with
  | some d => rw [bind_ok (by rw [hemb, e1])]; rfl
  | none =>
    rw [bind_ok (by rw [hemb, e1])]
    simp only
    cases e2 : DS.emb u .ordIdent (t.value u) with
    | some d => rw [bind_ok (by rw [hemb, e2])]; rfl
    | none =>
      rw [bind_ok (by rw [hemb, e2])]
      simp only
      cases e3 : DS.emb u .string (t.value u) with
      | some d => rw [bind_ok (by rw [hemb, e3])]; rfl
      | none =>
        rw [bind_ok (by rw [hemb, e3])]
        simp only [Option.or_none]
        have hsub : parseSubrangeIdent u (declEnv u) n s = .ok none { s with cx := s.cx.rollback } := by
          unfold parseSubrangeIdent
          rw [bind_ok (rollback_run (ht s.cx)), bind_ok (cur_run (ht s.cx)), bind_ok (hn s.cx), bind_ok (is_run (ht2 s.cx)),
            if_neg (by simp only [Pred.value, beq_iff_eq]; exact hd)]
          rfl
        rw [bind_ok hsub]
        simp only
        unfold parseTypeIdWithoutUnit
        rw [P.bind_assoc, bind_ok (cur_run (ht _)), P.bind_assoc, bind_ok (hn _), P.bind_assoc, bind_ok (get_run _)]
        rw [show (declEnv u).get ({ s with ts := rest, cx := s.cx.rollback } : PS DS).cx t.raw = s.cx.rollback.get u t.raw from rfl]
        cases s.cx.rollback.get u t.raw with
        | some d => rfl
        | none => rfl

/-- The context for statements, with `lab` telling what is a label.  The parser of expressions does not ask for that. -/
def SDL (u : Uni) (lab : Decl Node → Bool) : SEnv DS (Decl Node) (PType (Decl Node)) := { SD u with isLabel := lab }

/-- no label is called like a word that ends a list of statements -/
def NoLabels (u : Uni) (lab : Decl Node → Bool) (k : DS) : Prop := ∀ w ∈ endWords, ∀ d, k.get u w = some d → lab d = false

/-- the relation of a context to those that the parser has instead of it -/
def Sim (u : Uni) (lab : Decl Node → Bool) (k0 k c : DS) : Prop := Alike k c ∧ Keeps k0 c ∧ NoLabels u lab k

theorem set_run {k : DS} {o : CtxObj} {t : Nat} (h1 : k.w.ctxs.obj k.cur = some o) (h3 : target k.w.maps o.dm = some t) (i : Ident)
    (k' : DS) : k.set u [i] .handler = .ok k' ↔
      ((tbl k.w.maps t).set u [⟨i.name, .decl .handler i⟩]).2 = true ∧
      k' = { k with w := { k.w with maps := upd k.w.maps t ((tbl k.w.maps t).set u [⟨i.name, .decl .handler i⟩]).1 } } := by
  have hd : k.w.dm k.cur = some o.dm := World.dm_eq.2 ⟨o, h1, rfl⟩
  have hset := set_eq u k.w.maps o.dm [⟨i.name, Node.decl .handler i⟩]
  rw [h3] at hset
  simp only at hset
  unfold DS.set DS.setR World.set
  simp only [List.map_cons, List.map_nil, DS.mkNode, DS.addType]
  rw [hd]
  simp only
  rw [hset]
  cases ((tbl k.w.maps t).set u [⟨i.name, Node.decl .handler i⟩]).2 with
  | true => simp [eq_comm]
  | false => simp

theorem simBase (u : Uni) {lab : Decl Node → Bool} (hlab : ∀ n i, lab ⟨n, .decl .handler i⟩ = false) (k0 : DS) (tl : Tail) :
    CBase u (SDL u lab) (HandlerTy u) (Sim u lab k0) tl where
  roll k c h := ⟨h.1.rollback, ⟨(evolves_rollback (u := u) h.2.1.1).1, h.2.1.2.rollback⟩, h.2.2⟩
  get k c h name := h.1.get name
  member k c h d name := by
    show DS.member u c d name = DS.member u k d name
    unfold DS.member DS.inMap World.unitDm
    rw [h.1.items, h.1.maps, h.1.units, h.1.program]
  set k c h i ty k' e := by
    obtain ⟨o, o', h1, h2, h3, h4, h5⟩ := h.1.cur
    obtain ⟨o2, t, g1, g2, g3⟩ := h.2.1.1
    rw [h2] at g1; cases g1
    have g3' := g3
    rw [h5, h.1.maps] at g3'
    obtain ⟨e1, rfl⟩ := (set_run h1 g3' i k').1 e
    have e' : c.set u [i] .handler = .ok _ := (set_run h2 g3 i _).2 ⟨by rw [h.1.maps]; exact e1, rfl⟩
    refine ⟨_, e', ⟨?_, h.1.units, h.1.types, h.1.items, h.1.program, o, o', h1, h2, h3, h4, h5⟩, ⟨h.2.1.1.set e', ?_⟩, ?_⟩
    · simp only [h.1.maps]
    · have := h.2.1.2.set u (fun _ _ _ _ _ => trivial) [i] .handler
      rw [e'] at this
      exact this
    · obtain ⟨m, hm⟩ : ∃ m, ((tbl k.w.maps t).set u [⟨i.name, Node.decl .handler i⟩]) = (m, true) :=
        ⟨_, Prod.ext rfl e1⟩
      intro name hw d hd
      obtain ⟨pre, post, s1, s2, s3, s4, s5, s6⟩ := Tbl.set_spec u [⟨i.name, Node.decl .handler i⟩] (tbl k.w.maps t) _ _ hm
      have := s5 rfl
      subst this
      rw [List.append_nil] at s1
      subst s1
      obtain ⟨-, hg⟩ := get_declared (u := u) (k := k) (ts := k.types) (ac := k.actual) ⟨o, t, h1, h3, g3'⟩ ⟨o, h1, g3'⟩ s2
      simp only [hm] at hd
      rw [hg name] at hd
      cases e : ([⟨i.name, Node.decl .handler i⟩] : List (Decl Node)).find? (fun d => u.toLower d.name == u.toLower name) with
      | none => rw [e] at hd; exact h.2.2 name hw d hd
      | some d' =>
        rw [e] at hd
        cases hd
        have := List.mem_of_find?_eq_some e
        rw [List.mem_singleton] at this
        subst this
        exact hlab _ _
  word k c h w hw := by
    rintro ⟨d, h1, h2⟩
    rw [show (SDL u lab).isLabel d = lab d from rfl, h.2.2 w hw d h1] at h2
    cases h2
  type k ty x k' h rest hr := by
    obtain ⟨rfl, t, d, rfl, h2, h3, h4, h5, rfl⟩ := h
    intro s hs
    obtain ⟨t2, g1, g2⟩ := hr
    have hv : t.value u = t.raw := value_of_ne (by rw [h2]; decide)
    have hrun : ∀ n, parseType u (declEnv u) (n + 1) s = parseTypeForIdent u (declEnv u) n s := by
      intro n
      rw [parseType, bind_ok (cur_run (t := t) (hs.tok.trans rfl)), if_neg (by rw [h2]; decide), if_pos h2]
    have hget : ∀ name, s.cx.get u name = k'.get u name := fun name => hs.cx.1.get name
    have hty := fun n => typeName_run (n := n) (u := u) (hts := hs.ts) (t2 := t2) (by rw [hs.tail]; exact g1)
      (up_value g2 (by decide) (by decide)) (by
        intro d' hd'
        rw [hget, hv, show k'.get u t.raw = some d from h3] at hd'
        cases hd'; exact h5)
    have hroll : s.cx.rollback.get u t.raw = some d := by rw [hs.cx.1.rollback.get]; exact h3
    unfold nameTy
    cases hm : (((DS.emb u .real (t.value u)).or (DS.emb u .ordIdent (t.value u))).or (DS.emb u .string (t.value u))) with
    | some d' =>
      refine ⟨{ s with ts := rest }, ⟨hs.tail, hs.cx, rfl⟩, 1, fun n hn => ?_⟩
      obtain ⟨m, rfl⟩ : ∃ m, n = m + 1 := ⟨n - 1, by omega⟩
      show parseType u (declEnv u) (2 * m + 1 + 1) s = _
      rw [hrun, hty, hm]
      rfl
    | none =>
      refine ⟨{ s with ts := rest, cx := s.cx.rollback }, ⟨hs.tail, ?_, rfl⟩, 1, fun n hn => ?_⟩
      · exact ⟨hs.cx.1.rollback, ⟨(evolves_rollback (u := u) hs.cx.2.1.1).1, hs.cx.2.1.2.rollback⟩, hs.cx.2.2⟩
      obtain ⟨m, rfl⟩ : ∃ m, n = m + 1 := ⟨n - 1, by omega⟩
      show parseType u (declEnv u) (2 * m + 1 + 1) s = _
      rw [hrun, hty, hm]
      simp only [hroll]
      rfl

theorem Agrees.sim {Γ : NameEnv} {k : DS} (h : Agrees u Γ k) {lab : Decl Node → Bool} (hl : NoLabels u lab k) : Sim u lab k k k :=
  ⟨.refl h.rooted, ⟨h.rooted, h.rooted.own⟩, hl⟩

/-- completeness gives acceptance -/
theorem Acc.go {α : Type} {p : Nat → P DS α} {Γ Γ' : NameEnv} {ts ts' : List Token} {lab : Decl Node → Bool}
    (hl : ∀ k, Agrees u Γ k → NoLabels u lab k)
    (h : ∀ k, Agrees u Γ k → ∃ a k', Agrees u Γ' k' ∧ Go (Sim u lab k) tl p k ts a k' ts') : Acc u tl p Γ ts Any Γ' ts' := by
  intro s h1 h2 h3
  obtain ⟨a, k', g1, g2⟩ := h s.cx h2
  obtain ⟨s', ⟨f1, f2, f3⟩, N, f4⟩ := g2 s ⟨h1, h2.sim (hl _ h2), h3⟩
  exact ⟨a, s', f1, g1.alike f2.1, f3, f2.2.1.2, trivial, N, f4⟩

theorem acc_expr {Γ : NameEnv} {x rest : List Token} (h : OkExpr u Γ x) (hr : Nxt tl rest (StopsExpr u)) :
    Acc u tl (parseExpr u (declEnv u).toEnv) Γ (x ++ rest) Any Γ rest := by
  obtain ⟨e, h⟩ := h
  refine Acc.go (lab := fun _ => false) (fun _ _ _ _ _ _ => rfl) fun k hk => ?_
  obtain ⟨e', h'⟩ := elabDExpr hk h
  exact ⟨e', k, hk, (simBase u (lab := fun _ => false) (fun _ _ => rfl) k tl).expr h' hr⟩

/-- no label is called like one of the words -/
theorem noLabels {Γ : NameEnv} {x : List Token} (h : Γ.LabelsKnown u x) {k : DS} (hk : Agrees u Γ k) : NoLabels u (declEnv u).isLabel k :=
  fun w hw _ e => hk.notLabel (h.2 w hw) e

theorem acc_compound {Γ Γ' : NameEnv} {x rest : List Token} (h : OkCompound u Γ x Γ') (hr : Nxt tl rest (PlainStop u)) :
    Acc u tl (parseBody u (SD u)) Γ (x ++ rest) Any Γ' rest := by
  obtain ⟨hl, l, h⟩ := h
  refine Acc.go (lab := (declEnv u).isLabel) (fun _ hk => noLabels hl hk) fun k hk => ?_
  obtain ⟨b', k', g1, g2, g3, g4⟩ := elabBody (W := x) _ ⟨hk, hl.1⟩ (fun _ ht => ht) h
  refine ⟨b', k', g2.1, body_go (simBase u (lab := (declEnv u).isLabel) (fun _ _ => rfl) k tl) b' g1 (hr.mono fun t ht => ⟨ht, fun e => ?_, fun e => ?_⟩)⟩
  · rw [g4] at e; cases e
  · rw [g3] at e; cases e

end TP
