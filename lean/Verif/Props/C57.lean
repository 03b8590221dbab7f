import Verif.Lemmas.LocalProgram
import Verif.Lemmas.FrontLex
import Verif.Props.C55
import Verif.Props.C56

/-!
# C57  Nothing behind the final period is looked at

For a program that is returned there is a token in the file of the program and in the file of every unit that is loaded, a period,
such that the tokens behind it are irrelevant: with any other tokens there, and also if the tokenizer does not return there, the
same program is returned.
-/

namespace TP.Props
open TP Spec

/-- what the parsers see of a token -/
def tokenView (t : Token) : TType × Str × Pos × Pos := (t.typ, t.raw, t.start, t.stop)

/-- The first `k` tokens have the same kinds, texts and places (and there are that many). -/
def Agree (k : Nat) (ts ts' : List Token) : Prop := k ≤ ts.length ∧ (ts.take k).map tokenView = (ts'.take k).map tokenView

/-- The files are the same, or both have tokens, and the first `k` of them are the same. -/
def AgreeFile (k : Nat) (f f' : FileR) : Prop :=
  f = f' ∨ ∃ ts tl ts' tl', f = .tokens ts tl ∧ f' = .tokens ts' tl' ∧ Agree k ts ts'

/-- The token number `k`, counted from one, is a period. -/
def PeriodAt (k : Nat) (ts : List Token) : Prop := ∃ t, 0 < k ∧ ts[k - 1]? = some t ∧ IsSym r!"." t

/-- The file has this text, and its tokens are known, with any order of the symbol map. -/
def TextOf (u : Uni) (f : FileR) (x : Str) : Prop :=
  ∃ o ts tl, IsOrder o ∧ Delivers u o (Cursor.new x) ts tl ∧ f = .tokens ts tl

/-- All a caller gets: a program, an error, a panic or nothing. -/
def outcome {α : Type} : R (PS DS) α → R Unit α
  | .ok a _ => .ok a ()
  | .err => .err
  | .panic => .panic
  | .wait => .wait

theorem tokR_view {u : Uni} {a b : Token} (h : tokenView a = tokenView b) : TokR u (NmR Spell.same) Spell.same.tr Spell.same.tr a b := by
  simp only [tokenView, Prod.mk.injEq] at h
  obtain ⟨h1, h2, h3, h4⟩ := h
  have hv : a.value u = b.value u := by unfold Token.value; rw [h1, h2]
  have hi : Ident.ofTok a = Ident.ofTok b := by unfold Ident.ofTok; rw [h2, h3, h4]
  exact ⟨h1, fun c _ => by rw [hv], by rw [h2], by rw [h2], fun _ => h2, fun _ => h2, by rw [hi], by rw [hv], by rw [h2]; rfl, by rw [hv]; rfl⟩

theorem toksR_view {u : Uni} : ∀ {l l' : List Token}, l.map tokenView = l'.map tokenView →
    List.Forall₂ (TokR u (NmR Spell.same) Spell.same.tr Spell.same.tr) l l'
  | [], [], _ => .nil
  | [], _ :: _, h => by simp at h
  | _ :: _, [], h => by simp at h
  | a :: l, b :: l', h => by
    simp only [List.map_cons, List.cons.injEq] at h
    exact .cons (tokR_view h.1) (toksR_view h.2)

theorem strR_view {u : Uni} {w : Prop} (hw : w) {l l' : List Token} (tl : Tail) (h : l.map tokenView <+: l'.map tokenView) :
    StrR u (NmR Spell.same) Spell.same.tr Spell.same.tr w l .hang l' tl := by
  have hlen : l.length ≤ l'.length := by simpa using h.length_le
  have e : l.map tokenView = (l'.take l.length).map tokenView := by
    rw [List.map_take]
    simpa using List.prefix_iff_eq_take.1 h
  have := StrR.append (u := u) (w := w) (toksR_view e) hw (l'.drop l.length) tl
  rwa [List.take_append_drop] at this

theorem RR.outcome {u : Uni} {α : Type} {f : α → α} (hf : ∀ a, f a = a) {w : Prop} {p q : R (PS DS) α}
    (h : RR u (NmR Spell.same) Spell.same.tr Spell.same.tr w (DSR Spell.same) (EqR f f) p q) (hp : p ≠ .wait) : outcome p = outcome q := by
  cases p <;> cases q <;> first | exact h.elim | rfl | (exact absurd rfl hp) | skip
  rename_i a s b t
  have h1 : f a = f b := h.1
  rw [hf, hf] at h1
  simp only [Props.outcome, h1]

theorem outcome_ok {α : Type} {p : R (PS DS) α} {a : α} (h : outcome p = .ok a ()) : ∃ s, p = .ok a s := by
  cases p <;> simp only [outcome, reduceCtorEq, R.ok.injEq] at h
  exact ⟨_, by rw [h.1]⟩

/-- The second file begins like the first one, and the tokenizer does not return behind these tokens of the first one. -/
def Begins (f f' : FileR) : Prop :=
  f = f' ∨ ∃ ts ts' tl', f = .tokens ts .hang ∧ f' = .tokens ts' tl' ∧ ts.map tokenView <+: ts'.map tokenView

theorem Begins.rel {u : Uni} {f f' : FileR} (h : Begins f f') : FileRR u Spell.same True f f' := by
  rcases h with rfl | ⟨ts, ts', tl', rfl, rfl, h⟩
  · exact FileRR.refl f
  · exact strR_view trivial tl' h

theorem period_of {ts rest : List Token} (hs : rest <:+ ts) (h : ∃ t z, rest = t :: z ∧ IsSym r!"." t) :
    PeriodAt (ts.length - rest.length + 1) ts := by
  obtain ⟨pre, rfl⟩ := hs
  obtain ⟨t, z, rfl, ht⟩ := h
  refine ⟨t, by omega, ?_, ht⟩
  have e : (pre ++ t :: z).length - (t :: z).length + 1 - 1 = pre.length := by simp
  rw [e]
  simp

theorem le_maxes {a : Nat} {l : List Nat} (h : a ∈ l) : a ≤ l.foldr max 0 := by
  induction l with
  | nil => cases h
  | cons b l ih =>
    simp only [List.foldr_cons]
    rcases List.mem_cons.1 h with rfl | h
    · exact Nat.le_max_left _ _
    · exact Nat.le_trans (ih h) (Nat.le_max_right _ _)

theorem maxes_mem {l : List Nat} (h : l ≠ []) : l.foldr max 0 ∈ l := by
  induction l with
  | nil => cases h rfl
  | cons b l ih =>
    simp only [List.foldr_cons]
    by_cases hb : l.foldr max 0 ≤ b
    · rw [Nat.max_eq_left hb]; exact List.mem_cons_self ..
    · rw [Nat.max_eq_right (by omega)]
      by_cases hl : l = []
      · subst hl
        exact absurd (Nat.zero_le b) hb
      · exact List.mem_cons_of_mem _ (ih hl)

theorem used_period {u : Uni} {t : UnitTree (Decl Node)} {ts rest : List Token} (h : gUsedUnit u t ts rest) :
    ∃ t z, rest = t :: z ∧ IsSym r!"." t := by
  obtain ⟨_, _, _, _, _, _, _, _, _, _, _, _, _, _, h⟩ := h
  obtain ⟨_, _, _, _, _, _, _, _, _, _, rfl, h⟩ := h
  exact h

theorem program_period {u : Uni} {t : ProgramTree (Decl Node)} {ts rest : List Token} (h : gProgram u t ts rest) :
    ∃ t z, rest = t :: z ∧ IsSym r!"." t := by
  obtain ⟨_, _, _, _, _, _, _, _, _, _, rfl, h⟩ := h
  exact h

theorem unit_period {u : Uni} {t : UnitTree (Decl Node)} {ts rest : List Token} (h : gUnit u t ts rest) :
    ∃ t z, rest = t :: z ∧ IsSym r!"." t := by
  obtain ⟨_, _, _, _, _, _, _, _, _, _, _, _, _, _, h⟩ := h
  obtain ⟨_, _, _, _, _, _, _, _, _, _, rfl, h⟩ := h
  exact h

section
variable (u : Uni) (sep : Char) (files files' : Str → FileR) (lib : TopoLib) (it : List UParser → List Str)

/-- If `ParseProgram` returns for files behind whose tokens the tokenizer would not return, it returns the same (a program, an
error or a panic) for all files that begin with these tokens. -/
theorem C57_begin (hfiles : ∀ p, Begins (files p) (files' p)) (path : Str) (n : Nat)
    (h : parseProgramFile u sep files lib it path n ≠ .wait) :
    outcome (parseProgramFile u sep files lib it path n) = outcome (parseProgramFile u sep files' lib it path n) :=
  RR.outcome (fun t => by rw [Spell.same_tr]; exact t.tr_one)
    (program_rel (Spell.same_good u) (fun p => (hfiles p).rel) (order_same it) path (Nat.le_refl n)) h

/-- For a program that is returned there is a number `k p` for every file `p`, positive for the file of the program and the files
of the units.  The token with this number is a period.  If other files have the same first `k p` tokens, the same program is returned
for them. -/
theorem C57_program (hlib : TopoCorrect lib) (hit : IterOK u it) (path : Str) (n : Nat) (s : PS DS) (t : ProgramTree (Decl Node))
    (h : parseProgramFile u sep files lib it path n = .ok t s) (hd : DistinctUnits u (t.units.map UnitTree.head)) :
    ∃ k : Str → Nat,
      (∀ p, p = path ∨ (p ≠ [] ∧ ∃ e ∈ t.uses, p = UsesItem.effectivePath sep e.path) → 0 < k p) ∧
      (∀ p, 0 < k p → ∃ ts tl, files p = .tokens ts tl ∧ PeriodAt (k p) ts) ∧
      ∀ files' : Str → FileR, (∀ p, AgreeFile (k p) (files p) (files' p)) →
        ∃ s', parseProgramFile u sep files' lib it path n = .ok t s' := by
  obtain ⟨⟨ts, tl, hts, _, hg⟩, _⟩ := C49_program_partial u sep files lib it hlib hit path n s t h
  obtain ⟨ls, ts', tl', hts', hsuf, ⟨hu, hl⟩, hcut⟩ := program_cut h
  rw [hts] at hts'
  cases hts'
  have hper := program_period hg
  have hwithin : ∀ l ∈ ls, Within files l := by
    rcases hl with ⟨rfl, _⟩ | ⟨cp, i, s1, s2, hl⟩
    · simp
    · exact loadUnits_within hl
  have hread : ls.map Loader.path = (t.uses.map fun e => UsesItem.effectivePath sep e.path).filter (· ≠ []) ∧
      ∀ l ∈ ls, Read2 u files l := by
    rcases hl with ⟨rfl, hl⟩ | ⟨cp, i, s1, s2, hl⟩
    · rw [hl]; simp
    · obtain ⟨_, h1, h2, _⟩ := wp_ok (loadUnits_wp hlib hit s1) hl
      refine ⟨h1, h2 ?_⟩
      rw [hu, List.map_map] at hd
      exact hd
  obtain ⟨hpaths, hread⟩ := hread
  have hlp : ∀ l ∈ ls, ∃ ts tl, files l.path = .tokens ts tl ∧ l.ts <:+ ts ∧ PeriodAt (ts.length - l.ts.length + 1) ts ∧ 0 < l.ts.length := by
    intro l hl
    obtain ⟨ts, tl, h1, h2⟩ := hwithin l hl
    obtain ⟨_, _, _, h4⟩ := hread l hl
    have h5 := used_period h4
    obtain ⟨t0, z, h6, _⟩ := id h5
    exact ⟨ts, tl, h1, h2, period_of h2 h5, by rw [h6]; simp⟩
  let len : Str → Nat := fun p => match files p with
    | .tokens ts _ => ts.length
    | _ => 0
  let cand : Str → List Nat := fun p => (if p = path then [len p - s.ts.length + 1] else []) ++
    ((ls.filter fun l => l.path = p).map fun l => len p - l.ts.length + 1)
  let k : Str → Nat := fun p => (cand p).foldr max 0
  have hlen : ∀ {p ts tl}, files p = .tokens ts tl → len p = ts.length := fun {p ts tl} e => by simp only [len, e]
  have hk : ∀ p, k p ∈ cand p → ∃ ts tl, files p = .tokens ts tl ∧ PeriodAt (k p) ts := by
    intro p hp
    rcases List.mem_append.1 hp with hp | hp
    · by_cases e : p = path
      · rw [if_pos e, List.mem_singleton] at hp
        subst e
        refine ⟨ts, tl, hts, ?_⟩
        rw [hp, hlen hts]
        exact period_of hsuf hper
      · rw [if_neg e] at hp; cases hp
    · obtain ⟨l, hl, e⟩ := List.mem_map.1 hp
      obtain ⟨hl3, hl'⟩ := List.mem_filter.1 hl
      have hl2 : l.path = p := by simpa using hl'
      subst hl2
      obtain ⟨ts, tl, h1, h2, h3, _⟩ := hlp l hl3
      refine ⟨ts, tl, h1, ?_⟩
      rw [← e, hlen h1]
      exact h3
  have hkpath : ts.length - s.ts.length + 1 ≤ k path := by
    refine le_maxes (List.mem_append_left _ ?_)
    rw [if_pos rfl, hlen hts]; exact List.mem_singleton.2 rfl
  have hkl : ∀ l ∈ ls, len l.path - l.ts.length + 1 ≤ k l.path := fun l hl =>
    le_maxes (List.mem_append_right _ (List.mem_map.2 ⟨l, List.mem_filter.2 ⟨hl, by simp⟩, rfl⟩))
  refine ⟨k, ?_, fun p hp => hk p (maxes_mem fun e => ?_), ?_⟩
  · rintro p (rfl | ⟨hp, e, he, rfl⟩)
    · omega
    · have hm : UsesItem.effectivePath sep e.path ∈ ls.map Loader.path := by
        rw [hpaths]
        exact List.mem_filter.2 ⟨List.mem_map.2 ⟨e, he, rfl⟩, by simpa using hp⟩
      obtain ⟨l, hl, el⟩ := List.mem_map.1 hm
      rw [← el]
      have := hkl l hl
      omega
  · have : k p = 0 := by simp only [k, e, List.foldr_nil]
    omega
  · intro files' hfiles
    let D : Str → List Token × Tail := fun p => match files p with
      | .tokens ts tl => (ts.drop (k p), tl)
      | _ => ([], .hang)
    let files₀ : Str → FileR := fun p => match files p with
      | .tokens ts tl => .tokens (ts.take (k p)) .hang
      | f => f
    have hD : ∀ {p ts tl}, files p = .tokens ts tl → D p = (ts.drop (k p), tl) := fun {p ts tl} e => by simp only [D, e]
    have h₀ : ∀ {p ts tl}, files p = .tokens ts tl → files₀ p = .tokens (ts.take (k p)) .hang := fun {p ts tl} e => by simp only [files₀, e]
    have hC : Cut D files₀ files := by
      intro p
      cases e : files p with
      | missing => simp [files₀, e]
      | unreadable => simp [files₀, e]
      | tokens ts tl => 
        refine ⟨ts.take (k p), h₀ e, ?_⟩
        rw [hD e]
        exact ⟨(List.take_append_drop _ _).symm, rfl⟩
    have hF : ∀ l ∈ ls, Front D l := by
      intro l hl
      obtain ⟨ts, tl, h1, h2, _, h3⟩ := hlp l hl
      have := hkl l hl
      rw [hlen h1] at this
      unfold Front
      rw [hD h1]
      simp only [List.length_drop]
      omega
    obtain ⟨s0, h0⟩ := hcut D files₀ hC hF (by
      rw [hD hts]
      obtain ⟨t0, z, e, _⟩ := hper
      have : 0 < s.ts.length := by rw [e]; simp
      simp only [List.length_drop]
      omega)
    have hB : ∀ p, Begins (files₀ p) (files' p) := by
      intro p
      cases e : files p with
      | missing =>
        rcases hfiles p with hf | ⟨_, _, _, _, hf, _⟩
        · exact .inl (by rw [← hf]; simp only [files₀, e])
        · rw [hf] at e; cases e
      | unreadable =>
        rcases hfiles p with hf | ⟨_, _, _, _, hf, _⟩
        · exact .inl (by rw [← hf]; simp only [files₀, e])
        · rw [hf] at e; cases e
      | tokens ts tl =>
        rcases hfiles p with hf | ⟨ts1, tl1, ts', tl', hf, hf', ha⟩
        · refine .inr ⟨ts.take (k p), ts, tl, h₀ e, hf ▸ e, ?_⟩
          rw [List.map_take]
          exact List.take_prefix _ _
        · rw [hf] at e
          cases e
          refine .inr ⟨ts.take (k p), ts', tl', h₀ hf, hf', ?_⟩
          rw [ha.2, List.map_take]
          exact List.take_prefix _ _
    refine outcome_ok ?_
    rw [← C57_begin u sep files₀ files' lib it hB path n (by rw [h0]; exact fun h => nomatch h), h0]
    rfl

/-- The same in terms of the texts: for a program that is returned there is an offset `m p` for every file, positive for the file of
the program and the files of the units, just behind a period.  If the texts are the same up to this offset, and the first rune
behind it does not make the period part of another symbol, the same program is returned. -/
theorem C57_text (hlib : TopoCorrect lib) (hit : IterOK u it) (path : Str) (n : Nat) (s : PS DS) (t : ProgramTree (Decl Node))
    (h : parseProgramFile u sep files lib it path n = .ok t s) (hd : DistinctUnits u (t.units.map UnitTree.head)) :
    ∃ m : Str → Nat,
      (∀ p, p = path ∨ (p ≠ [] ∧ ∃ e ∈ t.uses, p = UsesItem.effectivePath sep e.path) → 0 < m p) ∧
      (∀ p, 0 < m p → ∀ x, TextOf u (files p) x → x[m p - 1]? = some '.') ∧
      ∀ files' : Str → FileR, (∀ p, files p = files' p ∨ ∃ a x y, a.length = m p ∧ TextOf u (files p) (a ++ x) ∧
          TextOf u (files' p) (a ++ y) ∧ y.head? ≠ some '.' ∧ y.head? ≠ some ')') →
        ∃ s', parseProgramFile u sep files' lib it path n = .ok t s' := by
  obtain ⟨k, h1, h2, h3⟩ := C57_program u sep files lib it hlib hit path n s t h hd
  have hsplit : ∀ p, 0 < k p → ∃ l per r tl, files p = .tokens (l ++ per :: r) tl ∧ l.length + 1 = k p ∧ IsSym r!"." per := by
    intro p hp
    obtain ⟨ts, tl, h4, per, h5, h6, h7⟩ := h2 p hp
    obtain ⟨hlt, h6⟩ := List.getElem?_eq_some_iff.1 h6
    refine ⟨ts.take (k p - 1), per, ts.drop (k p - 1 + 1), tl, ?_, ?_, h7⟩
    · rw [h4, ← h6, List.getElem_cons_drop, List.take_append_drop]
    · rw [List.length_take]; omega
  let m : Str → Nat := fun p => match files p with
    | .tokens ts _ => if k p = 0 then 0 else ((ts[k p - 1]?).map fun per => per.stop.index).getD 0
    | _ => 0
  have hm : ∀ {p l per r tl}, files p = .tokens (l ++ per :: r) tl → l.length + 1 = k p → m p = per.stop.index := by
    intro p l per r tl e1 e2
    have e3 : k p ≠ 0 := by omega
    have e4 : k p - 1 = l.length := by omega
    simp only [m, e1, if_neg e3, e4]
    simp
  have hm0 : ∀ {p}, k p = 0 → m p = 0 := by
    intro p e
    simp only [m, e, if_true]
    cases files p <;> rfl
  refine ⟨m, fun p hp => ?_, fun p hp x hx => ?_, fun files' hfiles => h3 files' fun p => ?_⟩
  · obtain ⟨l, per, r, tl, e1, e2, e3⟩ := hsplit p (h1 p hp)
    rw [hm e1 e2]
    rcases Nat.eq_zero_or_pos per.stop.index with e | e
    · have := e3.2
      unfold Token.raw at this
      rw [e] at this
      simp at this
    · exact e
  · have hk : 0 < k p := by
      rcases Nat.eq_zero_or_pos (k p) with e | e
      · have := hm0 e; omega
      · exact e
    obtain ⟨l, per, r, tl, e1, e2, e3⟩ := hsplit p hk
    obtain ⟨o, ts, tl', ho, ⟨h5, c', h6, _⟩, e⟩ := hx
    rw [hm e1 e2]
    rw [e1] at e
    cases e
    obtain ⟨c1, c2, h7, h8, h9⟩ := run_at ho (Cursor.new_wf x) h6
    have := period_rune ho h7 h9 (h5 per (by simp)) e3.2
    rwa [h8] at this
  · rcases hfiles p with e | ⟨a, x, y, ha, ⟨o, ts, tl, ho, hD, e⟩, ⟨o', ts', tl', ho', hD', e'⟩, hy, hy'⟩
    · exact .inl e
    refine .inr ⟨ts, tl, ts', tl', e, e', ?_⟩
    rcases Nat.eq_zero_or_pos (k p) with hk | hk
    · rw [hk]; exact ⟨Nat.zero_le _, rfl⟩
    obtain ⟨l, per, r, tl2, e1, e2, e3⟩ := hsplit p hk
    rw [hm e1 e2] at ha
    rw [e] at e1
    cases e1
    obtain ⟨l', ⟨z, rfl⟩, h5⟩ := delivers_front ho ho' hy hy' e3.2 ha.symm hD hD'
    have hl : l'.length = k p := by rw [← h5.length_eq]; simp; omega
    refine ⟨by simp; omega, ?_⟩
    rw [← hl, List.take_left' rfl, hl, show l ++ per :: r = (l ++ [per]) ++ r by simp, List.take_left' (by simp; omega)]
    clear hD hD' e e' hl
    generalize l ++ [per] = q at h5
    induction h5 with
    | nil => rfl
    | cons h6 _ ih =>
      simp only [List.map_cons, List.cons.injEq]
      exact ⟨by simp only [tokenView, Prod.mk.injEq]; exact h6, ih⟩

/-- The same for a unit that is parsed on its own. -/
theorem C57_unit (cu n : Nat) (s s' : PS DS) (t : UnitTree (Decl Node)) (h : parseUnit u cu n s = .ok (some t) s') :
    ∃ k, PeriodAt k s.ts ∧ ∀ ts tl, Agree k s.ts ts → ∃ s'', parseUnit u cu n ⟨ts, tl, s.cx⟩ = .ok (some t) s'' := by
  obtain ⟨_, hsuf, hg⟩ := C49_unit_partial u cu n s s' t h
  have hper := unit_period hg
  refine ⟨s.ts.length - s'.ts.length + 1, period_of hsuf hper, fun ts tl ha => ?_⟩
  generalize hk : s.ts.length - s'.ts.length + 1 = k at ha
  have hpos : 0 < s'.ts.length := by obtain ⟨_, _, e, _⟩ := hper; rw [e]; simp
  have e : s = PS.ext ⟨s.ts.take k, .hang, s.cx⟩ (s.ts.drop k) s.tail := by
    simp only [PS.ext, List.take_append_drop]
  obtain ⟨s0, _, _, h0⟩ := (Loc.parseUnit cu n).cut (s := ⟨s.ts.take k, .hang, s.cx⟩) rfl (e ▸ h) (by
    simp only [List.length_drop]; omega)
  have hs : SR u (NmR Spell.same) Spell.same.tr Spell.same.tr True (DSR Spell.same) ⟨s.ts.take k, .hang, s.cx⟩ ⟨ts, tl, s.cx⟩ :=
    ⟨strR_view trivial tl (by rw [ha.2, List.map_take]; exact List.take_prefix _ _), rfl⟩
  refine outcome_ok ?_
  rw [← RR.outcome (w := True) (fun t => by rw [Spell.same_tr]; cases t <;> simp [UnitTree.tr_one])
    (PR.parseUnit (Spell.same_good u) cu (Nat.le_refl n) _ _ hs) (by rw [h0]; exact fun h => nomatch h), h0]
  rfl

end

/-! ## Examples -/

/-- the hypotheses of the theorems can be satisfied -/
example : TopoCorrect kahnLib ∧ IterOK asciiUni exIter := ⟨kahnLib_correct, exIter_ok⟩

/-- a program and its unit with text behind their periods -/
def exBehind (x y : Str) : R (PS DS) (ProgramTree (Decl Node)) :=
  exProgram [(r!"p", r!"program P; uses A in 'a'; begin A.x := 1; end." ++ x),
    (r!"a", r!"unit A; interface const x = 1; implementation end." ++ y)]

example : (match exBehind [] [] with
    | .ok t _ => decide (t.units.length = 1) && decide (t.uses.map (fun e => UsesItem.effectivePath '/' e.path) = [r!"a"])
    | _ => false) = true := by krfl

/-- tokens of all kinds, text that is not Pascal, and an unfinished comment -/
example : unitsRead (exBehind r!" unit begin ((" r!" end. { x") = unitsRead (exBehind [] []) := by krfl

/-- the files of this example agree in the tokens up to the periods -/
example : (lex asciiUni r!"unit A; interface const x = 1; implementation end." 400).map (fun r => (r.1.take 12).map tokenView) =
    (lex asciiUni r!"unit A; interface const x = 1; implementation end. end. { x" 400).map (fun r => (r.1.take 12).map tokenView) := by krfl

/-- a text -/
def exDot : Str := r!"program P; begin x := 1; end."
def exDotToks : List Token := ((lex asciiUni exDot 100).map Prod.fst).getD []

/-- Whatever is behind the period of this text: the program is returned. -/
example (y : Str) (hy : y.head? ≠ some '.') (hy' : y.head? ≠ some ')') (ts : List Token) (tl : Tail)
    (h : Delivers asciiUni doubleSymbols (Cursor.new (exDot ++ y)) ts tl) :
    ∃ t s, parseProgramFile asciiUni '/' (fun _ => .tokens ts tl) kahnLib exIter r!"p" 100 = .ok t s ∧ t.ident.name = r!"P" := by
  obtain ⟨tl0, e⟩ : ∃ tl0, lex asciiUni exDot 100 = some (exDotToks, tl0) := ⟨.eof exDot ⟨1, 30, 29⟩, by krfl⟩
  obtain ⟨l, per, e1⟩ : ∃ l per, exDotToks = l ++ [per] := ⟨exDotToks.take 9, (exDotToks[9]?).getD (eofTok [] Pos.new), by krfl⟩
  have e2 : (exDotToks.getLast?).map (fun t => (t.raw, t.stop.index)) = some (r!".", exDot.length) := by krfl
  have h0 := lex_delivers e
  rw [e1] at h0 e2
  simp only [List.getLast?_append, List.getLast?_singleton, Option.some_or, Option.map_some, Option.some.injEq, Prod.mk.injEq] at e2
  obtain ⟨l', ⟨z, hz⟩, h1⟩ := delivers_front (a := exDot) (x := []) (y := y) (List.Perm.refl _) (List.Perm.refl _) hy hy' e2.1 e2.2
    (by rw [List.append_nil]; exact h0) h
  have h2 : (match parseProgramFile asciiUni '/' (fun _ => .tokens exDotToks .hang) kahnLib exIter r!"p" 100 with
    | .ok t _ => decide (t.ident.name = r!"P")
    | _ => false) = true := by krfl
  have h3 := C57_begin asciiUni '/' (fun _ => .tokens exDotToks .hang) (fun _ => .tokens ts tl) kahnLib exIter
    (fun _ => .inr ⟨_, _, _, rfl, rfl, by
      rw [← hz, List.map_append, e1]
      have : (l ++ [per]).map tokenView = l'.map tokenView := by
        generalize l ++ [per] = q at h1
        clear hz
        induction h1 with
        | nil => rfl
        | cons h6 _ ih =>
          simp only [List.map_cons, List.cons.injEq]
          exact ⟨by simp only [tokenView, Prod.mk.injEq]; exact h6, ih⟩
      rw [this]
      exact List.prefix_append _ _⟩) r!"p" 100
  cases hp : parseProgramFile asciiUni '/' (fun _ => .tokens exDotToks .hang) kahnLib exIter r!"p" 100 with
  | ok t s =>
    rw [hp] at h2 h3
    obtain ⟨s', h4⟩ := outcome_ok (h3 (fun h => nomatch h)).symm
    exact ⟨t, s', h4, by simpa using h2⟩
  | err => rw [hp] at h2; cases h2
  | panic => rw [hp] at h2; cases h2
  | wait => rw [hp] at h2; cases h2

/-- The tokens in front of the period matter. -/
example : unitsRead (exBehind r!" " r!" ") = some [(r!"A", [])] ∧
    unitsRead (exProgram [(r!"p", r!"program P; uses A in 'a'; begin A.x := 1; end;"),
      (r!"a", r!"unit A; interface const x = 1; implementation end.")]) = none ∧
    unitsRead (exProgram [(r!"p", r!"program P; uses A in 'a'; begin A.x := 1; end."),
      (r!"a", r!"unit A; interface const x = 1; implementation end;")]) = none := by
  refine ⟨?_, ?_, ?_⟩ <;> krfl

end TP.Props
