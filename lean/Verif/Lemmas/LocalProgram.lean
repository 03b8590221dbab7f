import Verif.Lemmas.LocalGoal
import Verif.Lemmas.SortOne

/-!
# The files of the units cut off

If the parsers of all units end in front of the cuts, the program is the same as without the cuts.
-/

namespace TP
open Spec Props

variable {α β : Type} {u : Uni}

/-- cut in front of a token that is still there in the end -/
theorem Loc.cut {p : P DS α} (h : Loc p) {s : PS DS} (hs : s.tail = .hang) {e : List Token} {tl : Tail} {v : α} {s' : PS DS}
    (hp : p (s.ext e tl) = .ok v s') (he : e.length < s'.ts.length) : ∃ s0, s0.tail = .hang ∧ s' = s0.ext e tl ∧ p s = .ok v s0 := by
  have := h.ends s e tl hs
  cases hq : p s with
  | wait => rw [hq] at this; exact absurd (this _ _ hp).length_le (by omega)
  | err => rw [hq] at this; change _ = _ at this; rw [hp] at this; cases this
  | panic => rw [hq] at this; change _ = _ at this; rw [hp] at this; cases this
  | ok a s0 =>
    rw [hq] at this
    obtain ⟨h1, h2⟩ := this
    rw [hp] at h2
    cases h2
    exact ⟨s0, h1, rfl, rfl⟩

/-- what has been cut off -/
def Loader.ext (D : Str → List Token × Tail) (l : Loader) : Loader := { l with ts := l.ts ++ (D l.path).1, tail := (D l.path).2 }

/-- the parser is in front of the cut -/
def Front (D : Str → List Token × Tail) (l : Loader) : Prop := (D l.path).1.length < l.ts.length

theorem run_shr {l l' : Loader} {p : P DS α} (h : Loc p) {s s' : PS DS} {a : α} (hr : l.run p s = .ok (a, l') s') :
    l'.ts <:+ l.ts ∧ l'.path = l.path := by
  unfold Loader.run at hr
  cases hp : p ⟨l.ts, l.tail, { s.cx with cur := l.cur, pending := l.pending }⟩ <;> rw [hp] at hr <;>
    simp only [R.ok.injEq, reduceCtorEq, Prod.mk.injEq] at hr
  obtain ⟨⟨_, rfl⟩, _⟩ := hr
  exact ⟨h.shr _ _ _ hp, rfl⟩

variable {D : Str → List Token × Tail}

theorem run_cut {l l' : Loader} (hl : l.tail = .hang) {p : P DS α} (h : Loc p) {s s' : PS DS} {a : α}
    (hr : (l.ext D).run p s = .ok (a, l') s') (hf : Front D l') : ∃ l0, l0.tail = .hang ∧ l' = l0.ext D ∧ l.run p s = .ok (a, l0) s' := by
  have hpath := (run_shr h hr).2
  unfold Loader.run at hr ⊢
  change (match p (PS.ext ⟨l.ts, l.tail, { s.cx with cur := l.cur, pending := l.pending }⟩ (D l.path).1 (D l.path).2) with
    | .ok a s' => .ok (a, { l.ext D with ts := s'.ts, tail := s'.tail, cur := s'.cx.cur, pending := s'.cx.pending })
      { s with cx := { s'.cx with cur := s.cx.cur, pending := s.cx.pending } }
    | .err => .err
    | .panic => .panic
    | .wait => .wait : R (PS DS) (α × Loader)) = _ at hr
  cases hp : p (PS.ext ⟨l.ts, l.tail, { s.cx with cur := l.cur, pending := l.pending }⟩ (D l.path).1 (D l.path).2) <;> rw [hp] at hr <;>
    simp only [R.ok.injEq, reduceCtorEq, Prod.mk.injEq] at hr
  obtain ⟨⟨rfl, rfl⟩, rfl⟩ := hr
  rename_i s1
  obtain ⟨s0, h1, h2, h3⟩ := h.cut (s := ⟨l.ts, l.tail, { s.cx with cur := l.cur, pending := l.pending }⟩) hl hp hf
  subst h2
  rw [h3]
  exact ⟨_, h1, rfl, rfl⟩

/-- the files, cut off -/
def Cut (D : Str → List Token × Tail) (files₀ files : Str → FileR) : Prop := ∀ p,
  match files p with
  | .tokens ts tl => ∃ ts₀, files₀ p = .tokens ts₀ .hang ∧ ts = ts₀ ++ (D p).1 ∧ tl = (D p).2
  | r => files₀ p = r

variable {sep : Char} {files files₀ : Str → FileR} {lib : TopoLib} {it : List UParser → List Str}

theorem loadUnit_cut (hF : Cut D files₀ files) {n c : Nat} {path : Str} {s s' : PS DS} {l : Loader}
    (h : loadUnit u files n path c s = .ok l s') (hf : Front D l) :
    ∃ l0, l0.tail = .hang ∧ l = l0.ext D ∧ loadUnit u files₀ n path c s = .ok l0 s' := by
  have hF := hF path
  unfold loadUnit at h ⊢
  cases hp : files path with
  | missing => rw [hp] at h; cases h
  | unreadable => rw [hp] at h; cases h
  | tokens ts tl =>
    rw [hp] at h hF
    obtain ⟨ts₀, e1, e2, e3⟩ := hF
    rw [e1]
    simp only at h ⊢
    obtain ⟨⟨a, l1⟩, s1, h1, h⟩ := ok_of_bind h
    cases h
    have hl : Loc (do
      let _ ← P.cur?
      parseIdentAndUses u n) := by loc
    obtain ⟨l0, g1, g2, g3⟩ := run_cut (D := D) (l := ⟨path, ts₀, .hang, c, [], c, ⟨⟨[], ⟨0, 0, 0⟩, ⟨0, 0, 0⟩⟩, none, 0⟩, [], [], [], ⟨.nil, [], none⟩⟩)
      rfl hl (by rw [e2, e3] at h1; exact h1) (l' := l1) hf
    rw [bind_ok g3]
    exact ⟨{ l0 with head := a.1.1, uses := a.2 }, g1, by rw [g2]; rfl, rfl⟩

theorem loadAll_cut (hF : Cut D files₀ files) {cp n : Nat} : ∀ {cs : List (Str × Nat)} {s s' : PS DS} {ls : List Loader},
    loadAll u files cp n cs s = .ok ls s' → (∀ l ∈ ls, Front D l) →
    ∃ ls0 : List Loader, (∀ l ∈ ls0, l.tail = .hang) ∧ ls = ls0.map (Loader.ext D) ∧ loadAll u files₀ cp n cs s = .ok ls0 s'
  | [], s, s', ls, h, _ => by
    cases h
    exact ⟨[], by simp, rfl, rfl⟩
  | (p, c) :: cs, s, s', ls, h, hf => by
    unfold loadAll at h ⊢
    obtain ⟨l, s1, h1, h⟩ := ok_of_bind h
    obtain ⟨_, s2, h2, h⟩ := ok_of_bind h
    obtain ⟨ls', s3, h3, h⟩ := ok_of_bind h
    cases h
    obtain ⟨l0, g1, g2, g3⟩ := loadUnit_cut hF h1 (hf l (by simp))
    obtain ⟨ls0, k1, k2, k3⟩ := loadAll_cut hF h3 (fun l hl => hf l (by simp [hl]))
    subst g2 k2
    have h2 : stepR (fun k => .ok (k.addUnit cp l0.head.no)) s1 = _ := h2
    rw [bind_ok g3, bind_ok h2, bind_ok k3]
    refine ⟨l0 :: ls0, ?_, rfl, rfl⟩
    intro l hl
    rcases List.mem_cons.1 hl with rfl | hl
    · exact g1
    · exact k1 l hl

/-- nothing is put back -/
def Further (l l' : Loader) : Prop := l'.ts <:+ l.ts ∧ l'.path = l.path

theorem Further.front {l l' : Loader} (h : Further l l') (hf : Front D l') : Front D l := by
  unfold Front at *
  rw [h.2] at hf
  exact Nat.lt_of_lt_of_le hf h.1.length_le

theorem further_set : ∀ {ls ls' : List Loader} {i : Nat} {l l1 : Loader}, ls[i]? = some l → Further l l1 →
    List.Forall₂ Further (ls.set i l1) ls' → List.Forall₂ Further ls ls'
  | _ :: ls, _, 0, l, l1, hl, h, h' => by
    cases hl
    cases h' with
    | cons h1 h2 => exact .cons ⟨h1.1.trans h.1, h1.2.trans h.2⟩ h2
  | _ :: ls, _, i + 1, l, l1, hl, h, h' => by
    cases h' with
    | cons h1 h2 => exact .cons h1 (further_set (i := i) hl h h2)

theorem intfAll_further {n : Nat} : ∀ {is : List Nat} {ls ls' : List Loader} {s s' : PS DS}, intfAll u n is ls s = .ok ls' s' →
    List.Forall₂ Further ls ls'
  | [], ls, ls', s, s', h => by
    cases h
    exact List.forall₂_same.2 fun l _ => ⟨List.suffix_refl _, rfl⟩
  | i :: is, ls, ls', s, s', h => by
    unfold intfAll at h
    cases hl : ls[i]? with
    | none => rw [hl] at h; exact intfAll_further h
    | some l =>
      rw [hl] at h
      obtain ⟨⟨a, l1⟩, s1, h1, h⟩ := ok_of_bind h
      have ih := intfAll_further h
      have g := run_shr (Loc.processIntf _ _ _ _) h1
      exact further_set (l1 := { l1 with intf := a }) hl g ih

theorem implAll_further {n : Nat} : ∀ {is : List Nat} {ls ls' : List Loader} {s s' : PS DS}, implAll u n is ls s = .ok ls' s' →
    List.Forall₂ Further ls ls'
  | [], ls, ls', s, s', h => by
    cases h
    exact List.forall₂_same.2 fun l _ => ⟨List.suffix_refl _, rfl⟩
  | i :: is, ls, ls', s, s', h => by
    unfold implAll at h
    cases hl : ls[i]? with
    | none => rw [hl] at h; exact implAll_further h
    | some l =>
      rw [hl] at h
      obtain ⟨⟨a, l1⟩, s1, h1, h⟩ := ok_of_bind h
      have ih := implAll_further h
      have g := run_shr (Loc.processImpl _ _ _) h1
      exact further_set (l1 := { l1 with implUses := a.1, body := a.2 }) hl g ih

theorem fronts {ls ls' : List Loader} (h : List.Forall₂ Further ls ls') (hf : ∀ l ∈ ls', Front D l) : ∀ l ∈ ls, Front D l := by
  induction h with
  | nil => simp
  | cons h _ ih =>
    intro l hl
    rcases List.mem_cons.1 hl with rfl | hl
    · exact h.front (hf _ (by simp))
    · exact ih (fun l hl => hf l (by simp [hl])) l hl

theorem hangs_set {ls : List Loader} {i : Nat} {l : Loader} (h : ∀ l ∈ ls, l.tail = .hang) (hl : l.tail = .hang) :
    ∀ l' ∈ ls.set i l, l'.tail = .hang := by
  intro l' hm
  rcases List.mem_or_eq_of_mem_set hm with h' | rfl
  · exact h l' h'
  · exact hl

theorem intfAll_cut {n : Nat} : ∀ {is : List Nat} {ls ls' : List Loader} {s s' : PS DS}, (∀ l ∈ ls, l.tail = .hang) →
    intfAll u n is (ls.map (Loader.ext D)) s = .ok ls' s' → (∀ l ∈ ls', Front D l) →
    ∃ ls0 : List Loader, (∀ l ∈ ls0, l.tail = .hang) ∧ ls' = ls0.map (Loader.ext D) ∧ intfAll u n is ls s = .ok ls0 s'
  | [], ls, ls', s, s', hh, h, _ => by
    cases h
    exact ⟨ls, hh, rfl, rfl⟩
  | i :: is, ls, ls', s, s', hh, h, hf => by
    unfold intfAll at h ⊢
    rw [List.getElem?_map] at h
    cases hl : ls[i]? with
    | none => rw [hl] at h; exact intfAll_cut hh h hf
    | some l =>
      rw [hl] at h
      simp only [Option.map_some] at h
      obtain ⟨⟨a, l1⟩, s1, h1, h⟩ := ok_of_bind h
      have hi : i < ls.length := by
        by_contra hc
        rw [List.getElem?_eq_none (by omega)] at hl
        cases hl
      have hfr := fronts (intfAll_further h) hf _ (List.mem_set (by simpa using hi) _)
      obtain ⟨l0, g1, g2, g3⟩ := run_cut (hh l (List.mem_of_getElem? hl)) (Loc.processIntf _ _ _ _) h1 hfr
      subst g2
      have h : intfAll u n is ((ls.set i { l0 with intf := a }).map (Loader.ext D)) s1 = .ok ls' s' := by
        rw [List.map_set]
        exact h
      obtain ⟨ls0, k1, k2, k3⟩ := intfAll_cut (hangs_set hh (l := { l0 with intf := a }) g1) h hf
      have g3 : l.run (processIntf u l.cu l.head l.uses n) s = _ := g3
      simp only
      rw [bind_ok g3]
      exact ⟨ls0, k1, k2, k3⟩

theorem implAll_cut {n : Nat} : ∀ {is : List Nat} {ls ls' : List Loader} {s s' : PS DS}, (∀ l ∈ ls, l.tail = .hang) →
    implAll u n is (ls.map (Loader.ext D)) s = .ok ls' s' → (∀ l ∈ ls', Front D l) →
    ∃ ls0 : List Loader, (∀ l ∈ ls0, l.tail = .hang) ∧ ls' = ls0.map (Loader.ext D) ∧ implAll u n is ls s = .ok ls0 s'
  | [], ls, ls', s, s', hh, h, _ => by
    cases h
    exact ⟨ls, hh, rfl, rfl⟩
  | i :: is, ls, ls', s, s', hh, h, hf => by
    unfold implAll at h ⊢
    rw [List.getElem?_map] at h
    cases hl : ls[i]? with
    | none => rw [hl] at h; exact implAll_cut hh h hf
    | some l =>
      rw [hl] at h
      simp only [Option.map_some] at h
      obtain ⟨⟨a, l1⟩, s1, h1, h⟩ := ok_of_bind h
      have hi : i < ls.length := by
        by_contra hc
        rw [List.getElem?_eq_none (by omega)] at hl
        cases hl
      have hfr := fronts (implAll_further h) hf _ (List.mem_set (by simpa using hi) _)
      obtain ⟨l0, g1, g2, g3⟩ := run_cut (hh l (List.mem_of_getElem? hl)) (Loc.processImpl _ _ _) h1 hfr
      subst g2
      have h : implAll u n is ((ls.set i { l0 with implUses := a.1, body := a.2 }).map (Loader.ext D)) s1 = .ok ls' s' := by
        rw [List.map_set]
        exact h
      obtain ⟨ls0, k1, k2, k3⟩ := implAll_cut (hangs_set hh (l := { l0 with implUses := a.1, body := a.2 }) g1) h hf
      have g3 : l.run (processImpl u l.cu l.head.no n) s = _ := g3
      simp only
      rw [bind_ok g3]
      exact ⟨ls0, k1, k2, k3⟩

theorem uparsers_ext (ls : List Loader) : uparsers (ls.map (Loader.ext D)) = uparsers ls := by
  unfold uparsers
  rw [List.zipIdx_map, List.map_map]
  rfl

theorem loadUnits_cut (hF : Cut D files₀ files) {cp n : Nat} {i : Ident} {es : List UsesEntry} {s s' : PS DS} {ls : List Loader}
    (h : loadUnits u sep files lib it cp i es n s = .ok ls s') (hf : ∀ l ∈ ls, Front D l) :
    ∃ ls0 : List Loader, ls = ls0.map (Loader.ext D) ∧ loadUnits u sep files₀ lib it cp i es n s = .ok ls0 s' := by
  unfold loadUnits at h ⊢
  obtain ⟨cs, s1, h1, h⟩ := ok_of_bind h
  obtain ⟨ls1, s2, h2, h⟩ := ok_of_bind h
  rw [bind_ok h1]
  cases hs : UnitParsers.sort u lib (it (uparsers ls1)) (uparsers ls1) with
  | none => rw [hs] at h; cases h
  | some r =>
    rw [hs] at h
    simp only at h
    obtain ⟨ls2, s3, h3, h⟩ := ok_of_bind h
    obtain ⟨ls3, s4, h4, h⟩ := ok_of_bind h
    obtain ⟨_, s5, h5, h⟩ := ok_of_bind h
    cases h
    have f2 := fronts (implAll_further h4) hf
    have f1 := fronts (intfAll_further h3) f2
    obtain ⟨k1, a1, rfl, c1⟩ := loadAll_cut hF h2 f1
    obtain ⟨k2, a2, rfl, c2⟩ := intfAll_cut a1 h3 f2
    obtain ⟨k3, a3, rfl, c3⟩ := implAll_cut a2 h4 hf
    rw [uparsers_ext] at hs
    rw [bind_ok c1, hs]
    simp only
    rw [bind_ok c2, bind_ok c3]
    have h5 : enterP u cp i es (k3.map Loader.head) s4 = .ok () s' := by
      rw [List.map_map] at h5
      exact h5
    rw [bind_ok h5]
    exact ⟨k3, rfl, rfl⟩

/-- the tokens that are left are in the file -/
def Within (files : Str → FileR) (l : Loader) : Prop := ∃ ts tl, files l.path = .tokens ts tl ∧ l.ts <:+ ts

theorem loadUnit_within {n c : Nat} {path : Str} {s s' : PS DS} {l : Loader} (h : loadUnit u files n path c s = .ok l s') : Within files l := by
  unfold loadUnit at h
  cases hp : files path with
  | missing => rw [hp] at h; cases h
  | unreadable => rw [hp] at h; cases h
  | tokens ts tl =>
    rw [hp] at h
    simp only at h
    obtain ⟨⟨a, l1⟩, s1, h1, h⟩ := ok_of_bind h
    cases h
    have hl : Loc (do
      let _ ← P.cur?
      parseIdentAndUses u n) := by loc
    obtain ⟨g1, g2⟩ := run_shr hl h1
    exact ⟨ts, tl, by change files l1.path = _; rw [g2]; exact hp, g1⟩

theorem loadAll_within {cp n : Nat} : ∀ {cs : List (Str × Nat)} {s s' : PS DS} {ls : List Loader},
    loadAll u files cp n cs s = .ok ls s' → ∀ l ∈ ls, Within files l
  | [], s, s', ls, h => by cases h; simp
  | (p, c) :: cs, s, s', ls, h => by
    unfold loadAll at h
    obtain ⟨l, s1, h1, h⟩ := ok_of_bind h
    obtain ⟨_, s2, h2, h⟩ := ok_of_bind h
    obtain ⟨ls', s3, h3, h⟩ := ok_of_bind h
    cases h
    intro l' hl
    rcases List.mem_cons.1 hl with rfl | hl
    · exact loadUnit_within h1
    · exact loadAll_within h3 l' hl

theorem withins {ls ls' : List Loader} (h : List.Forall₂ Further ls ls') (hf : ∀ l ∈ ls, Within files l) : ∀ l ∈ ls', Within files l := by
  induction h with
  | nil => simp
  | cons h _ ih =>
    intro l hl
    rcases List.mem_cons.1 hl with rfl | hl
    · obtain ⟨ts, tl, h1, h2⟩ := hf _ (List.mem_cons_self ..)
      exact ⟨ts, tl, by rw [h.2]; exact h1, h.1.trans h2⟩
    · exact ih (fun l hl => hf l (by simp [hl])) l hl

theorem loadUnits_within {cp n : Nat} {i : Ident} {es : List UsesEntry} {s s' : PS DS} {ls : List Loader}
    (h : loadUnits u sep files lib it cp i es n s = .ok ls s') : ∀ l ∈ ls, Within files l := by
  unfold loadUnits at h
  obtain ⟨cs, s1, h1, h⟩ := ok_of_bind h
  obtain ⟨ls1, s2, h2, h⟩ := ok_of_bind h
  cases hs : UnitParsers.sort u lib (it (uparsers ls1)) (uparsers ls1) with
  | none => rw [hs] at h; cases h
  | some r =>
    rw [hs] at h
    simp only at h
    obtain ⟨ls2, s3, h3, h⟩ := ok_of_bind h
    obtain ⟨ls3, s4, h4, h⟩ := ok_of_bind h
    obtain ⟨_, s5, h5, h⟩ := ok_of_bind h
    cases h
    exact withins (implAll_further h4) (withins (intfAll_further h3) (loadAll_within h2))

/-- the parsers of the units at the end of the parse of a program -/
def Loaded (u : Uni) (sep : Char) (files : Str → FileR) (lib : TopoLib) (it : List UParser → List Str) (n : Nat) (ls : List Loader) (t : ProgramTree (Decl Node)) : Prop :=
  t.units = ls.map Loader.tree ∧ ((ls = [] ∧ t.uses = []) ∨ ∃ cp i s s', loadUnits u sep files lib it cp i t.uses n s = .ok ls s')

theorem program_cut {path : Str} {n : Nat} {t : ProgramTree (Decl Node)} {s' : PS DS} (h : parseProgramFile u sep files lib it path n = .ok t s') :
    ∃ ls ts tl, files path = .tokens ts tl ∧ s'.ts <:+ ts ∧ Loaded u sep files lib it n ls t ∧
      ∀ (D : Str → List Token × Tail) (files₀ : Str → FileR), Cut D files₀ files → (∀ l ∈ ls, Front D l) → (D path).1.length < s'.ts.length →
        ∃ s0, parseProgramFile u sep files₀ lib it path n = .ok t s0 := by
  unfold parseProgramFile at h ⊢
  cases e : files path with
  | missing => rw [e] at h; cases h
  | unreadable => rw [e] at h; cases h
  | tokens ts tl =>
    rw [e] at h
    simp only at h ⊢
    have hl : ∀ files₀, Loc (do
      let _ ← P.cur?
      parseProgram u sep files₀ lib it 0 n) := fun files₀ => by loc
    have hsuf := (hl files).shr _ _ _ h
    obtain ⟨a0, s0, h0, h⟩ := ok_of_bind h
    unfold parseProgram at h
    obtain ⟨a1, s1, h1, h⟩ := ok_of_bind h
    obtain ⟨a2, s2, h2, h⟩ := ok_of_bind h
    obtain ⟨a3, s3, h3, h⟩ := ok_of_bind h
    obtain ⟨a4, s4, h4, h⟩ := ok_of_bind h
    obtain ⟨us, s5, h5, h⟩ := ok_of_bind h
    obtain ⟨b, s6, h6, h⟩ := ok_of_bind h
    obtain ⟨c, s7, h7, h⟩ := ok_of_bind h
    cases h
    obtain ⟨ls, k1, k2⟩ : ∃ ls, Loaded u sep files lib it n ls ⟨Ident.ofTok a2, us.1, us.2, b⟩ ∧
        ∀ (D : Str → List Token × Tail) (files₀ : Str → FileR), Cut D files₀ files → (∀ l ∈ ls, Front D l) →
          parseProgramUses u sep files₀ lib it 0 (Ident.ofTok a2) n s4 = .ok us s5 := by
      unfold parseProgramUses at h5
      obtain ⟨c, s8, h8, h5⟩ := ok_of_bind h5
      cases c with
      | false =>
        cases h5
        refine ⟨[], ⟨rfl, .inl ⟨rfl, rfl⟩⟩, fun D files₀ _ _ => ?_⟩
        unfold parseProgramUses
        rw [bind_ok h8]
        rfl
      | true =>
        simp only [if_true] at h5
        obtain ⟨es, s9, h9, h5⟩ := ok_of_bind h5
        obtain ⟨_, s10, h10, h5⟩ := ok_of_bind h5
        obtain ⟨ls, s11, h11, h5⟩ := ok_of_bind h5
        cases h5
        refine ⟨ls, ⟨rfl, .inr ⟨_, _, _, _, h11⟩⟩, fun D files₀ hF hf => ?_⟩
        obtain ⟨ls0, rfl, g⟩ := loadUnits_cut hF h11 hf
        unfold parseProgramUses
        rw [bind_ok h8]
        simp only [if_true]
        rw [bind_ok h9, bind_ok h10, bind_ok g, List.map_map]
        rfl
    refine ⟨ls, ts, tl, rfl, hsuf, k1, fun D files₀ hF hf hD => ?_⟩
    have k2 := k2 D files₀ hF hf
    have full : (do
        let _ ← P.cur?
        parseProgram u sep files₀ lib it 0 n : P DS _) ⟨ts, tl, DS.init path⟩ = .ok ⟨Ident.ofTok a2, us.1, us.2, b⟩ s' := by
      rw [bind_ok h0]
      unfold parseProgram
      rw [bind_ok h1, bind_ok h2, bind_ok h3, bind_ok h4, bind_ok k2, bind_ok h6, bind_ok h7]
      rfl
    have hF := hF path
    rw [e] at hF
    obtain ⟨ts₀, e1, rfl, rfl⟩ := hF
    rw [e1]
    obtain ⟨s0, -, -, g⟩ := (hl files₀).cut (s := ⟨ts₀, .hang, DS.init path⟩) rfl full hD
    exact ⟨s0, g⟩

end TP
