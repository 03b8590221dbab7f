import Verif.Spec.SameText
import Verif.Lemmas.TrId
import Verif.Lemmas.CaseLex
import Verif.Lemmas.Kinds
import Verif.Props.C07

/-!
# Texts that differ only in layout and case are related
-/

namespace TP
open Cursor Spec Props

theorem asciiUp_same (a : Str) : SameName (a.map asciiUp) a := by
  unfold SameName
  rw [List.map_map]
  congr 1
  funext a
  rcases asciiUp_cases a with ⟨h, _⟩ | ⟨h1, h2, h3⟩
  · simp [h]
  · rcases asciiUp_cases (asciiUp a) with ⟨h, _⟩ | ⟨h4, h5, h6⟩
    · exact h
    · omega

theorem Spell.caseless_good (u : Uni) : Spell.caseless.Good u :=
  ⟨fun a => (asciiUp_same a).lower u, fun a => (asciiUp_same a).upper u, rfl, rfl⟩

theorem Spell.plain_good (u : Uni) : Spell.plain.Good u :=
  ⟨fun a => (asciiUp_same a).lower u, fun a => (asciiUp_same a).upper u, rfl, rfl⟩

/-- The words among the tokens of a text. -/
theorem run_words {u : Uni} {o : List (Char × Char)} (ho : IsOrder o) {fl : Flags} {c c' : Cursor} {ts : List Token}
    (h : Run u o fl c ts c') : Reachable c → ∀ t ∈ ts, t.typ = .ident ∨ t.typ = .reserved →
    (∃ a w, t.raw = a :: w ∧ wordHead u a = true) ∧ t.typ = if u.toUpper t.raw ∈ keywords then .reserved else .ident := by
  induction h with
  | nil => intro _ t h; cases h
  | cons hg _ ih =>
    intro hc t ht hw
    rcases List.mem_cons.1 ht with rfl | ht
    · obtain ⟨⟨a, w, h1, h2, _⟩, _, h3⟩ := C07_word_conv u o ho _ _ _ hc t hg hw
      exact ⟨⟨a, w, h1, h2⟩, h3⟩
    · exact ih (gets_reachable ho hc hg) t ht hw

theorem delivers_words {u : Uni} {o : List (Char × Char)} (ho : IsOrder o) {x : Str} {ts : List Token} {tl : Tail}
    (h : Delivers u o (Cursor.new x) ts tl) (t : Token) (ht : t ∈ ts) (hw : t.typ = .ident ∨ t.typ = .reserved) :
    (∃ a w, t.raw = a :: w ∧ wordHead u a = true) ∧ t.typ = if u.toUpper t.raw ∈ keywords then .reserved else .ident := by
  obtain ⟨_, c', h1, _⟩ := h
  exact run_words ho h1 (.new x) t ht hw

theorem toUpper_ascii (u : Uni) {s : Str} (h : ∀ a ∈ s, a.toNat < 128) : u.toUpper s = s.map asciiUp := by
  unfold Uni.toUpper
  exact List.map_congr_left fun a ha => u.up_ascii a (h a ha)

/-- An identifier is never one of the texts the parser looks for. -/
theorem ident_not_fixed {u : Uni} {a : Char} {w s : Str} (h1 : s = a :: w) (h2 : wordHead u a = true) (h3 : u.toUpper s ∉ keywords)
    {c : Str} (hc : Fixed c) : s ≠ c := by
  rintro rfl
  rcases hc with hc | hc
  · have k1 : ∀ x ∈ reservedWords, x ∈ keywords ∧ (∀ a ∈ x, a.toNat < 128) ∧ x.map asciiUp = x := by decide
    obtain ⟨k2, k3, k4⟩ := k1 s hc
    rw [toUpper_ascii u k3, k4] at h3
    exact h3 k2
  · have k1 : ∀ x ∈ ([r!":=", r!"..", r!"@", r!"[", r!"(", r!".", r!"^"] : List Str), ∃ a w, x = a :: w ∧ a ∈ nonWordRunes := by
      intro x hx
      have : ∀ x ∈ ([r!":=", r!"..", r!"@", r!"[", r!"(", r!".", r!"^"] : List Str), x.head?.any (fun a => nonWordRunes.contains a) = true := by
        decide
      have := this x hx
      cases x with
      | nil => cases this
      | cons a w => exact ⟨a, w, rfl, List.contains_iff_mem.mp this⟩
    obtain ⟨b, v, k2, k3⟩ := k1 s hc
    rw [h1] at k2
    cases k2
    rw [wordHead_false k3] at h2
    cases h2

/-- the spelling changes at most the case of words and positions -/
structure Spec.Spell.Words (c : Spell) : Prop where
  nm : ∀ a b, SameName a b → c.nm a = c.nm b
  str : ∀ a b, SameName a b → a.head? ≠ some '\'' → a.head? ≠ some '#' → c.str a = c.str b

theorem caseless_words : Spell.caseless.Words where
  nm a b h := h
  str a b h h1 h2 := by
    have g1 : b.head? ≠ some '\'' := fun g => h1 ((head_asciiUp (by decide) a).1 (by rw [h]; exact (head_asciiUp (by decide) b).2 g))
    have g2 : b.head? ≠ some '#' := fun g => h2 ((head_asciiUp (by decide) a).1 (by rw [h]; exact (head_asciiUp (by decide) b).2 g))
    simp only [Spell.caseless, h1, h2, g1, g2, or_self, if_false]
    exact h

theorem plain_words : Spell.plain.Words := ⟨caseless_words.nm, caseless_words.str⟩

theorem wordHead_quote {u : Uni} : ¬ wordHead u '\'' = true := by rw [wordHead_false (by decide)]; simp
theorem wordHead_hash {u : Uni} : ¬ wordHead u '#' = true := by rw [wordHead_false (by decide)]; simp

/-- Tokens of texts that are the same up to case and position are related. -/
theorem SameToken.rel {u : Uni} {c : Spell} (W : c.Words) {o o' : List (Char × Char)} (ho : IsOrder o) (ho' : IsOrder o')
    {x y : Str} {ts ts' : List Token} {tl tl' : Tail} (hx : Delivers u o (Cursor.new x) ts tl) (hy : Delivers u o' (Cursor.new y) ts' tl')
    {a b : Token} (ha : a ∈ ts) (hb : b ∈ ts') (h : SameToken a b) (hp : c.pos a.start = c.pos b.start ∧ c.pos a.stop = c.pos b.stop) :
    TokR u (NmR c) c.tr c.tr a b := by
  obtain ⟨h1, h2⟩ := h
  have hid : c.nm a.raw = c.nm b.raw → c.tr.id (Ident.ofTok a) = c.tr.id (Ident.ofTok b) := by
    intro h
    show Ident.mk _ _ _ = Ident.mk _ _ _
    rw [show c.nm (Ident.ofTok a).name = c.nm (Ident.ofTok b).name from h, show c.pos (Ident.ofTok a).start = c.pos (Ident.ofTok b).start from hp.1,
      show c.pos (Ident.ofTok a).stop = c.pos (Ident.ofTok b).stop from hp.2]
  rcases h2 with h2 | ⟨hw, h2⟩
  · have hv : a.value u = b.value u := by unfold Token.value; rw [h1, h2]
    exact ⟨h1, fun c _ => by rw [hv], by rw [h2], by rw [h2], fun _ => h2, fun _ => h2, hid (by rw [h2]), by rw [hv], by rw [h2]; rfl,
      by rw [hv]; rfl⟩
  · obtain ⟨⟨p, w, a1, a2⟩, a3⟩ := delivers_words ho hx a ha hw
    obtain ⟨⟨q, v, b1, b2⟩, b3⟩ := delivers_words ho' hy b hb (by rw [← h1]; exact hw)
    have hup := SameName.upper u h2
    have hns : a.typ ≠ .symbol ∧ a.typ ≠ .charString := by rcases hw with e | e <;> rw [e] <;> exact ⟨by simp, by simp⟩
    rcases hw with hw | hw
    · have hva : a.value u = a.raw := by unfold Token.value; rw [hw]
      have hvb : b.value u = b.raw := by unfold Token.value; rw [← h1, hw]
      have ka : u.toUpper a.raw ∉ keywords := by intro k; rw [if_pos k, hw] at a3; cases a3
      have kb : u.toUpper b.raw ∉ keywords := by intro k; rw [if_pos k, ← h1, hw] at b3; cases b3
      have hn := W.nm _ _ h2
      refine ⟨h1, fun c hc => ?_, hup, SameName.lower u h2, fun h => absurd h hns.1, fun h => absurd h hns.2, hid hn, ?_, hn, ?_⟩
      · rw [hva, hvb]
        exact ⟨fun h => absurd h (ident_not_fixed a1 a2 ka hc), fun h => absurd h (ident_not_fixed b1 b2 kb hc)⟩
      · show c.str _ = c.str _
        rw [hva, hvb]
        refine W.str _ _ h2 ?_ ?_
        · rw [a1]; intro h; cases h; exact wordHead_quote a2
        · rw [a1]; intro h; cases h; exact wordHead_hash a2
      · rw [hva, hvb]; exact hn
    · have hv : a.value u = b.value u := by unfold Token.value; rw [← h1, hw]; exact hup
      have hn := W.nm _ _ h2
      exact ⟨h1, fun c _ => by rw [hv], hup, SameName.lower u h2, fun h => absurd h hns.1, fun h => absurd h hns.2, hid hn, by rw [hv], hn,
        by rw [hv]; rfl⟩

theorem eofTok_raw (x : Str) (p : Pos) : (eofTok x p).raw = [] := by
  unfold Token.raw eofTok
  apply List.drop_eq_nil_of_le
  exact List.length_take_le _ _

theorem eof_rel {u : Uni} {c : Spell} {x y : Str} {p q : Pos} (hp : c.pos p = c.pos q) :
    TokR u (NmR c) c.tr c.tr (eofTok x p) (eofTok y q) := by
  have h : (eofTok x p).raw = (eofTok y q).raw := by rw [eofTok_raw, eofTok_raw]
  have hv : (eofTok x p).value u = (eofTok y q).value u := by unfold Token.value; exact h
  refine ⟨rfl, fun c _ => by rw [hv], by rw [h], by rw [h], fun _ => h, fun _ => h, ?_, by rw [hv], by rw [h]; rfl, by rw [hv]; rfl⟩
  show Ident.mk _ _ _ = Ident.mk _ _ _
  rw [show (Ident.ofTok (eofTok x p)).name = (Ident.ofTok (eofTok y q)).name from h,
    show c.pos (Ident.ofTok (eofTok x p)).start = c.pos (Ident.ofTok (eofTok y q)).start from hp,
    show c.pos (Ident.ofTok (eofTok x p)).stop = c.pos (Ident.ofTok (eofTok y q)).stop from hp]

theorem forall₂_mem {α β : Type} {A B : α → β → Prop} {l : List α} {m : List β} (h : List.Forall₂ A l m)
    (hB : ∀ a ∈ l, ∀ b ∈ m, A a b → B a b) : List.Forall₂ B l m := by
  induction h with
  | nil => exact .nil
  | cons h _ ih =>
    exact .cons (hB _ (List.mem_cons_self ..) _ (List.mem_cons_self ..) h)
      (ih fun a ha b hb => hB a (List.mem_cons_of_mem _ ha) b (List.mem_cons_of_mem _ hb))

theorem SameFile.rel {u : Uni} {w : Prop} {f g : FileR} (h : SameFile u f g) : FileRR u Spell.plain w f g := by
  cases h with
  | missing => exact trivial
  | unreadable => exact trivial
  | tokens ho ho' hx hy hts htl =>
    refine StrR.of (forall₂_mem hts fun a ha b hb h => SameToken.rel plain_words ho ho' hx hy ha hb h ⟨rfl, rfl⟩) ?_
    rename_i tl tl'
    cases tl <;> cases tl' <;> first | exact htl.elim | exact trivial | exact eof_rel rfl

theorem lits_eq {ts ts' : List Token} (h : List.Forall₂ TokCase ts ts')
    (hl : (ts.filter fun t => t.typ == .charString).map Token.raw = (ts'.filter fun t => t.typ == .charString).map Token.raw) :
    List.Forall₂ (fun a b => TokCase a b ∧ (a.typ = .charString → a.raw = b.raw)) ts ts' := by
  induction h with
  | nil => exact .nil
  | cons h _ ih =>
    rename_i a b l l' _
    simp only [List.filter_cons, ← h.typ] at hl
    by_cases he : a.typ = .charString
    · simp only [he, beq_self_eq_true, if_true, List.map_cons, List.cons.injEq] at hl
      exact .cons ⟨h, fun _ => hl.1⟩ (ih hl.2)
    · simp only [beq_iff_eq, he, if_false] at hl
      exact .cons ⟨h, fun h => absurd h he⟩ (ih hl)

/-- the rune is not an ASCII letter -/
def NoWord (x : Char) : Prop := ¬ (65 ≤ x.toNat ∧ x.toNat ≤ 90) ∧ ¬ (97 ≤ x.toNat ∧ x.toNat ≤ 122)

instance (x : Char) : Decidable (NoWord x) := inferInstanceAs (Decidable (_ ∧ _))

theorem digit_other {x : Char} (h : digit x = true) : NoWord x := by
  have := digit_range h
  unfold NoWord; omega

theorem digits_other {s : Str} {x : Char} (h : x ∈ digits s) : NoWord x :=
  digit_other (List.all_eq_true.mp (List.all_takeWhile (p := digit) (l := s)) x h)

theorem take_digits (s : Str) : ∀ x ∈ s.take (digits s).length, NoWord x := by
  intro x hx
  have h : s.take (digits s).length = digits s := (List.prefix_iff_eq_take.mp (List.takeWhile_prefix (l := s) digit)).symm
  rw [h] at hx
  exact digits_other hx

theorem numTail_runes (s : Str) : ∀ x ∈ s.take (numTail s).2, NoWord x := by
  rw [numTail_of (s := s) rfl]
  split
  · rename_i h
    split
    · exact take_digits s
    · intro x hx
      have e : s = digits s ++ afterDigits s := (List.takeWhile_append_dropWhile (p := digit) (l := s)).symm
      cases hr : afterDigits s with
      | nil => rw [hr] at h; cases h
      | cons a r =>
        rw [hr] at h e hx
        have ha : a = '.' := by cases h; rfl
        simp only [List.tail_cons] at hx
        generalize hd : digits s = d at e hx
        rw [e, Nat.add_assoc, List.take_append, List.take_of_length_le (by omega), Nat.add_sub_cancel_left, Nat.add_comm, List.take_succ_cons] at hx
        rcases List.mem_append.1 hx with hx | hx
        · exact digits_other (hd ▸ hx)
        · rcases List.mem_cons.1 hx with rfl | hx
          · rw [ha]; decide
          · exact take_digits r x hx
  · exact take_digits s

theorem lexOne_others {u : Uni} {s : Str} {ty : TType} {n : Nat} (h : lexOne u s = .tok ty n) (h1 : ty ≠ .ident) (h2 : ty ≠ .reserved)
    (h3 : ty ≠ .charString) (h4 : ty ≠ .space) (h5 : ty ≠ .comment) : ∀ x ∈ s.take n, NoWord x := by
  intro x hx
  cases ty <;> obtain ⟨a, r, rfl, _, h12⟩ := lexOne_kind h <;> simp only at h12
  · exact absurd rfl h4
  · exact absurd rfl h5
  · obtain ⟨_, _, _, ha, ⟨hp, rfl⟩ | ⟨_, rfl⟩⟩ := h12
    · have k1 : ∀ x ∈ symbolPairs, NoWord x.1 ∧ NoWord x.2 := by decide
      cases r with
      | nil => cases hp
      | cons b r =>
        have := k1 (a, b) (List.contains_iff_mem.mp hp)
        simp only [List.take_succ_cons, List.take_zero, List.mem_cons, List.not_mem_nil, or_false] at hx
        rcases hx with rfl | rfl
        · exact this.1
        · exact this.2
    · have k1 : ∀ x ∈ symbolRunes, NoWord x := by decide
      simp only [List.take_succ_cons, List.take_zero, List.mem_cons, List.not_mem_nil, or_false] at hx
      rw [hx]; exact k1 a ha
  · exact absurd rfl h1
  · exact absurd rfl h2
  case charString => exact absurd rfl h3
  all_goals
    obtain ⟨hn, _, rfl⟩ := h12
    rw [Nat.add_comm, List.take_succ_cons] at hx
    rcases List.mem_cons.1 hx with rfl | hx
    · rcases startsNumeral_head hn with h | h
      · exact digit_other h
      · rw [h]; decide
    · exact numTail_runes r x hx

/-- Tokens that are neither words nor string literals contain no letters. -/
theorem run_others {u : Uni} {o : List (Char × Char)} (ho : IsOrder o) {c c' : Cursor} {ts : List Token}
    (h : Run u o Flags.none c ts c') : Reachable c → ∀ t ∈ ts, t.typ ≠ .ident → t.typ ≠ .reserved → t.typ ≠ .charString →
    ∀ x ∈ t.raw, NoWord x := by
  induction h with
  | nil => intro _ t h; cases h
  | cons hg _ ih =>
    intro hc t ht h1 h2 h3
    rcases List.mem_cons.1 ht with rfl | ht
    · obtain ⟨hs, ⟨h4, h5, _⟩ | ⟨j, k, h4, h5, h6, h7, h8, h9, h10⟩⟩ := gets_tok ho hc.wf hg
      · intro x hx
        unfold Token.raw at hx
        rw [h5, List.drop_eq_nil_of_le (List.length_take_le _ _)] at hx
        cases hx
      · rw [h10, ← adv_rest]
        refine lexOne_others h7 h1 h2 h3 (fun e => ?_) (fun e => ?_) <;> rw [e] at hs <;> cases hs
    · exact ih (gets_reachable ho hc hg) t ht h1 h2 h3

theorem other_eq {a b : Str} (h : SameName a b) (ha : ∀ x ∈ a, NoWord x) : a = b := by
  unfold SameName at h
  induction a generalizing b with
  | nil => cases b with
    | nil => rfl
    | cons y b => simp at h
  | cons x a ih => cases b with
    | nil => simp at h
    | cons y b =>
      simp only [List.map_cons, List.cons.injEq] at h
      have hx := ha x (List.mem_cons_self ..)
      have e : asciiUp x = x := (asciiUp_other (a := x) hx).2 rfl
      rw [e] at h
      have := (asciiUp_other (a := y) hx).1 h.1.symm
      rw [this, ih h.2 (fun z hz => ha z (List.mem_cons_of_mem _ hz))]

theorem SameCase.rel {u : Uni} {w : Prop} {f g : FileR} (h : SameCase u f g) : FileRR u Spell.caseless w f g := by
  cases h with
  | missing => exact trivial
  | unreadable => exact trivial
  | tokens ho ho' hx hy h hl =>
    obtain ⟨h1, h2⟩ := delivers_case ho ho' h hx hy
    refine StrR.of (forall₂_mem (lits_eq h1 hl) fun a ha b hb h => SameToken.rel caseless_words ho ho' hx hy ha hb
      ⟨h.1.typ, ?_⟩ ⟨h.1.start, h.1.stop⟩) ?_
    · by_cases hw : a.typ = .ident ∨ a.typ = .reserved
      · exact .inr ⟨hw, h.1.raw⟩
      · left
        by_cases hc : a.typ = .charString
        · exact h.2 hc
        · obtain ⟨_, c', hr, _⟩ := hx
          exact other_eq h.1.raw (run_others ho hr (.new _) a ha (fun e => hw (.inl e)) (fun e => hw (.inr e)) hc)
    · rename_i tl tl'
      cases tl <;> cases tl' <;> first | exact h2.elim | exact trivial | exact eof_rel h2.2

/-! ## Results -/

theorem names_sp {u : Uni} {c : Spell} (G : c.Good u) (m : List UParser) :
    UnitParsers.unitNames u (m.map (UParser.sp c)) = UnitParsers.unitNames u m := by
  unfold UnitParsers.unitNames
  rw [List.foldl_map]
  congr 2
  funext r p
  simp only [UParser.sp, List.foldl_map, G.low]

theorem SameOrder.rel {u : Uni} {c : Spell} (G : c.Good u) {it it' : List UParser → List Str} (h : SameOrder u it it')
    (m m' : List UParser) (e : m.map (UParser.sp c) = m'.map (UParser.sp c)) : it m = it' m' := by
  refine h m m' ?_
  rw [← names_sp G m, ← names_sp G m', e]

theorem SameOrder.symm {u : Uni} {it it' : List UParser → List Str} (h : SameOrder u it it') : SameOrder u it' it :=
  fun m m' e => (h m' m e.symm).symm

theorem RR.seen {u : Uni} {nm : Str → Str → Prop} {m₁ m₂ : Tr (Decl Node) (Decl Node)} {w : Prop} {K : DS → DS → Prop} {α β : Type} {f : α → β}
    {p q : R (PS DS) α} (h : RR u nm m₁ m₂ w K (EqR f f) p q) (hw : p = .wait → q = .wait) : seen f p = seen f q := by
  cases p <;> cases q <;> first | exact h.elim | rfl | (cases hw rfl) | (exact congrArg (R.ok · ()) h.1)

theorem RR.wait_of {u : Uni} {nm : Str → Str → Prop} {m₁ m₂ : Tr (Decl Node) (Decl Node)} {w : Prop} {K : DS → DS → Prop} {α β : Type}
    {A : β → α → Prop} {p : R (PS DS) α} {q : R (PS DS) β} (hp : p = .wait) (h : RR u nm m₁ m₂ w K A q p) : q = .wait := by
  subst hp
  cases q <;> first | exact h.elim | rfl

theorem SameToken.symm {a b : Token} (h : SameToken a b) : SameToken b a :=
  ⟨h.1.symm, h.2.elim (fun e => .inl e.symm) fun e => .inr ⟨h.1 ▸ e.1, e.2.symm⟩⟩

theorem SameFile.symm {u : Uni} {f g : FileR} (h : SameFile u f g) : SameFile u g f := by
  cases h with
  | missing => exact .missing
  | unreadable => exact .unreadable
  | tokens ho ho' hx hy hts htl =>
    refine .tokens ho' ho hy hx (hts.flip.imp fun _ _ h => SameToken.symm h) ?_
    rename_i tl tl'
    cases tl <;> cases tl' <;> first | exact htl.elim | exact trivial

theorem SameCase.symm {u : Uni} {f g : FileR} (h : SameCase u f g) : SameCase u g f := by
  cases h with
  | missing => exact .missing
  | unreadable => exact .unreadable
  | tokens ho ho' hx hy h hl => exact .tokens ho' ho hy hx h.symm hl.symm

end TP
