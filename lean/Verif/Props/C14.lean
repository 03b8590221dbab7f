import Verif.Lemmas.Shapes

/-!
# C14  Printed tokens lex back to themselves
-/

namespace TP.Props
open TP Cursor Spec

/-- a letter or an underscore -/
def IsHead (u : Uni) (a : Char) : Prop := u.isLetter a = true ∨ a = '_'
/-- a letter, an underscore or a digit -/
def IsTail (u : Uni) (a : Char) : Prop := IsHead u a ∨ ('0' ≤ a ∧ a ≤ '9')
/-- the optional sign of a numeral -/
def IsMinus (s : Str) : Prop := s = [] ∨ s = ['-']
/-- digits only -/
def IsDigits (s : Str) : Prop := ∀ x ∈ s, '0' ≤ x ∧ x ≤ '9'

/-- The texts of tokens and their types, described without reference to the tokenizer. -/
inductive WFTok (u : Uni) : TType → Str → Prop
  | word (a : Char) (w : Str) (ha : IsHead u a) (hw : ∀ x ∈ w, IsTail u x) (hk : u.toUpper (a :: w) ∉ keywords) :
      WFTok u .ident (a :: w)
  | reserved (a : Char) (w : Str) (ha : IsHead u a) (hw : ∀ x ∈ w, IsTail u x) (hk : u.toUpper (a :: w) ∈ keywords) :
      WFTok u .reserved (a :: w)
  | int (sg ds : Str) (hs : IsMinus sg) (hd : IsDigits ds) (hn : ds ≠ []) : WFTok u .numInt (sg ++ ds)
  | real (sg ds ds' : Str) (hs : IsMinus sg) (hd : IsDigits ds) (hn : ds ≠ []) (hd' : IsDigits ds') :
      WFTok u .numReal (sg ++ ds ++ '.' :: ds')
  | str (body : Str) (h1 : '\'' ∉ body) (h2 : '\\' ∉ body) : WFTok u .charString ('\'' :: body ++ ['\''])
  | single (a : Char) (h : a ∈ r!"#$&()*+,-./:;<=>@[]^}") : WFTok u .symbol [a]
  | double (s : Str) (h : s ∈ [r!"(.", r!".)", r!"..", r!":=", r!"<=", r!">=", r!"<>"]) : WFTok u .symbol s

/-- A printed token sequence: every token is followed by some white space. -/
def printed : List ((TType × Str) × Str) → Str
  | [] => []
  | ((_, s), sp) :: l => s ++ sp ++ printed l

theorem space_facts {u : Uni} {x : Char} (h : u.isSpace x = true) :
    digit x = false ∧ wordRune u x = false ∧ x ∉ nonWordRunes := by
  have h1 : digit x = false := by
    cases hd : digit x with
    | false => rfl
    | true => rw [space_digit hd] at h; cases h
  have h2 : wordHead u x = false := by
    cases hd : wordHead u x with
    | false => rfl
    | true => rw [space_wordHead hd] at h; cases h
  refine ⟨h1, ?_, ?_⟩
  · simp only [wordRune, h1, h2]; rfl
  · intro hm; rw [space_nonword hm] at h; cases h

theorem wordHead_iff {u : Uni} {a : Char} : wordHead u a = true ↔ IsHead u a := by
  simp [wordHead, IsHead]
theorem digit_iff {a : Char} : digit a = true ↔ '0' ≤ a ∧ a ≤ '9' := by
  simp [digit]
theorem wordRune_iff {u : Uni} {a : Char} : wordRune u a = true ↔ IsTail u a := by
  simp only [wordRune, IsTail, Bool.or_eq_true, wordHead_iff, digit_iff]
  exact Or.comm

/-- A well-formed token text followed by white space is one lexeme. -/
theorem lexOne_wf {u : Uni} {ty : TType} {s : Str} (h : WFTok u ty s) {x : Char} (hx : u.isSpace x = true) (r : Str) :
    lexOne u (s ++ x :: r) = .tok ty s.length := by
  obtain ⟨hx1, hx2, hx3⟩ := space_facts hx
  have hxd : ∀ y, (x :: r).head? = some y → digit y = false := by
    intro y hy; simp at hy; subst hy; exact hx1
  have hxp : ∀ t, x :: r = '.' :: t → t.head? = some '.' := by
    intro t ht; injection ht with ht _; exfalso; apply hx3; rw [ht]; decide
  cases h with
  | word a w ha hw hk =>
    rw [lexOne_word u (wordHead_iff.mpr ha) (fun y hy => wordRune_iff.mpr (hw y hy))
      (by intro y hy; simp at hy; subst hy; exact hx2)]
    rw [if_neg (by simpa using hk)]
  | reserved a w ha hw hk =>
    rw [lexOne_word u (wordHead_iff.mpr ha) (fun y hy => wordRune_iff.mpr (hw y hy))
      (by intro y hy; simp at hy; subst hy; exact hx2)]
    rw [if_pos (by simpa using hk)]
  | int sg ds hs hd hn =>
    cases ds with
    | nil => exact absurd rfl hn
    | cons d ds =>
      have hd0 : digit d = true := digit_iff.mpr (hd d (by simp))
      rcases hs with rfl | rfl
      · rw [List.nil_append, List.cons_append, lexOne_numeral u (by simp [startsNumeral, hd0]),
          numTail_int (fun y hy => digit_iff.mpr (hd y (by simp [hy]))) hxd hxp]
        simp; omega
      · have : startsNumeral ('-' :: ((d :: ds) ++ x :: r)) = true := by
          simp [startsNumeral, startsDigit, hd0]
        rw [List.cons_append, List.cons_append, List.nil_append, lexOne_numeral u this,
          numTail_int (fun y hy => digit_iff.mpr (hd y hy)) hxd hxp]
        simp; omega
  | real sg ds ds' hs hd hn hd' =>
    have hdr : (digits (ds' ++ x :: r)) = ds' := (digits_append (fun y hy => digit_iff.mpr (hd' y hy)) hxd).1
    have hne : (ds' ++ x :: r).head? ≠ some '.' := by
      cases ds' with
      | nil => intro e; simp at e; apply hx3; rw [e]; decide
      | cons y ds' =>
        intro e; simp at e
        have := hd' y (by simp); rw [e] at this; exact absurd this (by decide)
    cases ds with
    | nil => exact absurd rfl hn
    | cons d ds =>
      have hd0 : digit d = true := digit_iff.mpr (hd d (by simp))
      rcases hs with rfl | rfl
      · have e : ([] ++ (d :: ds) ++ '.' :: ds') ++ x :: r = d :: (ds ++ '.' :: (ds' ++ x :: r)) := by simp
        rw [e, lexOne_numeral u (by simp [startsNumeral, hd0]),
          numTail_real (fun y hy => digit_iff.mpr (hd y (by simp [hy]))) hne, hdr]
        simp; omega
      · have e : (['-'] ++ (d :: ds) ++ '.' :: ds') ++ x :: r = '-' :: ((d :: ds) ++ '.' :: (ds' ++ x :: r)) := by simp
        rw [e, lexOne_numeral u (by simp [startsNumeral, startsDigit, hd0]),
          numTail_real (fun y hy => digit_iff.mpr (hd y hy)) hne, hdr]
        simp; omega
  | str body h1 h2 =>
    have hq := quoteLen_found (last := NUL) (body := body) (r := x :: r)
      (by intro pre post e; exfalso; apply h1; rw [e]; simp)
      (by
        cases hg : body.getLast? with
        | none => decide
        | some y => intro e; simp at e; rw [e] at hg; exact h2 (List.mem_of_getLast? hg))
    have e : ('\'' :: body ++ ['\'']) ++ x :: r = '\'' :: (body ++ '\'' :: x :: r) := by simp
    rw [e, lexOne_quote, hq]; simp; omega
  | single a ha =>
    have key : ∀ y ∈ r!"#$&()*+,-./:;<=>@[]^}", y ∈ symbolRunes ∧ y ≠ '{' ∧ y ≠ '\'' ∧ digit y = false := by decide
    obtain ⟨k1, k2, k3, k4⟩ := key a ha
    have hpair : startsPair (a :: x :: r) = false := by
      simp only [startsPair, startsWithPair]
      cases hc : symbolPairs.contains (a, x) with
      | false => rfl
      | true =>
        have : ∀ y ∈ symbolPairs, y.2 ∈ nonWordRunes := by decide
        exact absurd (this _ (List.contains_iff_mem.mp hc)) hx3
    refine lexOne_single u k1 k2 ?_ ?_ k3 ?_ hpair
    · rintro ⟨_, e⟩; simp at e; apply hx3; rw [e]; decide
    · rintro ⟨_, e⟩; simp at e; apply hx3; rw [e]; decide
    · simp [startsNumeral, startsDigit, k4, hx1]
  | double s hs =>
    have key : ∀ y ∈ [r!"(.", r!".)", r!"..", r!":=", r!"<=", r!">=", r!"<>"],
        ∃ a b, y = [a, b] ∧ (a, b) ∈ symbolPairs := by
      intro y hy
      simp only [List.mem_cons, List.not_mem_nil, or_false] at hy
      rcases hy with rfl | rfl | rfl | rfl | rfl | rfl | rfl <;> exact ⟨_, _, rfl, by decide⟩
    obtain ⟨a, b, rfl, hp⟩ := key s hs
    exact lexOne_pair u hp

theorem wf_not_space {u : Uni} {ty : TType} {s : Str} (h : WFTok u ty s) :
    ∃ a t, s = a :: t ∧ u.isSpace a = false := by
  have hsym : ∀ a, a ∈ nonWordRunes → u.isSpace a = false := fun a ha => space_nonword ha
  cases h with
  | word a w ha hw hk => exact ⟨a, w, rfl, space_wordHead (wordHead_iff.mpr ha)⟩
  | reserved a w ha hw hk => exact ⟨a, w, rfl, space_wordHead (wordHead_iff.mpr ha)⟩
  | int sg ds hs hd hn =>
    cases ds with
    | nil => exact absurd rfl hn
    | cons d ds =>
      rcases hs with rfl | rfl
      · exact ⟨d, ds, rfl, space_digit (digit_iff.mpr (hd d (by simp)))⟩
      · exact ⟨'-', d :: ds, rfl, hsym _ (by decide)⟩
  | real sg ds ds' hs hd hn hd' =>
    cases ds with
    | nil => exact absurd rfl hn
    | cons d ds =>
      rcases hs with rfl | rfl
      · exact ⟨d, _, rfl, space_digit (digit_iff.mpr (hd d (by simp)))⟩
      · exact ⟨'-', _, rfl, hsym _ (by decide)⟩
  | str body h1 h2 => exact ⟨'\'', _, rfl, hsym _ (by decide)⟩
  | single a ha =>
    have key : ∀ y ∈ r!"#$&()*+,-./:;<=>@[]^}", y ∈ nonWordRunes := by decide
    exact ⟨a, [], rfl, hsym _ (key a ha)⟩
  | double s hs =>
    have key : ∀ y ∈ [r!"(.", r!".)", r!"..", r!":=", r!"<=", r!">=", r!"<>"],
        ∃ a b, y = a :: b ∧ a ∈ nonWordRunes := by
      intro y hy
      simp only [List.mem_cons, List.not_mem_nil, or_false] at hy
      rcases hy with rfl | rfl | rfl | rfl | rfl | rfl | rfl <;> exact ⟨_, _, rfl, by decide⟩
    obtain ⟨a, b, rfl, hp⟩ := key s hs
    exact ⟨a, b, rfl, hsym _ hp⟩

theorem wf_kind {u : Uni} {ty : TType} {s : Str} (h : WFTok u ty s) : ty ≠ .space ∧ ty ≠ .comment := by
  cases h <;> simp

variable (u : Uni) (order : List (Char × Char)) (ho : IsOrder order)
include ho

/-- White space in front of something else does not matter when spaces are not loaded. -/
theorem gets_skip_space (fl : Flags) (hf : fl.loadSpace = false) (c : Cursor) (hc : c.WF) (sp s : Str)
    (hrest : c.rest = sp ++ s) (hsp : ∀ x ∈ sp, u.isSpace x = true)
    (hs : ∀ x, s.head? = some x → u.isSpace x = false) (c' : Cursor) (o : Option Token) :
    Gets u order fl c c' o ↔ Gets u order fl (adv sp.length c) c' o := by
  cases sp with
  | nil => rfl
  | cons a w =>
    have hl := lexOne_space u (a := a) (w := w) (hsp a (by simp)) (fun x hx => hsp x (by simp [hx])) hs
    rw [← hrest] at hl
    rw [gets_iff ho hc, hl]
    have : fl.skips .space = true := by simp [Flags.skips, skipped, hf]
    simp [this]

theorem reads_back (fl : Flags) (hf : fl.loadSpace = false) (l : List ((TType × Str) × Str))
    (hl : ∀ x ∈ l, WFTok u x.1.1 x.1.2 ∧ x.2 ≠ [] ∧ ∀ y ∈ x.2, u.isSpace y = true) :
    ∀ (c : Cursor) (sp : Str), Reachable c → (∀ y ∈ sp, u.isSpace y = true) → c.rest = sp ++ printed l →
      ∃ ts c' c'' t, Run u order fl c ts c' ∧ ts.map Token.view = l.map (·.1) ∧
        Gets u order fl c' c'' (some t) ∧ t.typ = .eof ∧ c''.rest = [] := by
  induction l with
  | nil =>
    intro c sp hc hsp hrest
    have hrest' : c.rest = sp ++ [] := hrest
    have hz : (adv sp.length c).rest = [] := by rw [adv_rest, hrest']; simp
    have hg : Gets u order fl (adv sp.length c) (adv sp.length c)
        (some (mkTok .eof (adv sp.length c) (adv sp.length c).pos)) := by
      rw [gets_iff ho (adv_wf hc.wf _), hz]; exact ⟨rfl, rfl⟩
    exact ⟨[], c, _, _, .nil _, rfl,
      (gets_skip_space u order ho fl hf c hc.wf sp [] hrest' hsp (by simp) _ _).mpr hg, rfl, hz⟩
  | cons e l ih =>
    obtain ⟨⟨ty, s⟩, sp2⟩ := e
    intro c sp hc hsp hrest
    obtain ⟨hwf, hne, hsp2⟩ := hl _ (List.mem_cons_self ..)
    simp only at hwf hne hsp2
    have hrest' : c.rest = sp ++ (s ++ sp2 ++ printed l) := hrest
    obtain ⟨a, t, rfl, ha⟩ := wf_not_space hwf
    cases sp2 with
    | nil => exact absurd rfl hne
    | cons x sp3 =>
      have hz : (adv sp.length c).rest = (a :: t) ++ x :: (sp3 ++ printed l) := by
        rw [adv_rest, hrest', List.drop_left' rfl]; simp
      have hlex : lexOne u (adv sp.length c).rest = .tok ty (a :: t).length := by
        rw [hz]; exact lexOne_wf hwf (hsp2 x (by simp)) _
      have hg := gets_here (fl := fl) ho (adv_wf hc.wf sp.length) hlex
        (skips_false (wf_kind hwf).1 (wf_kind hwf).2)
      have hg' := (gets_skip_space u order ho fl hf c hc.wf sp _ hrest' hsp
        (by intro y hy; simp at hy; subst hy; exact ha) _ _).mpr hg
      have hz2 : (adv (a :: t).length (adv sp.length c)).rest = (x :: sp3) ++ printed l := by
        rw [adv_rest, hz, List.drop_left' rfl]; simp
      obtain ⟨ts, c', c'', te, h1, h2, h3, h4, h5⟩ :=
        ih (fun y hy => hl y (List.mem_cons_of_mem _ hy)) _ (x :: sp3) ((hc.adv _).adv _) hsp2 hz2
      refine ⟨_ :: ts, c', c'', te, .cons hg' h1, ?_, h3, h4, h5⟩
      rw [List.map_cons, List.map_cons, h2]
      congr 1
      show (ty, Token.raw _) = (ty, a :: t)
      rw [mkTok_raw _ (lexOne_bounds hlex).2.1, hz, List.take_left' rfl]

/-- Writing any sequence of well-formed tokens, each followed by any white space, and tokenising the text gives
back exactly these types and texts, then EOF at the end of the text. -/
theorem C14_roundtrip (fl : Flags) (hf : fl.loadSpace = false) (l : List ((TType × Str) × Str))
    (hl : ∀ x ∈ l, WFTok u x.1.1 x.1.2 ∧ x.2 ≠ [] ∧ ∀ y ∈ x.2, u.isSpace y = true) :
    ∃ ts c' c'' t, Run u order fl (Cursor.new (printed l)) ts c' ∧ ts.map Token.view = l.map (·.1) ∧
      Gets u order fl c' c'' (some t) ∧ t.typ = .eof ∧ c''.rest = [] :=
  reads_back u order ho fl hf l hl _ [] (.new _) (by simp) rfl

omit ho in
/-- non-vacuity: `x := -1.5 ` followed by more white space. -/
example : ∀ x ∈ ([((.ident, r!"x"), r!" "), ((.symbol, r!":="), r!" \n"), ((.numReal, r!"-1.5"), r!" ")] :
      List ((TType × Str) × Str)),
    WFTok asciiUni x.1.1 x.1.2 ∧ x.2 ≠ [] ∧ ∀ y ∈ x.2, asciiUni.isSpace y = true := by
  intro x hx
  simp only [List.mem_cons, List.not_mem_nil, or_false] at hx
  rcases hx with rfl | rfl | rfl
  · exact ⟨.word 'x' [] (Or.inl (by decide)) (by simp) (by decide), by decide, by decide⟩
  · exact ⟨.double _ (by decide), by decide, by decide⟩
  · exact ⟨.real ['-'] ['1'] ['5'] (Or.inr rfl) (by unfold IsDigits; decide) (by decide) (by unfold IsDigits; decide),
      by decide, by decide⟩

end TP.Props
