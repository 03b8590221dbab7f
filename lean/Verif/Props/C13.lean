import Verif.Props.C07

/-!
# C13  Keyword predicates see exactly the keyword, ignoring case
-/

namespace TP.Props
open TP Cursor Spec

variable (u : Uni) (order : List (Char × Char)) (ho : IsOrder order) (fl : Flags)
include ho

/-- For every reserved word `kw` the predicate `ReservedWord.HasKeyword(kw)` can be made, and a token holds it
exactly when it is a word whose upper-cased text is `kw`; no identifier, numeral, string or symbol holds it. -/
theorem C13_keyword (kw : Str) (hkw : kw ∈ keywords) (hup : u.toUpper kw = kw) :
    ∃ p, Pred.hasKeyword u .reserved kw = some p ∧
      ∀ (c c' : Cursor) (t : Token), Reachable c → Gets u order fl c c' (some t) →
        (p t = true ↔ (t.typ = .ident ∨ t.typ = .reserved) ∧ u.toUpper t.raw = kw) := by
  have h1 : isReservedWord u kw = true := by rw [isReservedWord_eq, hup]; exact List.contains_iff_mem.mpr hkw
  refine ⟨fun t => t.typ == .reserved && t.value u == kw, by simp [Pred.hasKeyword, h1], ?_⟩
  intro c c' t hc hg
  simp only [Bool.and_eq_true, beq_iff_eq]
  constructor
  · rintro ⟨ht, hv⟩
    simp only [Token.value, ht] at hv
    exact ⟨Or.inr ht, hv⟩
  · rintro ⟨ht, hv⟩
    have h2 := (C07_word_conv u order ho fl c c' hc t hg ht).2.2
    rw [hv, if_pos hkw] at h2
    refine ⟨h2, ?_⟩
    simp only [Token.value, h2]; exact hv

omit ho in
/-- All the reserved words are upper case, so the hypothesis on `kw` holds for each of them. -/
theorem C13_keywords_upper (kw : Str) (hkw : kw ∈ keywords) : u.toUpper kw = kw := by
  have key : ∀ w ∈ keywords, ∀ x ∈ w, x.toNat < 128 ∧ asciiUp x = x := by decide
  unfold Uni.toUpper
  have := key kw hkw
  clear hkw
  induction kw with
  | nil => rfl
  | cons a w ih =>
    rw [List.map_cons, ih (fun x hx => this x (by simp [hx])), u.up_ascii a (this a (by simp)).1, (this a (by simp)).2]

omit ho in
/-- Asking for a keyword that is not a reserved word is refused (the code panics) ... -/
theorem C13_unknown_refused (kw : Str) (h : u.toUpper kw ∉ keywords) :
    Pred.hasKeyword u .reserved kw = none := by
  have h1 : isReservedWord u kw = false := by
    rw [isReservedWord_eq]
    cases hh : keywords.contains (u.toUpper kw) with
    | false => rfl
    | true => exact absurd (List.contains_iff_mem.mp hh) h
  simp [Pred.hasKeyword, h1]

/-- ... and two tokens that differ only in the case of ASCII letters hold the same keyword predicates. -/
theorem C13_case (kw : Str) (hkw : kw ∈ keywords) (p : Pred) (hp : Pred.hasKeyword u .reserved kw = some p)
    (c c' d d' : Cursor) (hc : Reachable c) (hd : Reachable d) (t t' : Token)
    (h : Gets u order fl c c' (some t)) (h' : Gets u order fl d d' (some t'))
    (ht : t.typ = .ident ∨ t.typ = .reserved) (ht' : t'.typ = .ident ∨ t'.typ = .reserved)
    (hcase : t.raw.map asciiUp = t'.raw.map asciiUp) : p t = p t' := by
  obtain ⟨q, hq, hq2⟩ := C13_keyword u order ho fl kw hkw (C13_keywords_upper u kw hkw)
  rw [hp] at hq; injection hq with hq; subst hq
  have e : u.toUpper t.raw = u.toUpper t'.raw := by
    unfold Uni.toUpper
    generalize t.raw = x at hcase
    generalize t'.raw = y at hcase
    induction x generalizing y with
    | nil => cases y with
      | nil => rfl
      | cons b y => simp at hcase
    | cons a x ih =>
      cases y with
      | nil => simp at hcase
      | cons b y =>
        simp only [List.map_cons, List.cons.injEq] at hcase ⊢
        exact ⟨up_asciiUp u hcase.1, ih y hcase.2⟩
  rw [Bool.eq_iff_iff, hq2 c c' t hc h, hq2 d d' t' hd h', e]
  simp [ht, ht']

omit ho in
/-- non-vacuity: `eNd` holds the predicate for END. -/
example : r!"END" ∈ keywords ∧ asciiUni.toUpper r!"eNd" = r!"END" ∧
    ((getNext asciiUni doubleSymbols Flags.none 9 (Cursor.new r!"eNd.")).map (fun r => r.2.map Token.typ)) =
      some (some .reserved) := by decide

end TP.Props
