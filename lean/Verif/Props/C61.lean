import Verif.Model.Message
import Verif.Props.C01

/-!
# C61  A failed check is reported with the expectation, the token and its place

False for predicates with a percent sign in their names: the name becomes part of the format.
-/

namespace TP.Props
open TP Spec

/-! ## The text of an error -/

theorem sprintf_char (c : Char) (h : c ≠ '%') (f : Str) (args : List Str) : sprintf (c :: f) args = c :: sprintf f args := by
  rw [sprintf]
  all_goals
    intros
    simp_all

theorem sprintf_plain : ∀ (a f : Str) (args : List Str), '%' ∉ a → sprintf (a ++ f) args = a ++ sprintf f args
  | [], _, _, _ => rfl
  | c :: a, f, args, h => by
    rw [List.cons_append, sprintf_char c (fun e => h (by simp [e])), sprintf_plain a f args fun h' => h (by simp [h'])]
    rfl

theorem sprintf_s (f a : Str) (args : List Str) : sprintf ('%' :: 's' :: f) (a :: args) = a ++ sprintf f args := by
  rw [sprintf]
  · rfl
  · simp

/-- The text of the error: what was expected, the text of the token, the path of the file, the line and the column. -/
def report (path name : Str) (t : Token) : Str :=
  r!"expects " ++ name ++ r!" but was " ++ t.raw ++ r!" at " ++ path ++ r!":" ++ decimal t.start.line ++ r!":" ++ decimal t.start.col

theorem expects_report (path name : Str) (t : Token) (h : '%' ∉ name) :
    tokenErrorf path (r!"expects " ++ name ++ r!" but was %s") t [] = report path name t := by
  unfold tokenErrorf
  have h1 : ('%' : Char) ∉ (r!"expects " ++ name ++ r!" but was ") := by
    simp only [List.mem_append, not_or]
    exact ⟨⟨by decide, h⟩, by decide⟩
  have e : (r!"expects " ++ name ++ r!" but was %s" ++ r!" at %s" : Str) =
      (r!"expects " ++ name ++ r!" but was ") ++ ('%' :: 's' :: (r!" at " ++ ('%' :: 's' :: []))) := by
    simp only [List.append_assoc]
    rfl
  rw [e, sprintf_plain _ _ _ h1, List.nil_append, sprintf_s, sprintf_plain _ _ _ (by decide), sprintf_s]
  simp only [sprintf, fmtExtra, report, placeString, List.append_assoc, List.append_nil]

/-! ## `Validate` -/

/-- There is no error exactly if there is a token and it satisfies all predicates. -/
theorem C61_accepts (path : Str) (t : Option Token) (ps : List NPred) :
    validate path t ps = none ↔ ∃ t', t = some t' ∧ ∀ p ∈ ps, p.pred t' = true := by
  cases t with
  | none => simp [validate]
  | some t =>
    simp only [validate, Option.some.injEq, exists_eq_left']
    induction ps with
    | nil => simp [validateAll]
    | cons p ps ih => by_cases c : p.pred t = true <;> simp [validateAll, c, ih]

/-- Otherwise the error is about the first predicate that fails: it tells its name, the text of the token, and the file, line and
column where the token begins.  For every name without a percent sign, every path and every token. -/
theorem C61_report_partial (path : Str) (t : Token) (a b : List NPred) (p : NPred) (ha : ∀ q ∈ a, q.pred t = true)
    (hp : p.pred t = false) (hn : '%' ∉ p.name) : validate path (some t) (a ++ p :: b) = some (report path p.name t) := by
  show validateAll path t _ = _
  induction a with
  | nil =>
    rw [List.nil_append, validateAll, if_neg (by rw [hp]; decide), expects_report path p.name t hn]
  | cons q a ih =>
    rw [List.cons_append, validateAll, if_pos (ha q (by simp))]
    exact ih fun q' h => ha q' (by simp [h])

/-- The functions `Current` and `Next` of the parser return the token if `Validate` has no error for it, and an error otherwise. -/
theorem C61_current {κ : Type} (path : Str) (p : NPred) (s s1 : PS κ) (t : Option Token) (h : P.cur? s = .ok t s1) :
    (∀ t', t = some t' → validate path t [p] = none → P.current p.pred s = .ok t' s1) ∧
    (validate path t [p] ≠ none → P.current p.pred s = .err) := by
  have e : P.current p.pred s = (match t with
      | none => P.fail
      | some t => if p.pred t then pure t else P.fail : P κ Token) s1 := by
    show P.bind P.cur? _ s = _
    simp only [P.bind, h]
    cases t <;> rfl
  rw [e]
  cases t with
  | none => exact ⟨fun _ h => (nomatch h), fun _ => rfl⟩
  | some t =>
    simp only [validate, validateAll]
    by_cases c : p.pred t = true
    · simp only [c, if_true]
      exact ⟨fun t' e _ => by cases e; rfl, fun h => absurd rfl h⟩
    · simp only [c]
      exact ⟨fun t' _ h => (nomatch h), fun _ => rfl⟩

/-- Line and column are those of the text, for tokens of texts that do not begin with a line feed (see C01). -/
theorem C61_place (u : Uni) (o : List (Char × Char)) (ho : IsOrder o) (fl : Flags) (text : Str) (hne : text.head? ≠ some '\n')
    (path : Str) (ts : List Token) (c' : Cursor) (h : Run u o fl (Cursor.new text) ts c') (t : Token) (ht : t ∈ ts) :
    placeString path t = path ++ r!":" ++ decimal (posAt text t.start.index).line ++ r!":" ++ decimal (posAt text t.start.index).col := by
  rw [placeString, ← (C01_tokens_partial u o ho fl text hne ts c' h t ht).1]

/-- A percent sign in the name of a predicate swallows the text of the token: `Validate(t, Value("%"))`. -/
theorem C61_refuted : ∃ (path : Str) (p : NPred) (t : Token), p.pred t = false ∧
    validate path (some t) [p] ≠ some (report path p.name t) ∧
    validate path (some t) [p] = some r!"expects Value \"%!\"(string=x) but was f:1:1 at %!s(MISSING)" :=
  ⟨r!"f", ⟨r!"Value \"%\"", Pred.value asciiUni r!"%"⟩, ⟨.ident, r!"x", ⟨1, 1, 0⟩, ⟨1, 2, 1⟩⟩, by decide, by decide, by decide⟩

/-- Every other error about a token: the first `%s` of the format is the text of the token, the further ones are the further
arguments, and the place follows. -/
theorem C61_errors (path a : Str) (t : Token) (rest : List (Str × Str)) (ha : '%' ∉ a) (hr : ∀ r ∈ rest, '%' ∉ r.1) (b : Str) (hb : '%' ∉ b) :
    tokenErrorf path (a ++ '%' :: 's' :: (b ++ rest.flatMap fun r => '%' :: 's' :: r.1)) t (rest.map Prod.snd) =
      a ++ t.raw ++ b ++ (rest.flatMap fun r => r.2 ++ r.1) ++ r!" at " ++ placeString path t := by
  unfold tokenErrorf
  simp only [List.append_assoc, List.cons_append]
  rw [sprintf_plain _ _ _ ha, sprintf_s, sprintf_plain _ _ _ hb]
  congr 3
  induction rest with
  | nil =>
    show sprintf (r!" at " ++ ('%' :: 's' :: [])) [placeString path t] = _
    rw [sprintf_plain _ _ _ (by decide), sprintf_s]
    simp only [sprintf, fmtExtra, List.append_nil, List.flatMap_nil, List.nil_append]
    rfl
  | cons r rest ih =>
    simp only [List.flatMap_cons, List.map_cons, List.cons_append, List.append_assoc]
    rw [sprintf_s, sprintf_plain _ _ _ (hr r (by simp)), ih fun r' h => hr r' (by simp [h])]

/-! ## Predicates -/

/-- `Some`, `Every` and `Not` are or, and, not. -/
theorem C61_combined (ps : List Pred) (p : Pred) (t : Token) :
    (Pred.some ps t = true ↔ ∃ q ∈ ps, q t = true) ∧ (Pred.every ps t = true ↔ ∀ q ∈ ps, q t = true) ∧
      (Pred.not p t = true ↔ ¬ p t = true) := by
  refine ⟨by simp [Pred.some], by simp [Pred.every], by simp [Pred.not]⟩

/-- `PredicatorBy` calls the function with the text of the token in upper case; the text of a reserved word is already in upper case
and is changed once more. -/
theorem C61_by (u : Uni) (fn : Str → Bool) (t : Token) :
    Pred.by_ u fn t = fn (if t.typ = .reserved then u.toUpper (u.toUpper t.raw) else u.toUpper t.raw) := by
  unfold Pred.by_ Token.value
  cases t.typ <;> rfl

/-- Arguments that the format does not use are listed behind the text, with commas in between. -/
theorem C61_extra (f a : Str) (args : List Str) (h : '%' ∉ f) :
    sprintf f (a :: args) = f ++ r!"%!(EXTRA " ++ List.intercalate r!", " ((a :: args).map fun b => r!"string=" ++ b) ++ r!")" := by
  have e := sprintf_plain f [] (a :: args) h
  rw [List.append_nil] at e
  rw [e]
  simp only [sprintf, fmtExtra, List.append_assoc]
  congr 1
  have hi : ∀ (l : List Str) (x : Str), List.intercalate r!", " (x :: l.map fun b => r!"string=" ++ b) =
      x ++ l.flatMap fun b => r!", string=" ++ b := by
    intro l
    induction l with
    | nil => intro x; simp [List.intercalate]
    | cons y l ih =>
      intro x
      have := ih (r!"string=" ++ y)
      simp only [List.intercalate, List.map_cons, List.intersperse_cons_cons, List.flatten_cons, List.flatMap_cons] at this ⊢
      rw [this]
      simp
  rw [List.map_cons, hi]
  simp

/-- A text in which all percent signs are doubled is printed as it was before. -/
theorem C61_percent (s f : Str) (args : List Str) :
    sprintf ((s.flatMap fun c => if c = '%' then r!"%%" else [c]) ++ f) args = s ++ sprintf f args := by
  induction s with
  | nil => rfl
  | cons c s ih =>
    by_cases h : c = '%'
    · subst h
      simp only [List.flatMap_cons, if_pos, List.cons_append, List.nil_append]
      rw [sprintf, ih]
    · simp only [List.flatMap_cons, if_neg h, List.cons_append, List.nil_append]
      rw [sprintf_char c h, ih]

/-- `Directives` and `PortabilityDirectives` panic exactly if a name is not among the known ones, and otherwise accept the words with
these names in any case. -/
theorem C61_directives (u : Uni) (known names : List Str) :
    (Pred.directives u known names = none ↔ ∃ n ∈ names, n ∉ known) ∧
    ∀ p, Pred.directives u known names = some p → ∀ t : Token, p t = true ↔ u.toUpper t.raw ∈ names := by
  unfold Pred.directives
  by_cases c : names.all known.contains = true
  · rw [if_pos c]
    refine ⟨⟨fun h => (nomatch h), ?_⟩, ?_⟩
    · rintro ⟨n, h1, h2⟩
      exact absurd (List.contains_iff_mem.1 (List.all_eq_true.1 c n h1)) h2
    · rintro p h t
      cases h
      simp [Pred.directive]
  · rw [if_neg c]
    refine ⟨⟨fun _ => ?_, fun _ => rfl⟩, fun p h => (nomatch h)⟩
    simpa using c

/-! ## Tokens -/

/-- `ValueAbbr(n)` is the value of a token with less than `n` runes, and otherwise the first `n` runes of its text and three dots. -/
theorem C61_abbr_partial (u : Uni) (t : Token) (n : Nat) (h1 : t.start.index ≤ t.stop.index) (h2 : t.stop.index ≤ t.text.length) :
    (t.raw.length < n → t.valueAbbr u n = t.value u) ∧ (n ≤ t.raw.length → t.valueAbbr u n = t.raw.take n ++ r!"...") := by
  have hl : t.raw.length = t.stop.index - t.start.index := by
    simp only [Token.raw, List.length_drop, List.length_take]
    omega
  have hi : (t.len : Int) = (t.raw.length : Int) := by
    unfold Token.len
    omega
  refine ⟨fun h => ?_, fun h => ?_⟩
  · rw [Token.valueAbbr, if_pos (by omega)]
  · rw [Token.valueAbbr, if_neg (by omega)]
    congr 1
    unfold Token.raw
    rw [List.drop_take, List.take_take, Nat.min_eq_left (by omega)]

/-- A token with exactly `n` runes gets the dots although nothing is missing. -/
theorem C61_refuted_abbr : ∃ t : Token, t.raw.length = 2 ∧ t.valueAbbr asciiUni 2 = t.raw ++ r!"..." :=
  ⟨⟨.ident, r!"ab", ⟨1, 1, 0⟩, ⟨1, 3, 2⟩⟩, by decide, by decide⟩

/-- A clone of a token is the same token, and is not changed by later changes of the positions of the original (nor the original by
changes of the clone). -/
theorem C61_clone (h h' : PosHeap) (t t' : TokenP) (hc : t.clone h = some (h', t')) :
    t'.read h' = t.read h ∧ t.read h' = t.read h ∧
    (∀ p, t'.read (h'.set t.start p) = t.read h ∧ t'.read (h'.set t.stop p) = t.read h) ∧
    ∀ p, t.read (h'.set t'.start p) = t.read h ∧ t.read (h'.set t'.stop p) = t.read h := by
  unfold TokenP.clone at hc
  split at hc
  · rename_i a b ha hb
    cases hc
    have la : t.start < h.length := (List.getElem?_eq_some_iff.1 ha).1
    have lb : t.stop < h.length := (List.getElem?_eq_some_iff.1 hb).1
    have e0 : (h ++ [a, b])[h.length]? = some a := by simp
    have e1 : (h ++ [a, b])[h.length + 1]? = some b := by simp
    have ea : (h ++ [a, b])[t.start]? = some a := by rw [List.getElem?_append_left la, ha]
    have eb : (h ++ [a, b])[t.stop]? = some b := by rw [List.getElem?_append_left lb, hb]
    refine ⟨?_, ?_, fun p => ⟨?_, ?_⟩, fun p => ⟨?_, ?_⟩⟩
    all_goals simp only [TokenP.read]
    · simp only [e0, e1, ha, hb]
    · simp only [ea, eb, ha, hb]
    · rw [List.getElem?_set_ne (by omega), List.getElem?_set_ne (by omega), e0, e1, ha, hb]
    · rw [List.getElem?_set_ne (by omega), List.getElem?_set_ne (by omega), e0, e1, ha, hb]
    · rw [List.getElem?_set_ne (by omega), List.getElem?_set_ne (by omega), ea, eb, ha, hb]
    · rw [List.getElem?_set_ne (by omega), List.getElem?_set_ne (by omega), ea, eb, ha, hb]
  · cases hc

/-! ## Examples -/

example : validate r!"a.pas" (some ⟨.ident, r!"x := foo", ⟨1, 6, 5⟩, ⟨1, 9, 8⟩⟩) [⟨r!"identifier", Pred.typ .ident⟩, ⟨r!"Symbol [';']", Pred.symbol r!";"⟩]
    = some r!"expects Symbol [';'] but was foo at a.pas:1:6" := by decide
example : P.current (κ := Unit) (Pred.symbol r!";") ⟨[⟨.ident, r!"foo", ⟨1, 1, 0⟩, ⟨1, 4, 3⟩⟩], .hang, ()⟩ = .err := rfl
example : validate r!"a.pas" (some ⟨.ident, r!"foo", ⟨1, 1, 0⟩, ⟨1, 4, 3⟩⟩) [⟨r!"identifier", Pred.typ .ident⟩] = none := by decide
example : Pred.by_ asciiUni (fun s => s == r!"NAME") ⟨.ident, r!"nAme", ⟨1, 1, 0⟩, ⟨1, 5, 4⟩⟩ = true := by decide
example : sprintf r!"5%% of %s" [r!"x"] = r!"5% of x" := by decide
example : sprintf r!"a" [r!"b", r!"c"] = r!"a%!(EXTRA string=b, string=c)" := by decide
example : Pred.directives asciiUni directiveNames [r!"NAME", r!"READ"] = none := by decide
example : (Pred.directives asciiUni directiveNames [r!"NAME", r!"INDEX"]).map (fun p => p ⟨.ident, r!"nAme", ⟨1, 1, 0⟩, ⟨1, 5, 4⟩⟩) = some true := by
  decide
example : Token.valueAbbr asciiUni ⟨.reserved, r!"begin", ⟨1, 1, 0⟩, ⟨1, 6, 5⟩⟩ 20 = r!"BEGIN" := by decide
example : Token.valueAbbr asciiUni ⟨.reserved, r!"begin", ⟨1, 1, 0⟩, ⟨1, 6, 5⟩⟩ 3 = r!"beg..." := by decide
example : (TokenP.clone [⟨1, 1, 0⟩, ⟨1, 2, 1⟩] ⟨.ident, r!"x", 0, 1⟩).map (fun r => (r.2.start, r.1.length)) = some (2, 4) := by decide

end TP.Props
