import Verif.Model.Ext

/-!
# C16  List helpers keep their contracts
-/

namespace TP.Props
open TP

theorem reverseLoop_spec (s : List Str) : ∀ (i : Nat) (r : List Str), r.length = i + s.length →
    Strings.reverseLoop (i + s.length) i s r = s.reverse ++ r.drop s.length := by
  induction s with
  | nil => intro i r _; simp [Strings.reverseLoop]
  | cons v s ih =>
    intro i r hr
    simp only [List.length_cons] at hr
    have h := ih (i + 1) (r.set s.length v) (by simp [hr]; omega)
    have e1 : i + (v :: s).length - i - 1 = s.length := by simp
    have e2 : i + (v :: s).length = i + 1 + s.length := by simp; omega
    simp only [Strings.reverseLoop, e1]
    rw [e2, h]
    have hlt : s.length < (r.set s.length v).length := by simp; omega
    rw [List.drop_eq_getElem_cons hlt]
    simp [List.drop_set_of_lt]

/-- Reverse is list reversal: the i-th element becomes the i-th from the end. -/
theorem C16_reverse (s : List Str) : Strings.reverse s = s.reverse := by
  have := reverseLoop_spec s 0 (List.replicate s.length []) (by simp)
  simp only [Nat.zero_add] at this
  unfold Strings.reverse
  rw [this]; simp

/-- Reverse is an involution; it maps the first element to the last position. -/
theorem C16_reverse_involution (s : List Str) : Strings.reverse (Strings.reverse s) = s ∧
    (Strings.reverse s).getLast? = s.head? := by
  simp [C16_reverse]

theorem equalLoop_spec (other : List Str) : ∀ (s : List Str) (i : Nat), other.length = i + s.length →
    (Strings.equalLoop other i s = true ↔ other.drop i = s) := by
  intro s
  induction s with
  | nil => intro i h; simp at h; simp [Strings.equalLoop, h]
  | cons v s ih =>
    intro i h
    simp only [List.length_cons] at h
    have hlt : i < other.length := by omega
    rw [List.drop_eq_getElem_cons hlt]
    simp only [Strings.equalLoop, List.getElem?_eq_getElem hlt, List.cons.injEq]
    by_cases e : other[i] = v
    · simp only [e, ne_eq, not_true, if_false, true_and]
      exact ih (i + 1) (by omega)
    · simp [e]

/-- Equal is list equality. -/
theorem C16_equal (s other : List Str) : Strings.equal s other = true ↔ s = other := by
  unfold Strings.equal
  split
  · rename_i h
    constructor
    · intro h2; cases h2
    · rintro rfl; exact absurd rfl h
  · rename_i h
    rw [equalLoop_spec other s 0 (by omega)]
    simp [eq_comm]

theorem includes_spec (s : List Str) (v : Str) : Strings.includes s v = true ↔ v ∈ s := by
  induction s with
  | nil => simp [Strings.includes]
  | cons a s ih =>
    simp only [Strings.includes, List.mem_cons]
    split
    · rename_i h; simp [h]
    · rename_i h
      have : v ≠ a := fun e => h e.symm
      simp [ih, this]

theorem select_spec (f : Str → Bool) (s : List Str) : Strings.select f s = s.filter f := by
  have : ∀ (s acc : List Str), s.foldl (fun r i => if f i then r ++ [i] else r) acc = acc ++ s.filter f := by
    intro s
    induction s with
    | nil => simp
    | cons a s ih =>
      intro acc
      rw [List.foldl_cons, ih]
      by_cases h : f a <;> simp [h]
  unfold Strings.select; rw [this]; rfl

/-- Exclude removes exactly the listed strings and keeps order and multiplicity of the rest: the result is a
sublist of `s`, contains no listed string, and contains every other string as often as `s` does. -/
theorem C16_exclude (s vals : List Str) :
    (Strings.exclude s vals).Sublist s ∧ (∀ v ∈ vals, v ∉ Strings.exclude s vals) ∧
      ∀ v, v ∉ vals → (Strings.exclude s vals).count v = s.count v := by
  have e : Strings.exclude s vals = s.filter (fun i => !Strings.includes vals i) := select_spec _ _
  rw [e]
  refine ⟨List.filter_sublist, ?_, ?_⟩
  · intro v hv hm
    have := (List.mem_filter.mp hm).2
    rw [(includes_spec vals v).mpr hv] at this; cases this
  · intro v hv
    apply List.count_filter
    cases h : Strings.includes vals v with
    | false => rfl
    | true => exact absurd ((includes_spec vals v).mp h) hv

theorem mapLoop_spec (f : Str → Str) (s : List Str) : ∀ (i : Nat) (r : List Str), r.length = i + s.length →
    Strings.mapLoop f i s r = r.take i ++ s.map f := by
  induction s with
  | nil => intro i r h; simp at h; simp [Strings.mapLoop, ← h]
  | cons v s ih =>
    intro i r h
    simp only [List.length_cons] at h
    simp only [Strings.mapLoop]
    rw [ih (i + 1) _ (by simp; omega)]
    have hlt : i < (r.set i (f v)).length := by simp; omega
    rw [List.take_add_one, List.getElem?_eq_getElem hlt]
    simp [List.take_set_of_le]

/-- Map applies the function at every position. -/
theorem C16_map (f : Str → Str) (s : List Str) : Strings.map f s = s.map f := by
  unfold Strings.map; rw [mapLoop_spec f s 0 _ (by simp)]; simp

/-- non-vacuity: three different strings. -/
example : Strings.reverse [r!"a", r!"b", r!"c"] = [r!"c", r!"b", r!"a"] ∧
    Strings.exclude [r!"a", r!"b", r!"a", r!"c"] [r!"b", r!"x"] = [r!"a", r!"a", r!"c"] := by decide

end TP.Props
