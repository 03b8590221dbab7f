import Verif.Model.ExtArgs
import Verif.Props.C16

/-!
# C68  The helpers for arguments lose and invent nothing

`stringsOf` and `setsOf` say what an argument contributes.
-/

namespace TP.Props
open TP
variable {α : Type}

/-- the strings that an argument stands for -/
def stringsOf : ExtArg α → Option (List Str)
  | .str s => some [s]
  | .slice l => some l
  | .strings l => some l
  | _ => none

/-- the set that an argument is -/
def setsOf : ExtArg α → Option StringSet
  | .set m => some m
  | _ => none

/-- `ExtractStrings` returns the strings of all strings and lists of strings, in order, and the other arguments, in order. -/
theorem C68_strings (args : List (ExtArg α)) :
    Strings.extract args = ((args.filterMap stringsOf).flatten, args.filter fun a => (stringsOf a).isNone) := by
  have key : ∀ (args : List (ExtArg α)) (a : List Str) (b : List (ExtArg α)), Strings.extractLoop args a b =
      (a ++ (args.filterMap stringsOf).flatten, b ++ args.filter fun a => (stringsOf a).isNone) := by
    intro args
    induction args with
    | nil => intro a b; simp [Strings.extractLoop]
    | cons v args ih => intro a b; cases v <;> simp [Strings.extractLoop, ih, stringsOf, List.filterMap_cons]
  simpa [Strings.extract] using key args [] []

/-- `ExtractStringSets` returns all sets, in order, and the other arguments, in order. -/
theorem C68_sets (args : List (ExtArg α)) :
    StringSet.extract args = (args.filterMap setsOf, args.filter fun a => (setsOf a).isNone) := by
  have key : ∀ (args : List (ExtArg α)) (a : List StringSet) (b : List (ExtArg α)), StringSet.extractLoop args a b =
      (a ++ args.filterMap setsOf, b ++ args.filter fun a => (setsOf a).isNone) := by
    intro args
    induction args with
    | nil => intro a b; simp [StringSet.extractLoop]
    | cons v args ih => intro a b; cases v <;> simp [StringSet.extractLoop, ih, setsOf, List.filterMap_cons]
  simpa [StringSet.extract] using key args [] []

theorem interfaces_eq (s : List Str) : (Strings.interfaces s : List (ExtArg α)) = s.map .str := by
  have key : ∀ (s : List Str) (acc : List (ExtArg α)), s.foldl (fun r i => r ++ [.str i]) acc = acc ++ s.map .str := by
    intro s
    induction s with
    | nil => simp
    | cons v s ih => intro acc; simp [ih]
  simpa [Strings.interfaces] using key s []

/-- Strings that are passed on with `Interfaces` are what `ExtractStrings` finds, in front of, between and behind other arguments
that are no strings. -/
theorem C68_roundtrip (s t : List Str) (x y z : List (ExtArg α)) (h : ∀ a ∈ x ++ y ++ z, stringsOf a = none) :
    Strings.extract (x ++ Strings.interfaces s ++ y ++ Strings.interfaces t ++ z) = (s ++ t, x ++ y ++ z) := by
  have none' : ∀ l : List (ExtArg α), (∀ a ∈ l, stringsOf a = none) →
      l.filterMap stringsOf = [] ∧ l.filter (fun a => (stringsOf a).isNone) = l := fun l hl =>
    ⟨List.filterMap_eq_nil_iff.2 hl, List.filter_eq_self.2 fun a ha => by rw [hl a ha]; rfl⟩
  have strs : ∀ l : List Str, ((l.map .str : List (ExtArg α)).filterMap stringsOf).flatten = l ∧
      (l.map .str : List (ExtArg α)).filter (fun a => (stringsOf a).isNone) = [] := by
    intro l
    induction l with
    | nil => simp
    | cons v l ih =>
      refine ⟨?_, ?_⟩
      · show ([v] :: (l.map .str : List (ExtArg α)).filterMap stringsOf).flatten = _
        rw [List.flatten_cons, ih.1]; rfl
      · exact ih.2
  obtain ⟨x1, x2⟩ := none' x fun a ha => h a (by simp [ha])
  obtain ⟨y1, y2⟩ := none' y fun a ha => h a (by simp [ha])
  obtain ⟨z1, z2⟩ := none' z fun a ha => h a (by simp [ha])
  rw [C68_strings, interfaces_eq, interfaces_eq]
  simp only [List.filterMap_append, List.filter_append, List.flatten_append, x1, x2, y1, y2, z1, z2, (strs s).1, (strs s).2, (strs t).1, (strs t).2,
    List.nil_append, List.append_nil]

/-- `ToUpper`, `Select` and `Include` go through the list element by element. -/
theorem C68_lists (u : Uni) (s : List Str) (f : Str → Bool) (v : Str) :
    Strings.toUpper u s = s.map u.toUpper ∧ Strings.select f s = s.filter f ∧ (Strings.includes s v = true ↔ v ∈ s) :=
  ⟨C16_map _ _, select_spec f s, includes_spec s v⟩

/-- `Sort` returns the strings of the list in order, whatever `sort.Strings` does as long as it sorts; the list itself is changed
as well. -/
theorem C68_sort (le : Str → Str → Prop) (sortStrings : List Str → List Str)
    (hs : ∀ l, (sortStrings l).Perm l ∧ (sortStrings l).Pairwise le) (s : List Str) :
    (Strings.sort sortStrings s).2.Perm s ∧ (Strings.sort sortStrings s).2.Pairwise le ∧
      (Strings.sort sortStrings s).1 = (Strings.sort sortStrings s).2 := ⟨(hs s).1, (hs s).2, rfl⟩

/-- `StringPtr` gives nil for the empty string only, otherwise a pointer to the string; `BoolPtr` never gives nil. -/
theorem C68_pointers (s v : Str) (b : Bool) : (stringPtr s = some v ↔ s = v ∧ s ≠ []) ∧ (stringPtr s = none ↔ s = []) ∧ boolPtr b = some b := by
  refine ⟨?_, ?_, rfl⟩
  · unfold stringPtr
    split
    · rename_i h; simp [h]
    · rename_i h; simp [h]
  · unfold stringPtr
    split
    · rename_i h; simp [h]
    · rename_i h; simp [h]

example : Strings.extract [.str r!"a", .other 1, .slice [r!"b", r!"c"], .set ⟨[r!"x"]⟩, .strings [], .str r!"a"] =
    ([r!"a", r!"b", r!"c", r!"a"], [ExtArg.other 1, .set ⟨[r!"x"]⟩]) := by decide

example : StringSet.extract [.str r!"a", .set ⟨[r!"x"]⟩, .other 1] = ([⟨[r!"x"]⟩], [.str r!"a", ExtArg.other 1]) := by decide

example : Strings.toUpper asciiUni [r!"ab", r!"C"] = [r!"AB", r!"C"] := by decide

/-- the hypothesis about sorting can be met -/
example : (Strings.sort (fun l => l.mergeSort fun a b => decide (a.length ≤ b.length)) [r!"abc", r!"a"]).2 = [r!"a", r!"abc"] ∧
    stringPtr [] = none ∧ stringPtr r!"x" = some r!"x" := by
  refine ⟨?_, rfl, rfl⟩
  simp [Strings.sort, List.mergeSort, List.MergeSort.Internal.splitInTwo]

end TP.Props
