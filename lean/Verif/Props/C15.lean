import Verif.Model.Ext

/-!
# C15  String sets behave as finite sets
-/

namespace TP.Props
open TP

/-- an operation on a string set -/
inductive SetOp
  | add (s : Str)
  | remove (s : Str)

def SetOp.key : SetOp → Str
  | .add s => s
  | .remove s => s

def SetOp.isAdd : SetOp → Bool
  | .add _ => true
  | .remove _ => false

/-- performing an operation -/
def SetOp.run (m : StringSet) : SetOp → StringSet
  | .add s => m.add s
  | .remove s => m.remove s

/-- a history, oldest operation first -/
def runOps (m : StringSet) (ops : List SetOp) : StringSet := ops.foldl SetOp.run m

/-- the last operation on `s` in the history, if any -/
def lastOp (s : Str) (ops : List SetOp) : Option SetOp := ops.reverse.find? (fun o => o.key == s)

/-- `order` is a possible iteration order of the map -/
def Iterates (m : StringSet) (order : List Str) : Prop := order.Perm m.keys

theorem nodup_add {m : StringSet} (h : m.keys.Nodup) (s : Str) : (m.add s).keys.Nodup := by
  unfold StringSet.add
  split
  · exact h
  · rename_i hn
    simp only [List.nodup_append, h, List.nodup_cons, List.not_mem_nil, not_false_iff, List.nodup_nil, and_self,
      true_and, List.mem_cons, or_false]
    rintro a ha b rfl rfl; exact hn ha

theorem nodup_remove {m : StringSet} (h : m.keys.Nodup) (s : Str) : (m.remove s).keys.Nodup :=
  h.filter _

theorem nodup_run {m : StringSet} (h : m.keys.Nodup) (o : SetOp) : (o.run m).keys.Nodup := by
  cases o
  · exact nodup_add h _
  · exact nodup_remove h _

theorem nodup_runOps {m : StringSet} (h : m.keys.Nodup) (ops : List SetOp) : (runOps m ops).keys.Nodup := by
  induction ops generalizing m with
  | nil => exact h
  | cons o ops ih => exact ih (nodup_run h o)

theorem includes_iff {m : StringSet} {s : Str} : m.includes s = true ↔ s ∈ m.keys := by
  simp [StringSet.includes]

theorem includes_run (m : StringSet) (o : SetOp) (s : Str) :
    (o.run m).includes s = if o.key = s then o.isAdd else m.includes s := by
  rw [Bool.eq_iff_iff]
  cases o with
  | add t =>
    simp only [SetOp.run, SetOp.key, SetOp.isAdd, StringSet.add]
    by_cases h1 : t ∈ m.keys <;> by_cases h2 : t = s
    · subst h2; simp [includes_iff, h1]
    · simp [h1, h2]
    · subst h2; simp [includes_iff, h1]
    · simp [includes_iff, h1, h2]; intro e; exact absurd e.symm h2
  | remove t =>
    simp only [SetOp.run, SetOp.key, SetOp.isAdd, StringSet.remove, includes_iff, List.mem_filter]
    by_cases h : t = s
    · simp [h]
    · have : s ≠ t := fun e => h e.symm
      simp [h, this, includes_iff]

/-- After any history (from the empty set) exactly the strings whose last operation was Add are members. -/
theorem C15_history (ops : List SetOp) (s : Str) :
    (runOps StringSet.empty ops).includes s = true ↔ ∃ o, lastOp s ops = some o ∧ o.isAdd = true := by
  have key : ∀ (ops : List SetOp) (m : StringSet), (runOps m ops).includes s =
      match lastOp s ops with
      | some o => o.isAdd
      | none => m.includes s := by
    intro ops
    induction ops with
    | nil => intro m; rfl
    | cons o ops ih =>
      intro m
      have e : lastOp s (o :: ops) = (lastOp s ops).or (if o.key == s then some o else none) := by
        unfold lastOp
        rw [List.reverse_cons, List.find?_append]
        simp only [List.find?_cons, List.find?_nil]
        split <;> simp_all
      show (runOps (o.run m) ops).includes s = _
      rw [ih, e]
      cases hl : lastOp s ops with
      | some o' => rfl
      | none =>
        simp only [Option.none_or, includes_run]
        by_cases hk : o.key = s
        · simp [hk]
        · simp [hk]
  rw [key]
  cases h : lastOp s ops with
  | none => simp [StringSet.includes, StringSet.empty]
  | some o => simp

/-- `NewStringSet` holds exactly its arguments. -/
theorem C15_new (l : List Str) (s : Str) : (StringSet.new l).includes s = true ↔ s ∈ l := by
  have h : ∀ (l : List Str) (m : StringSet), (l.foldl StringSet.add m).includes s = true ↔ s ∈ l ∨ m.includes s = true := by
    intro l
    induction l with
    | nil => intro m; simp
    | cons a l ih =>
      intro m
      rw [List.foldl_cons, ih]
      have := includes_run m (.add a) s
      simp only [SetOp.run, SetOp.key, SetOp.isAdd] at this
      rw [this, List.mem_cons]
      by_cases e : a = s
      · simp [e]
      · have e' : s ≠ a := fun x => e x.symm
        simp [e, e']
  unfold StringSet.new
  rw [h]; simp [StringSet.includes, StringSet.empty]

theorem equalLoop_iff (other : StringSet) (l : List Str) :
    StringSet.equalLoop other l = true ↔ ∀ x ∈ l, other.includes x = true := by
  induction l with
  | nil => simp [StringSet.equalLoop]
  | cons a l ih =>
    simp only [StringSet.equalLoop]
    cases h : other.includes a <;> simp [h, ih]

/-- For sets built by any histories and any iteration order, Equal holds exactly when the members agree. -/
theorem C15_equal (ops ops' : List SetOp) (order : List Str)
    (ho : Iterates (runOps StringSet.empty ops) order) :
    (runOps StringSet.empty ops).equal (runOps StringSet.empty ops') order = true ↔
      ∀ s, (runOps StringSet.empty ops).includes s = (runOps StringSet.empty ops').includes s := by
  have n1 := nodup_runOps (m := StringSet.empty) (by simp [StringSet.empty]) ops
  have n2 := nodup_runOps (m := StringSet.empty) (by simp [StringSet.empty]) ops'
  generalize runOps StringSet.empty ops = m at *
  generalize runOps StringSet.empty ops' = m' at *
  unfold StringSet.equal
  have hmem : ∀ s, s ∈ order ↔ s ∈ m.keys := fun s => ho.mem_iff
  constructor
  · intro h
    split at h
    · cases h
    · rename_i hlen
      rw [equalLoop_iff] at h
      have hsub : ∀ x ∈ m.keys, x ∈ m'.keys := fun x hx => includes_iff.mp (h x ((hmem x).mpr hx))
      have hsub2 : ∀ x ∈ m'.keys, x ∈ m.keys := by
        intro x hx
        apply Classical.byContradiction
        intro hn
        have hnd : (x :: m.keys).Nodup := List.nodup_cons.mpr ⟨hn, n1⟩
        have := hnd.length_le_of_subset (l₂ := m'.keys) (by
          intro y hy
          rcases List.mem_cons.mp hy with rfl | hy
          · exact hx
          · exact hsub y hy)
        simp at this; omega
      intro s
      rw [Bool.eq_iff_iff, includes_iff, includes_iff]; exact ⟨hsub s, hsub2 s⟩
  · intro h
    have hperm : m.keys.Perm m'.keys := by
      have h' : ∀ s, s ∈ m.keys ↔ s ∈ m'.keys := fun s => by rw [← includes_iff, ← includes_iff, h]
      exact (List.perm_ext_iff_of_nodup n1 n2).mpr h'
    rw [if_neg (by simpa using hperm.length_eq), equalLoop_iff]
    intro x hx
    rw [← h, includes_iff]; exact (hmem x).mp hx

/-- Slice lists every member exactly once, whatever the iteration order. -/
theorem C15_slice (ops : List SetOp) (order : List Str) (ho : Iterates (runOps StringSet.empty ops) order) :
    (StringSet.slice order).Nodup ∧
      ∀ s, s ∈ StringSet.slice order ↔ (runOps StringSet.empty ops).includes s = true := by
  have n1 := nodup_runOps (m := StringSet.empty) (by simp [StringSet.empty]) ops
  have e : ∀ (l acc : List Str), l.foldl (fun r k => r ++ [k]) acc = acc ++ l := by
    intro l
    induction l with
    | nil => simp
    | cons a l ih => intro acc; simp [ih]
  have e2 : StringSet.slice order = order := by simp [StringSet.slice, e]
  rw [e2]
  exact ⟨ho.nodup_iff.mpr n1, fun s => by rw [includes_iff]; exact ho.mem_iff⟩

/-- non-vacuity: a history with a removal and an iteration order that is not the insertion order. -/
example : Iterates (runOps StringSet.empty [.add r!"a", .add r!"b", .add r!"c", .remove r!"b"]) [r!"c", r!"a"] := by
  unfold Iterates; decide

end TP.Props
