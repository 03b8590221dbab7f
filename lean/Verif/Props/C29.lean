import Verif.Model.Walk

/-!
# C29: `WalkDown` is a complete preorder traversal that stops at the first error

A node is addressed by its path from the root (child positions, nil children counted).  The specification does not
mention the recursion of `WalkDown`: the sequence of visited paths is strictly increasing in the lexicographic order
(parents before children, children in order, no node twice) and contains every path at which there is a node.
-/

namespace TP.Spec
open TP

/-- the `i`-th child, if it is not nil -/
def child {α : Type} : Forest α → Nat → Option (Tree α)
  | .nil, _ => none
  | .skip _, 0 => none
  | .skip ts, i + 1 => child ts i
  | .cons t _, 0 => some t
  | .cons _ ts, i + 1 => child ts i

/-- the node of `t` at path `p` -/
def nodeAt {α : Type} : List Nat → Tree α → Option (Tree α)
  | [], t => some t
  | i :: p, .node _ cs =>
    match child cs i with
    | none => none
    | some t => nodeAt p t
  | _ :: _, .nilptr _ => none

/-- the value of a node -/
def value {α : Type} : Tree α → α
  | .node a _ => a
  | .nilptr a => a

/-- a node without nil pointers (nil interfaces are allowed) -/
def Proper {α : Type} (t : Tree α) : Prop := ∀ p a, nodeAt p t ≠ some (.nilptr a)

/-- lexicographic order of paths; a prefix comes first -/
inductive Before : List Nat → List Nat → Prop
  | prefix (i : Nat) (q : List Nat) : Before [] (i :: q)
  | smaller {i j : Nat} (p q : List Nat) (h : i < j) : Before (i :: p) (j :: q)
  | same (i : Nat) {p q : List Nat} (h : Before p q) : Before (i :: p) (i :: q)

/-- calling the visitor on a sequence, stopping at the first error -/
def visitAll {α σ ε : Type} (f : σ → α → σ × Option ε) : List α → σ → σ × Walk ε
  | [], s => (s, .ok)
  | a :: as, s =>
    match f s a with
    | (s1, some e) => (s1, .err e)
    | (s1, none) => visitAll f as s1

end TP.Spec

namespace TP.Props
open TP TP.Spec

section
variable {α : Type}

mutual
/-- the visited paths and values -/
def pre : Tree α → List (List Nat × α)
  | .node a cs => ([], a) :: preL 0 cs
  | .nilptr a => [([], a)]
def preL (i : Nat) : Forest α → List (List Nat × α)
  | .nil => []
  | .skip ts => preL (i + 1) ts
  | .cons t ts => (pre t).map (fun x => (i :: x.1, x.2)) ++ preL (i + 1) ts
end

theorem preL_head (ts : Forest α) (i : Nat) : ∀ x ∈ preL i ts, ∃ j q, x.1 = j :: q ∧ i ≤ j := by
  match ts with
  | .nil => simp [preL]
  | .skip ts =>
    intro x hx
    obtain ⟨j, q, h1, h2⟩ := preL_head ts (i + 1) x (by simpa [preL] using hx)
    exact ⟨j, q, h1, by omega⟩
  | .cons t ts =>
    intro x hx
    simp only [preL, List.mem_append, List.mem_map] at hx
    rcases hx with ⟨y, _, rfl⟩ | hx
    · exact ⟨i, y.1, rfl, Nat.le_refl _⟩
    · obtain ⟨j, q, h1, h2⟩ := preL_head ts (i + 1) x hx
      exact ⟨j, q, h1, by omega⟩

mutual
theorem pre_sorted (t : Tree α) : (pre t).Pairwise (fun x y => Before x.1 y.1) := by
  match t with
  | .nilptr a => simp [pre]
  | .node a cs =>
    simp only [pre, List.pairwise_cons]
    refine ⟨?_, preL_sorted cs 0⟩
    intro x hx
    obtain ⟨j, q, h, _⟩ := preL_head cs 0 x hx
    rw [h]; exact .prefix j q
theorem preL_sorted (ts : Forest α) (i : Nat) : (preL i ts).Pairwise (fun x y => Before x.1 y.1) := by
  match ts with
  | .nil => simp [preL]
  | .skip ts => simpa [preL] using preL_sorted ts (i + 1)
  | .cons t ts =>
    simp only [preL]
    rw [List.pairwise_append]
    refine ⟨?_, preL_sorted ts (i + 1), ?_⟩
    · rw [List.pairwise_map]
      exact (pre_sorted t).imp (fun h => .same i h)
    · intro x hx y hy
      simp only [List.mem_map] at hx
      obtain ⟨z, _, rfl⟩ := hx
      obtain ⟨j, q, h, hj⟩ := preL_head ts (i + 1) y hy
      rw [h]; exact .smaller _ _ (by omega)
end

mutual
theorem pre_mem (t : Tree α) (p : List Nat) (a : α) :
    (p, a) ∈ pre t ↔ ∃ n, nodeAt p t = some n ∧ value n = a := by
  match t with
  | .nilptr b =>
    cases p with
    | nil => simp [pre, nodeAt, value, eq_comm]
    | cons i p => simp [pre, nodeAt]
  | .node b cs =>
    cases p with
    | nil =>
      simp only [pre, nodeAt, List.mem_cons]
      constructor
      · rintro (h | h)
        · cases h; exact ⟨_, rfl, rfl⟩
        · obtain ⟨j, q, h, _⟩ := preL_head cs 0 _ h
          cases h
      · rintro ⟨n, hn, ha⟩
        cases hn; cases ha; exact Or.inl rfl
    | cons i p =>
      have h := preL_mem cs 0 i p a
      simp only [pre, nodeAt, List.mem_cons, Nat.zero_add] at h ⊢
      rw [show ((i :: p, a) = ([], b)) = False by simp, false_or, h]
      cases child cs i with
      | none => simp
      | some t => simp
theorem preL_mem (ts : Forest α) (k i : Nat) (p : List Nat) (a : α) :
    ((k + i) :: p, a) ∈ preL k ts ↔ ∃ t, child ts i = some t ∧ ∃ n, nodeAt p t = some n ∧ value n = a := by
  match ts with
  | .nil => simp [preL, child]
  | .skip ts =>
    cases i with
    | zero =>
      simp only [preL, child, Nat.add_zero]
      constructor
      · intro h
        obtain ⟨j, q, h1, h2⟩ := preL_head ts (k + 1) _ h
        simp only [List.cons.injEq] at h1
        omega
      · simp
    | succ i =>
      have h := preL_mem ts (k + 1) i p a
      rw [show k + 1 + i = k + (i + 1) by omega] at h
      simpa [preL, child] using h
  | .cons t ts =>
    simp only [preL, List.mem_append, List.mem_map]
    cases i with
    | zero =>
      simp only [child, Nat.add_zero]
      constructor
      · rintro (⟨x, hx, he⟩ | h)
        · simp only [Prod.mk.injEq, List.cons.injEq, true_and] at he
          obtain ⟨h1, h2⟩ := he
          refine ⟨t, rfl, (pre_mem t p a).1 ?_⟩
          rw [← h1, ← h2]; exact hx
        · obtain ⟨j, q, h1, h2⟩ := preL_head ts (k + 1) _ h
          simp only [List.cons.injEq] at h1
          omega
      · rintro ⟨t', ht, h⟩
        cases ht
        exact Or.inl ⟨(p, a), (pre_mem t p a).2 h, rfl⟩
    | succ i =>
      have h := preL_mem ts (k + 1) i p a
      rw [show k + 1 + i = k + (i + 1) by omega] at h
      simp only [child]
      rw [← h]
      constructor
      · rintro (⟨x, hx, he⟩ | h)
        · simp only [Prod.mk.injEq, List.cons.injEq] at he
          omega
        · exact h
      · exact Or.inr
end

variable {σ ε : Type} (f : σ → α → σ × Option ε)

theorem visitAll_append (l₁ l₂ : List α) (s : σ) :
    visitAll f (l₁ ++ l₂) s =
      match visitAll f l₁ s with
      | (s1, .ok) => visitAll f l₂ s1
      | r => r := by
  induction l₁ generalizing s with
  | nil => simp [visitAll]
  | cons a l ih =>
    simp only [List.cons_append, visitAll]
    cases f s a with
    | mk s1 o =>
      cases o with
      | some e => rfl
      | none => exact ih s1

mutual
/-- no nil pointer, by recursion -/
def properT : Tree α → Bool
  | .node _ cs => properF cs
  | .nilptr _ => false
def properF : Forest α → Bool
  | .nil => true
  | .skip ts => properF ts
  | .cons t ts => properT t && properF ts
end

mutual
theorem properT_of (t : Tree α) (h : ∀ p a, nodeAt p t ≠ some (.nilptr a)) : properT t = true := by
  match t with
  | .nilptr a => exact absurd rfl (h [] a)
  | .node a cs =>
    simp only [properT]
    refine properF_of cs (fun i t ht p a hp => h (i :: p) a ?_)
    simp only [nodeAt, ht]; exact hp
theorem properF_of (ts : Forest α) (h : ∀ i t, child ts i = some t → ∀ p a, nodeAt p t ≠ some (.nilptr a)) :
    properF ts = true := by
  match ts with
  | .nil => rfl
  | .skip ts => exact properF_of ts (fun i t ht => h (i + 1) t ht)
  | .cons t ts =>
    simp only [properF, Bool.and_eq_true]
    exact ⟨properT_of t (h 0 t rfl), properF_of ts (fun i t ht => h (i + 1) t ht)⟩
end

mutual
theorem walk_pre (t : Tree α) (ht : properT t = true) (s : σ) :
    walkDown f t s = visitAll f ((pre t).map (·.2)) s := by
  match t with
  | .nilptr a => cases ht
  | .node a cs =>
    simp only [walkDown, pre, List.map_cons, visitAll]
    cases f s a with
    | mk s1 o =>
      cases o with
      | some e => rfl
      | none => exact walk_preL cs ht 0 s1
theorem walk_preL (ts : Forest α) (ht : properF ts = true) (i : Nat) (s : σ) :
    walkChildren f ts s = visitAll f ((preL i ts).map (·.2)) s := by
  match ts with
  | .nil => rfl
  | .skip ts => simp only [walkChildren, preL]; exact walk_preL ts ht (i + 1) s
  | .cons t ts =>
    simp only [properF, Bool.and_eq_true] at ht
    simp only [walkChildren, preL, List.map_append, List.map_map]
    rw [visitAll_append, walk_pre t ht.1 s]
    simp only [Function.comp_def]
    cases visitAll f ((pre t).map (fun x => x.2)) s with
    | mk s1 r =>
      cases r with
      | ok => exact walk_preL ts ht.2 (i + 1) s1
      | err e => rfl
      | panic => rfl
end

/-- For every tree and every stateful visitor: `WalkDown` calls the visitor on a sequence of nodes that is strictly
increasing in the order "parents before children, children in order" (in particular no node twice), that contains
exactly the nodes of the tree, and it stops at the first error, returning that error. -/
theorem C29_preorder (t : Tree α) (ht : Proper t) :
    ∃ l : List (List Nat × α),
      l.Pairwise (fun x y => Before x.1 y.1) ∧
      (∀ p a, (p, a) ∈ l ↔ ∃ n, nodeAt p t = some n ∧ value n = a) ∧
      ∀ {σ ε : Type} (f : σ → α → σ × Option ε) (s : σ), walkDown f t s = visitAll f (l.map (·.2)) s :=
  ⟨pre t, pre_sorted t, pre_mem t, fun f s => walk_pre f t (properT_of t ht) s⟩

/-- the order is irreflexive, so "strictly increasing" implies that no path occurs twice -/
theorem before_irrefl (p : List Nat) : ¬ Before p p := by
  induction p with
  | nil => intro h; cases h
  | cons i p ih =>
    intro h
    cases h with
    | smaller _ _ h => omega
    | same _ h => exact ih h

/-- what stopping means: if the visitor accepts the nodes `l₁` and fails with `e` on the next one, nothing else is
called and `e` is returned -/
theorem C29_stop (l₁ l₂ : List α) (a : α) (s s1 s2 : σ) (e : ε)
    (h1 : visitAll f l₁ s = (s1, .ok)) (h2 : f s1 a = (s2, some e)) :
    visitAll f (l₁ ++ a :: l₂) s = (s2, .err e) := by
  rw [visitAll_append, h1]
  simp [visitAll, h2]

/-- A child that is an interface holding a nil pointer is not skipped: the visitor gets it and then `WalkDown`
panics. -/
theorem C29_nil_pointer (a b : α) (s s1 s2 : σ) (h1 : f s a = (s1, none)) (h2 : f s1 b = (s2, none)) :
    walkDown f (.node a (.cons (.nilptr b) .nil)) s = (s2, .panic) := by
  simp [walkDown, walkChildren, h1, h2]
end

/-- a tree with a nil child: the visitor collects the values and fails on 4 -/
def exTree : Tree Nat := .node 1 (.cons (.node 2 (.cons (.node 3 .nil) .nil)) (.skip (.cons (.node 4 .nil) (.cons (.node 5 .nil) .nil))))

example : Proper exTree := by
  intro p a h
  match p with
  | [] => simp [nodeAt, exTree] at h
  | [0] => simp [nodeAt, exTree, child] at h
  | [1] => simp [nodeAt, exTree, child] at h
  | [2] => simp [nodeAt, exTree, child] at h
  | [3] => simp [nodeAt, exTree, child] at h
  | (n + 4) :: p => simp [nodeAt, exTree, child] at h
  | [0, 0] => simp [nodeAt, exTree, child] at h
  | 0 :: 0 :: i :: p => simp [nodeAt, exTree, child] at h
  | 0 :: (n + 1) :: p => simp [nodeAt, exTree, child] at h
  | 1 :: i :: p => simp [nodeAt, exTree, child] at h
  | 2 :: i :: p => simp [nodeAt, exTree, child] at h
  | 3 :: i :: p => simp [nodeAt, exTree, child] at h

example : walkDown (fun (s : List Nat) a => (s ++ [a], if a = 4 then some "no" else none)) exTree [] =
    ([1, 2, 3, 4], .err "no") := rfl
example : walkDown (fun (s : List Nat) a => (s ++ [a], (none : Option Unit))) exTree [] = ([1, 2, 3, 4, 5], .ok) := rfl

end TP.Props
