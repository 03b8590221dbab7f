/-!
# Model of `astcore.WalkDown`, `ast/astcore/node.go:30-42`

A node is its identity `a` together with the nodes returned by `Children`.  A child may be a nil interface (`skip`).
An interface that holds a nil pointer is not nil for Go; calling `Children` on it dereferences the pointer
(`nilptr`), for example `FunctionDecl{...}.Children()` (`ast/function.go:41-43`) when the field `Block` is nil.
-/

namespace TP

mutual
inductive Tree (α : Type)
  | node (a : α) (cs : Forest α)
  | nilptr (a : α)
inductive Forest (α : Type)
  | nil
  | skip (ts : Forest α)
  | cons (t : Tree α) (ts : Forest α)
end

/-- outcome of a walk -/
inductive Walk (ε : Type)
  | ok
  | err (e : ε)
  | panic
  deriving DecidableEq, Repr

section
variable {α σ ε : Type} (f : σ → α → σ × Option ε)

mutual
/-- `WalkDown`, `ast/astcore/node.go:30-42`: the visitor `f` may change a state `s` and return an error. -/
def walkDown : Tree α → σ → σ × Walk ε
  | .node a cs, s =>
    match f s a with
    | (s1, some e) => (s1, .err e)
    | (s1, none) => walkChildren cs s1
  | .nilptr a, s =>
    match f s a with
    | (s1, some e) => (s1, .err e)
    | (s1, none) => (s1, .panic)
/-- the loop of `WalkDown`, `ast/astcore/node.go:34-40` -/
def walkChildren : Forest α → σ → σ × Walk ε
  | .nil, s => (s, .ok)
  | .skip ts, s => walkChildren ts s
  | .cons t ts, s =>
    match walkDown t s with
    | (s1, .ok) => walkChildren ts s1
    | r => r
end
end

end TP
