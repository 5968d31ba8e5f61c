import Verif.Model.Operators

/-!
# Model of breadthfirst/breadthFirst.go
-/

namespace GB
namespace BFS
open M

variable {T : Type} [GoNum T]

/-- The contents of an object. -/
def look (p : Ref) : M T (Mat T) := fun w => .ok (w.heap p) w

/-- breadthFirst.go:32-43, the loop. The predicate `c` may keep state of its own, so it is a function
of all the vectors it has been called with; it does not write to the matrices of the search. The
result is the list of those vectors (an observation; the Go function returns `result` only). -/
def turns (a visited result : Ref) (c : List (Mat T) → Bool) : Nat → Ref → List (Mat T) → M T (List (Mat T))
  | 0, _, tr => pure tr
  | n + 1, frontier, tr => do
    Ops.matrixVectorMultiply a frontier (.ref visited) result
    let v ← look result
    if c (tr ++ [v]) then pure (tr ++ [v])
    else do
      Ops.elementWiseVectorAdd visited result .nil visited
      let frontier ← M.copy result
      M.clear result
      turns a visited result c n frontier (tr ++ [v])

/-- breadthFirst.go:16-46 `Search`; the result comes with the vectors the predicate was given. -/
def search (a : Ref) (s : Int) (c : List (Mat T) → Bool) : M T (Ref × List (Mat T)) := do
  let n ← rowsOf a
  let v ← lift ((DVec.new n).setVec s 1)
  let frontier ← alloc (.dvec v)
  let visited ← M.copy frontier
  let result ← alloc (.dvec (DVec.new n))
  let tr ← turns a visited result c n frontier []
  pure (result, tr)

end BFS
end GB
