import Verif.Model.BFS

/-!
# Model of `Search` with predicates that use the program's objects

In Model/BFS.lean the predicate looks at the vectors it is given and writes nothing. Here it may do anything: write the
vector it is given, write the graph, allocate, panic, or never return.
-/

namespace GB
namespace BFS
open M

variable {T : Type} [GoNum T]

/-- breadthFirst.go:32-43, the loop. -/
def turnsBy (a visited result : Ref) (c : Ref → M T Bool) : Nat → Ref → M T Unit
  | 0, _ => pure ()
  | n + 1, frontier => do
    Ops.matrixVectorMultiply a frontier (.ref visited) result
    let b ← c result
    if b then pure ()
    else do
      Ops.elementWiseVectorAdd visited result .nil visited
      let frontier ← M.copy result
      M.clear result
      turnsBy a visited result c n frontier

/-- breadthFirst.go:16-46 `Search`. -/
def searchBy (a : Ref) (s : Int) (c : Ref → M T Bool) : M T Ref := do
  let n ← rowsOf a
  let v ← lift ((DVec.new n).setVec s 1)
  let frontier ← alloc (.dvec v)
  let visited ← M.copy frontier
  let result ← alloc (.dvec (DVec.new n))
  turnsBy a visited result c n frontier
  pure result

end BFS
end GB
