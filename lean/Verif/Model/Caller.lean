import Verif.Model.Operators

/-!
# `Apply` with an arbitrary function of the caller

`Ops.apply` takes a function in the sense of mathematics. A function of the caller may also remember its earlier calls, and
may panic. `u past v` is what it answers to `v` after it has been called with the arguments `past`, in order; `none` is a
panic. Simplification: the function does not itself use the objects of the call.
-/

namespace GB

variable {T : Type} [GoNum T]

namespace Ops
open M

/-- operators.go:336-351, the loop of `Apply` in place; the function is called inside `iterator.Map`, before the value is
stored (csrMatrix.go:393-401 and alike). -/
def mapBy (p : Ref) (mask : Mask) (u : List T → T → Option T) : Nat → Mat.Iter → List T → M T Unit
  | 0, it, _ => if it.hasNext then (fun w => .hang w) else pure ()
  | g + 1, it, past =>
    if it.hasNext then do
      let stop ← poll
      if stop then pure ()
      else do
        let (it', r, c, v) ← ofObj p (fun m => m.step it)
        let e ← mask.element r c
        if e then
          match u past v with
          | none => fail
          | some v' => do
            withObj p (fun m => do let m' ← m.put it' v'; .ok ((), m'))
            mapBy p mask u g it' (past ++ [v])
        else do
          withObj p (fun m => do let m' ← m.put it' v; .ok ((), m'))
          mapBy p mask u g it' past
    else pure ()

/-- operators.go:355-365, the loop of `Apply` into another object; the function is called before `Set`. -/
def eachBy (p : Ref) (mask : Mask) (u : List T → T → Option T) (matrix : Ref) : Nat → Mat.Iter → List T → M T Unit
  | 0, it, _ => if it.hasNext then (fun w => .hang w) else pure ()
  | g + 1, it, past =>
    if it.hasNext then do
      let stop ← poll
      if stop then pure ()
      else do
        let (it', r, c, v) ← ofObj p (fun m => m.step it)
        let e ← mask.element r c
        if !e then
          match u past v with
          | none => fail
          | some v' => do
            set matrix c r v'
            eachBy p mask u matrix g it' (past ++ [v])
        else eachBy p mask u matrix g it' past
    else pure ()

/-- operators.go:323-366 `Apply`, with any function. -/
def applyBy (inp : Ref) (mask : Mask) (u : List T → T → Option T) (matrix : Ref) : M T Unit := do
  let mask ← mask.orEmpty matrix
  mask.check matrix
  if inp = matrix then do
    let it ← iterOf inp
    fun w => mapBy inp mask u w.gas it [] w
  else do
    let it ← iterOf inp
    fun w => eachBy inp mask u matrix w.gas it [] w

end Ops
end GB
