import Verif.Model.Steps

/-!
# Operators whose mask is changed while they run

A `*MutexMatrix` satisfies `Mask` (mask.go:9-25) and is made to be written by other goroutines. An operator asks such a
mask for `Rows()`, `Columns()` and `Element(r, c)` (mutexMatrix.go:27-35, 185-191, the last under the read lock), one call after
another, while others set its cells.

Here the stepwise operators of `Model/Steps.lean` run while one object, the mask, is changed by others. Nothing is
assumed about those others: `μ t` is the mask at the moment `t`, for any `μ`. Simplification: a call on the mask happens
at one moment, and what it stores back (`Element` of a compressed matrix stores the value it found in its place) does
not count. C35 and C89 are about the steps of the calls under the lock.
-/

namespace GB

variable {T : Type} [GoNum T]

/-- The program runs from the moment `t` on, while the object `q` is `μ t` at the moment `t`; every poll of the context,
look into the registry and method call is one moment. The outcome, and the moment at which it is reached. -/
def Prog.amid (q : Ref) (μ : Nat → Mat T) {α : Type} : Prog T α → Nat → World T → Res T α × Nat
  | .ret a, t, w => (.ok a w, t)
  | .fail, t, w => (.panic w, t)
  | .hang, t, w => (.hang w, t)
  | .poll k, t, w =>
    match M.poll w with
    | .ok b w' => (k b).amid q μ (t + 1) w'
    | .panic w' => (.panic w', t + 1)
    | .hang w' => (.hang w', t + 1)
  | .names k, t, w => (k w.reg).amid q μ (t + 1) w
  | .call p f k, t, w =>
    if p = q then
      match f (μ t) with
      | .ok (b, _) => (k b).amid q μ (t + 1) w
      | .panic => (.panic w, t + 1)
      | .hang => (.hang w, t + 1)
    else
      match M.withObj p f w with
      | .ok b w' => (k b).amid q μ (t + 1) w'
      | .panic w' => (.panic w', t + 1)
      | .hang w' => (.hang w', t + 1)

/-- The program state with another object in the place of `q`. -/
def World.with (w : World T) (q : Ref) (m : Mat T) : World T := { w with heap := Function.update w.heap q m }

/-- The outcome with another object in the place of `q`. -/
def Res.with {α : Type} (q : Ref) (m : Mat T) : Res T α → Res T α
  | .ok a w => .ok a (w.with q m)
  | .panic w => .panic (w.with q m)
  | .hang w => .hang (w.with q m)

end GB
