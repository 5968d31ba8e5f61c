import Verif.SpecShare

/-!
# Specification vocabulary: programs that go on after a panic
-/

namespace GB.Share

variable {T : Type} [GoNum T]

/-- A program whose every action is wrapped in a function with `defer recover()`: when an action
panics, the program goes on with the next one, in the memory as the panic left it. -/
def tryLow (os : List LMat) : List (Act T) → H T (List LMat)
  | [] => pure os
  | a :: as => fun m =>
    match a.low os m with
    | .ok os' m' => tryLow os' as m'
    | .panic m' => tryLow os as m'
    | .hang m' => .hang m'

/-- The same when every object is a value of its own and an action that panics is left out. -/
def tryHigh (vs : List (Mat T)) : List (Act T) → Out (List (Mat T))
  | [] => .ok vs
  | a :: as =>
    match a.high vs with
    | .ok vs' => tryHigh vs' as
    | .panic => tryHigh vs as
    | .hang => .hang

/-- The program does not write through iterators. -/
def Tame (as : List (Act T)) : Prop := ∀ k it x, Act.call k (.put it x) ∉ as

end GB.Share
