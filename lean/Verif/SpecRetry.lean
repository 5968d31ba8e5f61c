import Verif.SpecReplay
import Verif.SpecMat

/-!
# What a sequence of calls, each cancelled at a point of its own, writes

Statement layer of C96.
-/

namespace GB

variable {T : Type} [GoNum T] [GoStore T]

/-- The calls an operator makes on its output with a context cancelled after so many looks (`none`: never). -/
def OpCall.callsOf (w : World T) (mask : Mask) (call : OpCall T) : Option Nat → List (Op T)
  | none => call.calls w mask
  | some k => call.callsWithin w mask k

/-- The cell a call writes. -/
def Op.cell : Op T → Option (Nat × Nat)
  | .set i j _ => some (i, j)
  | .update i j _ => some (i, j)
  | _ => none

/-- How many of the calls write cell `(i, j)`. -/
def times (ops : List (Op T)) (i j : Nat) : Nat := (ops.filter fun o => o.cell == some (i, j)).length

/-- The operator is none of the element-wise sums, and it enumerates no sparse vector. -/
def OpCall.Single (w : World T) : OpCall T → Prop
  | .eAddMatrix _ _ | .eAddVector _ _ => False
  | .mxm _ _ | .mxv _ _ | .vxm _ _ => True
  | .negative _ => True
  | .add s m | .eMulMatrix s m | .eMulVector s m => (lead w s m).kind ≠ .svec
  | .subtract s _ | .apply s _ | .transpose s => (w.heap s).kind ≠ .svec

end GB
