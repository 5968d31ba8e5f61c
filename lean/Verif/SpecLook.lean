import Verif.Model.Steps
import Verif.Props.Total

/-!
# The moments at which an operation looks at its context
-/

namespace GB

variable {T : Type} [GoNum T]

namespace Prog

/-- The state in which the program looks at its context for the `k+1`-st time when it is never told that the context is
cancelled; `none` if it looks at most `k` times. -/
def atLook {α : Type} : Prog T α → Nat → World T → Option (World T)
  | ret _, _, _ => none
  | fail, _, _ => none
  | hang, _, _ => none
  | poll _, 0, w => some w
  | poll f, k + 1, w => atLook (f false) k w
  | names f, k, w => atLook (f w.reg) k w
  | call p f g, k, w =>
    match M.withObj p f w with
    | .ok b w' => atLook (g b) k w'
    | _ => none

/-- How often the program looks at its context when it is never told that the context is cancelled. -/
def looks {α : Type} : Prog T α → World T → Nat
  | ret _, _ => 0
  | fail, _ => 0
  | hang, _ => 0
  | poll f, w => looks (f false) w + 1
  | names f, w => looks (f w.reg) w
  | call p f g, w =>
    match M.withObj p f w with
    | .ok b w' => looks (g b) w'
    | _ => 0

end Prog

/-- The same outcome with another context. -/
def Res.withCancel {α : Type} (c : Option Nat) : Res T α → Res T α
  | .ok a w => .ok a { w with cancel := c }
  | .panic w => .panic { w with cancel := c }
  | .hang w => .hang { w with cancel := c }

/-- The operator reads and writes `out` through one `Map` iterator: `Negative`, and `Apply` when the output is the
operand. -/
def OpCall.Maps (out : Ref) : OpCall T → Prop
  | .negative _ => True
  | .apply s _ => s = out
  | _ => False

/-- What the operator goes through: the entries of the operand it enumerates (of both operands for the element-wise sum,
unless they are the output), or all the products of all the inner products. -/
def OpCall.work (w : World T) (out : Ref) : OpCall T → Nat
  | .mxm s m | .mxv s m | .vxm m s => (w.heap s).rows * ((w.heap m).cols * (w.heap s).cols)
  | .add s m => if (w.heap s).typeName ∈ w.reg then (w.heap s).nvalues else (w.heap m).nvalues
  | .subtract s _ | .apply s _ | .transpose s => (w.heap s).nvalues
  | .negative _ => (w.heap out).nvalues
  | .eMulMatrix s m | .eMulVector s m =>
    if m = out then (w.heap s).nvalues else if s = out then (w.heap m).nvalues else
      if (w.heap s).typeName ∈ w.reg then (w.heap s).nvalues else (w.heap m).nvalues
  | .eAddMatrix s m | .eAddVector s m =>
    (if s = out then 0 else (w.heap s).nvalues) + if m = out then 0 else (w.heap m).nvalues

/-- For the multiplications: the output has room for the product. For the others: an output that is a CSR or CSC matrix
is no operand. -/
def OpCall.Room (w : World T) (out : Ref) (op : OpCall T) : Prop :=
  match op with
  | .mxm s m | .mxv s m | .vxm m s => (w.heap s).rows ≤ (w.heap out).rows ∧ (w.heap m).cols ≤ (w.heap out).cols
  | op => out ∈ op.operands ∨ op.Maps out → (w.heap out).kind ≠ .csr ∧ (w.heap out).kind ≠ .csc

/-- The multiplications: the length of the inner products is not 0. -/
def OpCall.Inner (w : World T) : OpCall T → Prop
  | .mxm s _ | .mxv s _ | .vxm _ s => (w.heap s).cols ≠ 0
  | _ => True

/-- The two states differ at most in the listed cells of `out`, which keeps its type and its shape. -/
def CellsOnly (out : Ref) (ps : List (Nat × Nat)) (w w' : World T) : Prop :=
  (∀ q, q ≠ out → w'.heap q = w.heap q) ∧ Mat.Same (w'.heap out) (w.heap out) ∧
  ∀ i j, i < (w.heap out).rows → j < (w.heap out).cols → (i, j) ∉ ps → (w'.heap out).val i j = (w.heap out).val i j

end GB
