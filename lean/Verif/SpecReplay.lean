import Verif.Props.Exact
import Verif.Lemmas.Ordered

/-!
# The calls an operator makes on its output
-/

namespace GB

variable {T : Type} [GoNum T]

/-- What `Enumerate` delivers, in order: a sparse vector what it has stored, the other compressed formats the cells that
are not 0, the dense ones all cells; CSC column by column, the others row by row. -/
def Mat.entries (m : Mat T) : List (Nat × Nat × T) :=
  match m with
  | .svec s => (s.indices.zip s.values).map fun e => (e.1, 0, e.2)
  | m => (m.scan.filter fun p => !(m.kind.sparse && isZero (m.val p.1 p.2))).map fun p => (p.1, p.2, m.val p.1 p.2)

/-- The operand `Add` and the element-wise product read with `At`. -/
def follow (w : World T) (s m : Ref) : Mat T := if (w.heap s).typeName ∈ w.reg then w.heap m else w.heap s

/-- The calls an operator makes on its output, in order. They depend on the operands and the mask only. -/
def OpCall.calls (w : World T) (mask : Mask) : OpCall T → List (Op T)
  | .mxm s m | .mxv s m | .vxm m s =>
    (List.range (w.heap s).rows).flatMap fun i => (List.range (w.heap m).cols).flatMap fun j =>
      if mask.bit w i j then []
      else [.set i j (dotSum (w.heap s).cols ((w.heap s).rowVal i) ((w.heap m).colVal j))]
  | .add s m => (lead w s m).entries.flatMap fun e =>
      if mask.bit w e.1 e.2.1 then [] else [.set e.1 e.2.1 ((follow w s m).val e.1 e.2.1 + e.2.2)]
  | .subtract s _ => (w.heap s).entries.flatMap fun e =>
      if mask.bit w e.1 e.2.1 then [] else [.update e.1 e.2.1 fun v => e.2.2 - v]
  | .eMulMatrix s m | .eMulVector s m => (lead w s m).entries.flatMap fun e =>
      if GoNum.geq e.2.2 ((follow w s m).val e.1 e.2.1) && !mask.bit w e.1 e.2.1 then [.set e.1 e.2.1 e.2.2] else []
  | .eAddMatrix s m | .eAddVector s m => ((w.heap s).entries ++ (w.heap m).entries).flatMap fun e =>
      if isZero e.2.2 || mask.bit w e.1 e.2.1 then [] else [.set e.1 e.2.1 e.2.2]
  | .apply s u => (w.heap s).entries.flatMap fun e =>
      if mask.bit w e.1 e.2.1 then [] else [.set e.2.1 e.1 (u e.2.2)]
  | .transpose s => (w.heap s).entries.flatMap fun e =>
      if mask.bit w e.1 e.2.1 then [] else [.set e.2.1 e.1 e.2.2]
  | .negative _ => []

/-- The calls turn by turn: a turn is an entry of the operand gone through, or a cell of the product. -/
def OpCall.turns (w : World T) (mask : Mask) : OpCall T → List (List (Op T))
  | .mxm s m | .mxv s m | .vxm m s =>
    (List.range (w.heap s).rows).flatMap fun i => (List.range (w.heap m).cols).map fun j =>
      if mask.bit w i j then []
      else [.set i j (dotSum (w.heap s).cols ((w.heap s).rowVal i) ((w.heap m).colVal j))]
  | .add s m => (lead w s m).entries.map fun e =>
      if mask.bit w e.1 e.2.1 then [] else [.set e.1 e.2.1 ((follow w s m).val e.1 e.2.1 + e.2.2)]
  | .subtract s _ => (w.heap s).entries.map fun e =>
      if mask.bit w e.1 e.2.1 then [] else [.update e.1 e.2.1 fun v => e.2.2 - v]
  | .eMulMatrix s m | .eMulVector s m => (lead w s m).entries.map fun e =>
      if GoNum.geq e.2.2 ((follow w s m).val e.1 e.2.1) && !mask.bit w e.1 e.2.1 then [.set e.1 e.2.1 e.2.2] else []
  | .eAddMatrix s m | .eAddVector s m => ((w.heap s).entries ++ (w.heap m).entries).map fun e =>
      if isZero e.2.2 || mask.bit w e.1 e.2.1 then [] else [.set e.1 e.2.1 e.2.2]
  | .apply s u => (w.heap s).entries.map fun e =>
      if mask.bit w e.1 e.2.1 then [] else [.set e.2.1 e.1 (u e.2.2)]
  | .transpose s => (w.heap s).entries.map fun e =>
      if mask.bit w e.1 e.2.1 then [] else [.set e.2.1 e.1 e.2.2]
  | .negative _ => []

/-- How often an operator looks at its context in one turn: once, a multiplication once for each product it adds up. -/
def OpCall.pace (w : World T) : OpCall T → Nat
  | .mxm s _ | .mxv s _ | .vxm _ s => (w.heap s).cols
  | _ => 1

/-- The calls an operator makes that looks `k` times before it finds its context cancelled: those of the turns it has
completed. -/
def OpCall.callsWithin (w : World T) (mask : Mask) (k : Nat) (call : OpCall T) : List (Op T) :=
  if call.pace w = 0 then call.calls w mask else ((call.turns w mask).take (k / call.pace w)).flatten

/-- What the theorems of C94 and C95 ask for: objects in any state a program can bring about, fitting shapes, an output
that is neither an operand nor the mask, enough turns. -/
structure OpCall.Ready (w : World T) (mask : Mask) (out : Ref) (call : OpCall T) : Prop where
  operands : ∀ p ∈ call.operands, (w.heap p).Inv
  output : (w.heap out).Inv
  shapes : call.Shapes w mask out
  writes : ∀ s, call ≠ .negative s
  apart : ∀ p ∈ call.operands, p ≠ out
  fits : mask.Fits w out
  sound : mask.Sound w
  masked : mask ≠ .ref out
  gas : ∀ p ∈ call.operands, (w.heap p).nvalues ≤ w.gas

/-- The same call again and again, each time with a new context, cancelled after so many looks (`none`: never). -/
def OpCall.tries (mask : Mask) (out : Ref) (call : OpCall T) : World T → List (Option Nat) → Res T Unit
  | w, [] => .ok () w
  | w, c :: cs =>
    match call.run mask out { w with cancel := c } with
    | .ok _ w' => call.tries mask out w' cs
    | r => r

/-- What a call on a sparse vector writes: position and value. -/
def Op.written : Op T → Option (Nat × T)
  | .set i _ v => some (i, v)
  | _ => none

end GB
