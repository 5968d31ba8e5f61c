import Verif.Model.Reduce

/-!
# `nil` matrix arguments

An interface argument is `none` (a nil interface) or `some p`. Calling a method of a nil interface is
a run-time panic. The functions below follow operators.go up to the point where every argument has
been used once; from there on the arguments are objects and the rest is the function of
`Model/Operators.lean`, whose first lines repeat checks that have just been passed.
Interfaces that hold a nil pointer: `Model/NilPtr.lean`.
-/

namespace GB

variable {T : Type} [GoNum T]

namespace Nil
open M

/-- A method call on an interface value: panics on nil. -/
def use (a : Option Ref) : M T Ref :=
  match a with
  | some p => pure p
  | none => fail

/-- `if mask == nil { mask = NewEmptyMask(matrix.Rows(), matrix.Columns()) }` and the two shape checks
(operators.go:24-34 and the other operators) use `matrix`, whatever the mask. -/
def checkMask (mask : Mask) (matrix : Option Ref) : M T Ref := do
  match mask with
  | .nil => do
    let out ← use matrix
    let mask ← mask.orEmpty out
    mask.check out
    pure out
  | _ => do
    let _ ← mask.rows
    let out ← use matrix
    mask.check out
    pure out

/-- operators.go:19-60 `multiply`: line 20 uses `m`, then `s`. -/
def multiply (s m : Option Ref) (mask : Mask) (matrix : Option Ref) : M T Unit := do
  let m ← use m
  let s ← use s
  let mr ← rowsOf m
  let sc ← colsOf s
  if mr ≠ sc then fail
  let out ← checkMask mask matrix
  Ops.multiply s m mask out

/-- operators.go:150-156 `ElementWiseMatrixMultiply`: line 151 uses `m`, then `s`. -/
def elementWiseMatrixMultiply (s m : Option Ref) (mask : Mask) (matrix : Option Ref) : M T Unit := do
  let m ← use m
  let s ← use s
  let mr ← rowsOf m
  let sc ← colsOf s
  if mr ≠ sc then fail
  let out ← checkMask mask matrix
  Ops.elementWiseMatrixMultiply s m mask out

/-- operators.go:161-167 `ElementWiseVectorMultiply`. -/
def elementWiseVectorMultiply (s m : Option Ref) (mask : Mask) (vector : Option Ref) : M T Unit := do
  let m ← use m
  let s ← use s
  let mr ← rowsOf m
  let sr ← rowsOf s
  if mr ≠ sr then fail
  let out ← checkMask mask vector
  Ops.elementWiseVectorMultiply s m mask out

/-- operators.go:264-270 `ElementWiseMatrixAdd`. -/
def elementWiseMatrixAdd (s m : Option Ref) (mask : Mask) (matrix : Option Ref) : M T Unit := do
  let m ← use m
  let s ← use s
  let mr ← rowsOf m
  let sc ← colsOf s
  if mr ≠ sc then fail
  let out ← checkMask mask matrix
  Ops.elementWiseMatrixAdd s m mask out

/-- operators.go:275-281 `ElementWiseVectorAdd`. -/
def elementWiseVectorAdd (s m : Option Ref) (mask : Mask) (vector : Option Ref) : M T Unit := do
  let m ← use m
  let s ← use s
  let mr ← rowsOf m
  let sr ← rowsOf s
  if mr ≠ sr then fail
  let out ← checkMask mask vector
  Ops.elementWiseVectorAdd s m mask out

/-- operators.go:170-213 `Add`: line 171 uses `s`, then `m`. -/
def add (s m : Option Ref) (mask : Mask) (matrix : Option Ref) : M T Unit := do
  let s ← use s
  let m ← use m
  let sc ← colsOf s
  let mc ← colsOf m
  if sc ≠ mc then fail
  let sr ← rowsOf s
  let mr ← rowsOf m
  if sr ≠ mr then fail
  let out ← checkMask mask matrix
  Ops.add s m mask out

/-- operators.go:284-318 `Subtract`: line 285 uses `s`, then `m`. -/
def subtract (s m : Option Ref) (mask : Mask) (matrix : Option Ref) : M T Unit := do
  let s ← use s
  let m ← use m
  let sc ← colsOf s
  let mc ← colsOf m
  if sc ≠ mc then fail
  let sr ← rowsOf s
  let mr ← rowsOf m
  if sr ≠ mr then fail
  let out ← checkMask mask matrix
  Ops.subtract s m mask out

/-- operators.go:323-366 `Apply`: the output is used first; a nil input is not the output (line 336), so
line 355 enumerates it. -/
def apply (inp : Option Ref) (mask : Mask) (u : T → T) (matrix : Option Ref) : M T Unit := do
  let out ← checkMask mask matrix
  let inp ← use inp
  Ops.apply inp mask u out

/-- operators.go:369-396 `Negative`: the first matrix is never used. -/
def negative (_s : Option Ref) (mask : Mask) (matrix : Option Ref) : M T Unit := do
  let out ← checkMask mask matrix
  Ops.negative out mask out

/-- operators.go:401-426 `Transpose`. -/
def transpose (s : Option Ref) (mask : Mask) (matrix : Option Ref) : M T Unit := do
  let out ← checkMask mask matrix
  let s ← use s
  Ops.transpose s mask out

/-- operators.go:492-549 `Equal`, with the three tests for nil (lines 493-503). -/
def equal (s m : Option Ref) : M T Bool :=
  match s, m with
  | none, none => pure true
  | some _, none => pure false
  | none, some _ => pure false
  | some s, some m => Ops.equal s m

/-- operators.go:552-554 `NotEqual`. -/
def notEqual (s m : Option Ref) : M T Bool := do
  let b ← equal s m
  pure (!b)

/-- operators.go:557-570 `Scalar`. -/
def scalar (s : Option Ref) (alpha : T) : M T Ref := do
  let s ← use s
  Ops.scalar s alpha

/-- operators.go:429-434 `TransposeToCSR`. -/
def transposeToCSR (s : Option Ref) : M T Ref := do
  let s ← use s
  Ops.transposeToCSR s

/-- operators.go:437-442 `TransposeToCSC`. -/
def transposeToCSC (s : Option Ref) : M T Ref := do
  let s ← use s
  Ops.transposeToCSC s

/-- The methods `Multiply` of the formats: the shape of the output is read off `m` before anything else
(csrMatrix.go:254, cscMatrix.go:261, denseMatrix.go:217, denseVector.go:226, sparseVector.go:239). -/
def methMultiply (s : Ref) (m : Option Ref) : M T Ref := do
  let m ← use m
  Meth.multiply s m

/-- The methods `Add`: the receiver is copied first, then `Add` uses `m`. -/
def methAdd (s : Ref) (m : Option Ref) : M T Ref :=
  match m with
  | some m => Meth.add s m
  | none => Meth.background do
    let matrix ← copy s
    add (some s) none .nil (some matrix)
    pure matrix

/-- The methods `Subtract`: `m` is copied first, except by sparse vectors, which copy the receiver. -/
def methSubtract (s : Ref) (m : Option Ref) : M T Ref :=
  match m with
  | some m => Meth.subtract s m
  | none => Meth.background fun w =>
    match w.heap s with
    | .svec _ => (do
        let matrix ← copy s
        subtract (some s) none .nil (some matrix)
        pure matrix : M T Ref) w
    | _ => fail w

/-- The methods `Equal` and `NotEqual`. -/
def methEqual (s : Ref) (m : Option Ref) : M T Bool := Meth.background (equal (some s) m)
/-- See `methEqual`. -/
def methNotEqual (s : Ref) (m : Option Ref) : M T Bool := Meth.background (notEqual (some s) m)

/-- operators.go:609-629 `ReduceMatrixToScalarWithMonoID` (and 592-605): line 618 uses `s` when there is no
mask, line 621 the mask and then `s` when there is one. Both come before the producer starts; the reducer
of line 615 is running by then, so a nil `s` is to it what a rejected mask is (`C51_refuted`). -/
def reduceScalar (s : Option Ref) (monoID : MonoID T) (mask : Mask) : M T T := do
  match mask with
  | .nil => do
    let s ← use s
    Ops.reduceScalar s monoID mask
  | _ => do
    let _ ← mask.rows
    let s ← use s
    Ops.reduceScalar s monoID mask

/-- operators.go:579-589 `ReduceMatrixToVectorWithMonoID`: line 581 uses `s`. -/
def reduceVector (s : Option Ref) (monoID : MonoID T) (mask : Mask) : M T Ref := do
  let s ← use s
  Ops.reduceVector s monoID mask

end Nil
end GB
