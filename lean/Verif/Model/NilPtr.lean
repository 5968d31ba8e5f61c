import Verif.Model.Nil

/-!
# Interfaces that hold a nil pointer

An interface argument is nil, holds a nil pointer, or holds a pointer to an object. An interface that holds a nil pointer is
not equal to nil, so that its methods are called. A method that reads a field panics; `Columns` of `*SparseVector` and of
`*DenseVector` reads none (sparseVector.go:92-94, denseVector.go:108-110) and returns 1. `*DenseVectorNumber` inherits it
from a struct it contains (denseVector.go:21-23), and finding that struct through a nil pointer panics. All other methods the
functions below call first read a field: `Rows` (sparseVector.go:97, denseVector.go:113, denseMatrix.go:85,
csrMatrix.go:64, cscMatrix.go:70), `Enumerate` (they read the number of values: sparseVector.go:300-311,
denseVector.go:280-292, denseMatrix.go:286-298, csrMatrix.go:315-338, cscMatrix.go:325-348), `At` and `Copy`.
As in `Model/Nil.lean` the functions follow operators.go until every argument has been used.
-/

namespace GB

variable {T : Type} [GoNum T]

/-- The types a nil pointer may point to. -/
inductive PtrTo where
  | csr | csc | dense | denseVector | logicalVector | sparseVector
  deriving DecidableEq

/-- `Columns()` on a nil pointer: a number, or a panic. -/
def PtrTo.columns : PtrTo → Option Nat
  | .logicalVector | .sparseVector => some 1
  | _ => none

/-- matrixRegistry.go:28 `reflect.TypeOf(s).Elem().Name()`: the name of the type, with no object behind it. -/
def PtrTo.typeName (T : Type) [GoNum T] : PtrTo → String
  | .csr => "CSRMatrix[" ++ GoNum.gname T ++ "]"
  | .csc => "CSCMatrix[" ++ GoNum.gname T ++ "]"
  | .dense => "DenseMatrixNumber[" ++ GoNum.gname T ++ "]"
  | .denseVector => "DenseVectorNumber[" ++ GoNum.gname T ++ "]"
  | .logicalVector => "DenseVector[" ++ GoNum.gname T ++ "]"
  | .sparseVector => "SparseVector[" ++ GoNum.gname T ++ "]"

/-- An interface argument. -/
inductive Arg where
  | nil
  | ptr (k : PtrTo)
  | obj (p : Ref)
  deriving DecidableEq

/-- The object, if there is one. -/
def Arg.ref : Arg → Option Ref
  | .obj p => some p
  | _ => none

/-- A mask argument: a nil interface, a mask, or an interface that holds a nil pointer. -/
inductive MaskArg where
  | ptr
  | mask (k : Mask)

namespace Ptr
open M

/-- A method call that reads a field. -/
def use (a : Arg) : M T Ref := Nil.use a.ref

/-- `Columns()`. -/
def cols (a : Arg) : M T Nat :=
  match a with
  | .nil => fail
  | .ptr k =>
    match k.columns with
    | some n => pure n
    | none => fail
  | .obj p => colsOf p

/-- The mask tests every operator begins with (operators.go:24-34): a mask that is a nil pointer is not nil, and line 28 calls
its `Rows`, which reads a field of every type of mask. The mask and the output that pass are returned. -/
def checkMask (mask : MaskArg) (matrix : Arg) : M T (Mask × Ref) :=
  match mask with
  | .ptr => fail
  | .mask k => do
    let out ← Nil.checkMask k matrix.ref
    pure (k, out)

/-- operators.go:19-60 `multiply`: line 20 calls `m.Rows()` and `s.Columns()`, line 36 `s.Rows()`. -/
def multiply (s m : Arg) (mask : MaskArg) (matrix : Arg) : M T Unit := do
  let m ← use m
  let mr ← rowsOf m
  let sc ← cols s
  if mr ≠ sc then fail
  let (mask, out) ← checkMask mask matrix
  let s ← use s
  Ops.multiply s m mask out

/-- operators.go:80-145 after the checks, with a left operand that is a nil pointer: `m == matrix` (line 120) enumerates `s`,
and so does a registered type of `s` (line 128); otherwise `m` is enumerated and `At` is called on the nil pointer. -/
def elementWiseMultiply (k : PtrTo) (m out : Ref) : M T Unit := fun w =>
  if m = out ∨ k.typeName T ∈ w.reg then fail w
  else (do
    let _ ← forEach m (some ()) (fun _ _ _ => fail)
    pure () : M T Unit) w

/-- operators.go:150-156 `ElementWiseMatrixMultiply`: line 151 calls `m.Rows()` and `s.Columns()`. -/
def elementWiseMatrixMultiply (s m : Arg) (mask : MaskArg) (matrix : Arg) : M T Unit := do
  let m ← use m
  let mr ← rowsOf m
  let sc ← cols s
  if mr ≠ sc then fail
  let (mask, out) ← checkMask mask matrix
  match s with
  | .nil => fail
  | .ptr k => elementWiseMultiply k m out
  | .obj s => Ops.elementWiseMatrixMultiply s m mask out

/-- operators.go:161-167 `ElementWiseVectorMultiply`: line 162 calls `Rows()` of both. -/
def elementWiseVectorMultiply (s m : Arg) (mask : MaskArg) (vector : Arg) : M T Unit := do
  let m ← use m
  let s ← use s
  let mr ← rowsOf m
  let sr ← rowsOf s
  if mr ≠ sr then fail
  let (mask, out) ← checkMask mask vector
  Ops.elementWiseVectorMultiply s m mask out

/-- operators.go:264-270 `ElementWiseMatrixAdd`: line 265 calls `m.Rows()` and `s.Columns()`, line 229 enumerates `s` (a nil
pointer is not the output, which has been used). -/
def elementWiseMatrixAdd (s m : Arg) (mask : MaskArg) (matrix : Arg) : M T Unit := do
  let m ← use m
  let mr ← rowsOf m
  let sc ← cols s
  if mr ≠ sc then fail
  let (mask, out) ← checkMask mask matrix
  let s ← use s
  Ops.elementWiseMatrixAdd s m mask out

/-- operators.go:275-281 `ElementWiseVectorAdd`. -/
def elementWiseVectorAdd (s m : Arg) (mask : MaskArg) (vector : Arg) : M T Unit := do
  let m ← use m
  let s ← use s
  let mr ← rowsOf m
  let sr ← rowsOf s
  if mr ≠ sr then fail
  let (mask, out) ← checkMask mask vector
  Ops.elementWiseVectorAdd s m mask out

/-- operators.go:170-213 `Add`: line 171 calls `Columns()` of both, line 175 `Rows()`. -/
def add (s m : Arg) (mask : MaskArg) (matrix : Arg) : M T Unit := do
  let sc ← cols s
  let mc ← cols m
  if sc ≠ mc then fail
  let s ← use s
  let m ← use m
  let sr ← rowsOf s
  let mr ← rowsOf m
  if sr ≠ mr then fail
  let (mask, out) ← checkMask mask matrix
  Ops.add s m mask out

/-- operators.go:284-318 `Subtract`: as `Add`. -/
def subtract (s m : Arg) (mask : MaskArg) (matrix : Arg) : M T Unit := do
  let sc ← cols s
  let mc ← cols m
  if sc ≠ mc then fail
  let s ← use s
  let m ← use m
  let sr ← rowsOf s
  let mr ← rowsOf m
  if sr ≠ mr then fail
  let (mask, out) ← checkMask mask matrix
  Ops.subtract s m mask out

/-- operators.go:323-366 `Apply`. -/
def apply (inp : Arg) (mask : MaskArg) (u : T → T) (matrix : Arg) : M T Unit := do
  let (mask, out) ← checkMask mask matrix
  let inp ← use inp
  Ops.apply inp mask u out

/-- operators.go:369-396 `Negative`. -/
def negative (_s : Arg) (mask : MaskArg) (matrix : Arg) : M T Unit := do
  let (mask, out) ← checkMask mask matrix
  Ops.negative out mask out

/-- operators.go:401-426 `Transpose`. -/
def transpose (s : Arg) (mask : MaskArg) (matrix : Arg) : M T Unit := do
  let (mask, out) ← checkMask mask matrix
  let s ← use s
  Ops.transpose s mask out

/-- operators.go:492-549 `Equal`: the tests for nil (lines 493-503), `Columns()` of both (line 505), `Rows()` (line 509). -/
def equal (s m : Arg) : M T Bool :=
  match s, m with
  | .nil, .nil => pure true
  | .nil, _ => pure false
  | _, .nil => pure false
  | s, m => do
    let sc ← cols s
    let mc ← cols m
    if sc ≠ mc then pure false
    else do
      let s ← use s
      let m ← use m
      Ops.equal s m

/-- operators.go:552-554 `NotEqual`. -/
def notEqual (s m : Arg) : M T Bool := do
  let b ← equal s m
  pure (!b)

/-- operators.go:557-570 `Scalar`: line 558 copies. -/
def scalar (s : Arg) (alpha : T) : M T Ref := do
  let s ← use s
  Ops.scalar s alpha

/-- operators.go:429-434 `TransposeToCSR`: line 430 calls `Columns()` and `Rows()`. -/
def transposeToCSR (s : Arg) : M T Ref := do
  let _ ← cols s
  let s ← use s
  Ops.transposeToCSR s

/-- operators.go:437-442 `TransposeToCSC`. -/
def transposeToCSC (s : Arg) : M T Ref := do
  let _ ← cols s
  let s ← use s
  Ops.transposeToCSC s

/-- The methods `Multiply` (csrMatrix.go:253-257, cscMatrix.go:260-264, denseMatrix.go:216-220, denseVector.go:225-229,
sparseVector.go:238-242) with an argument that is not an object: the matrices make an output of `m.Columns()` columns, the
vectors one of `m.Rows()` rows; then `MatrixMatrixMultiply`. Simplification: the output, which nobody sees, is dense. -/
def multiplyLacking (s : Ref) (m : Arg) : M T Ref := fun w =>
  match w.heap s with
  | .dvec _ | .svec _ => (do
    let m ← use m
    let r ← rowsOf m
    let out ← alloc (.dense (Dense.new r 1))
    multiply (.obj s) (.obj m) (.mask .nil) (.obj out)
    pure out : M T Ref) w
  | _ => (do
    let c ← cols m
    let out ← alloc (.dense (Dense.new (w.heap s).rows c))
    multiply (.obj s) m (.mask .nil) (.obj out)
    pure out : M T Ref) w

/-- The methods `Multiply`. -/
def methMultiply (s : Ref) (m : Arg) : M T Ref :=
  match m with
  | .obj m => Meth.multiply s m
  | a => Meth.background (multiplyLacking s a)

/-- The methods `Add` (csrMatrix.go:260-264, cscMatrix.go:267-272, denseMatrix.go:223-228, denseVector.go:232-236,
sparseVector.go:245-249) with an argument that is not an object: the receiver is copied, then `Add`. -/
def addLacking (s : Ref) (m : Arg) : M T Ref := do
  let matrix ← copy s
  add (.obj s) m (.mask .nil) (.obj matrix)
  pure matrix

/-- The methods `Add`. -/
def methAdd (s : Ref) (m : Arg) : M T Ref :=
  match m with
  | .obj m => Meth.add s m
  | a => Meth.background (addLacking s a)

/-- The methods `Subtract` with an argument that is not an object: `m.Copy()` (csrMatrix.go:267-271, cscMatrix.go:275-280,
denseMatrix.go:231-236, denseVector.go:239-243) reads a field of `m`; sparse vectors (sparseVector.go:252-256) copy the
receiver. Then `Subtract`. -/
def subtractLacking (s : Ref) (m : Arg) : M T Ref := fun w =>
  match w.heap s with
  | .svec _ => (do
    let matrix ← copy s
    subtract (.obj s) m (.mask .nil) (.obj matrix)
    pure matrix : M T Ref) w
  | _ => (do
    let p ← use m
    let matrix ← copy p
    subtract (.obj s) m (.mask .nil) (.obj matrix)
    pure matrix : M T Ref) w

/-- The methods `Subtract`. -/
def methSubtract (s : Ref) (m : Arg) : M T Ref :=
  match m with
  | .obj m => Meth.subtract s m
  | a => Meth.background (subtractLacking s a)

/-- The methods `Equal` and `NotEqual`. -/
def methEqual (s : Ref) (m : Arg) : M T Bool := Meth.background (equal (.obj s) m)
/-- See `methEqual`. -/
def methNotEqual (s : Ref) (m : Arg) : M T Bool := Meth.background (notEqual (.obj s) m)

end Ptr
end GB
