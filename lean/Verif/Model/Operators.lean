import Verif.Model.World

/-!
# Model of operators.go (sequential part) and of the methods that call it

`Reduce…` are in `Model/Reduce.lean`, `Compare`/`Less`/`String` in `Model/Rune.lean`.
`nil` matrix arguments (operators.go:493-503) are in `Model/Nil.lean`.
-/

namespace GB

variable {T : Type} [GoNum T]

namespace Ops
open M

/-- operators.go:43-52, the inner product loop of `multiply`; `none` when the context was found
cancelled (`return`). -/
def dot (rows column : Vec T) : (n l : Nat) → T → M T (Option T)
  | 0, _, sum => pure (some sum)
  | n + 1, l, sum => do
    let stop ← poll
    if stop then pure none
    else do
      let vC ← lift (column.atVec l)
      let vR ← lift (rows.atVec l)
      dot rows column n (l + 1) (sum + vR * vC)

/-- operators.go:19-60 `multiply`. The row and column vectors are fresh local objects. -/
def multiply (s m : Ref) (mask : Mask) (matrix : Ref) : M T Unit := do
  let mr ← rowsOf m
  let sc ← colsOf s
  if mr ≠ sc then fail
  let mask ← mask.orEmpty matrix
  mask.check matrix
  let sr ← rowsOf s
  let _ ← forN sr 0 (fun r => do
    let rows ← ofObj s (fun x => x.rowsAt r)
    let mc ← colsOf m
    forN mc 0 (fun c => do
      let column ← ofObj m (fun x => x.columnsAt c)
      match ← dot rows column rows.length 0 0 with
      | none => pure (some ())
      | some sum => do
        let e ← mask.element r c
        if !e then set matrix r c sum
        pure none))
  pure ()

/-- operators.go:65-67 `MatrixMatrixMultiply`. -/
def matrixMatrixMultiply (s m : Ref) (mask : Mask) (matrix : Ref) : M T Unit :=
  multiply s m mask matrix

/-- operators.go:72-74 `VectorMatrixMultiply` (note the swapped operands). -/
def vectorMatrixMultiply (s m : Ref) (mask : Mask) (vector : Ref) : M T Unit :=
  multiply m s mask vector

/-- operators.go:79-81 `MatrixVectorMultiply`. -/
def matrixVectorMultiply (s m : Ref) (mask : Mask) (vector : Ref) : M T Unit :=
  multiply s m mask vector

/-- operators.go:99-106, the closure `target` of `elementWiseMultiply`. -/
def eMulTarget (source matrix : Ref) (mask : Mask) (r c : Nat) (value : T) : M T Unit := do
  let v ← at' source r c
  if GoNum.geq value v then do
    let e ← mask.element r c
    if !e then set matrix r c value

/-- operators.go:109-118, the closure `setSource` of `elementWiseMultiply`. -/
def eMulSetSource (source : Ref) (mask : Mask) (r c : Nat) (value : T) : M T Unit := do
  let e ← mask.element r c
  if !e then update source r c (fun v => if !GoNum.geq value v then 0 else v)

/-- operators.go:83-145 `elementWiseMultiply`. -/
def elementWiseMultiply (s m : Ref) (mask : Mask) (matrix : Ref) : M T Unit := do
  let mask ← mask.orEmpty matrix
  mask.check matrix
  let run := fun (over : Ref) (target : Nat → Nat → T → M T Unit) => do
    let _ ← forEach over (some ()) (fun r c v => do target r c v; pure none)
    pure ()
  if m = matrix then run s (eMulSetSource m mask)
  else if s = matrix then run m (eMulSetSource s mask)
  else do
    let sp ← isSparse s
    if sp then run s (eMulTarget m matrix mask)
    else run m (eMulTarget s matrix mask)

/-- operators.go:150-156 `ElementWiseMatrixMultiply`. -/
def elementWiseMatrixMultiply (s m : Ref) (mask : Mask) (matrix : Ref) : M T Unit := do
  let mr ← rowsOf m
  let sc ← colsOf s
  if mr ≠ sc then fail
  elementWiseMultiply s m mask matrix

/-- operators.go:161-167 `ElementWiseVectorMultiply`. -/
def elementWiseVectorMultiply (s m : Ref) (mask : Mask) (vector : Ref) : M T Unit := do
  let mr ← rowsOf m
  let sr ← rowsOf s
  if mr ≠ sr then fail
  elementWiseMultiply s m mask vector

/-- operators.go:170-213 `Add`. -/
def add (s m : Ref) (mask : Mask) (matrix : Ref) : M T Unit := do
  let sc ← colsOf s
  let mc ← colsOf m
  if sc ≠ mc then fail
  let sr ← rowsOf s
  let mr ← rowsOf m
  if sr ≠ mr then fail
  let mask ← mask.orEmpty matrix
  mask.check matrix
  let sp ← isSparse s
  let (over, source) := if sp then (s, m) else (m, s)
  let _ ← forEach over (some ()) (fun r c v => do
    let value ← at' source r c
    let e ← mask.element r c
    if !e then set matrix r c (value + v)
    pure none)
  pure ()

/-- operators.go:229-241 and 245-257, one loop of `elementWiseAdd`; `some ()` when it returned on
cancellation. -/
def eAddLoop (src : Ref) (mask : Mask) (matrix : Ref) : M T (Option Unit) :=
  forEach src (some ()) (fun r c value => do
    if !isZero value then do
      let e ← mask.element r c
      if !e then set matrix r c value
    pure none)

/-- operators.go:215-259 `elementWiseAdd`. -/
def elementWiseAdd (s m : Ref) (mask : Mask) (matrix : Ref) : M T Unit := do
  let mask ← mask.orEmpty matrix
  mask.check matrix
  let stop ← if s ≠ matrix then eAddLoop s mask matrix else pure none
  match stop with
  | some () => pure ()
  | none =>
    if m ≠ matrix then do
      let _ ← eAddLoop m mask matrix
      pure ()
    else pure ()

/-- operators.go:264-270 `ElementWiseMatrixAdd`. -/
def elementWiseMatrixAdd (s m : Ref) (mask : Mask) (matrix : Ref) : M T Unit := do
  let mr ← rowsOf m
  let sc ← colsOf s
  if mr ≠ sc then fail
  elementWiseAdd s m mask matrix

/-- operators.go:275-281 `ElementWiseVectorAdd`. -/
def elementWiseVectorAdd (s m : Ref) (mask : Mask) (vector : Ref) : M T Unit := do
  let mr ← rowsOf m
  let sr ← rowsOf s
  if mr ≠ sr then fail
  elementWiseAdd s m mask vector

/-- operators.go:284-318 `Subtract`. -/
def subtract (s m : Ref) (mask : Mask) (matrix : Ref) : M T Unit := do
  let sc ← colsOf s
  let mc ← colsOf m
  if sc ≠ mc then fail
  let sr ← rowsOf s
  let mr ← rowsOf m
  if sr ≠ mr then fail
  let mask ← mask.orEmpty matrix
  mask.check matrix
  let _ ← forEach s (some ()) (fun r c value => do
    let e ← mask.element r c
    if !e then update matrix r c (fun v => value - v)
    pure none)
  pure ()

/-- operators.go:323-366 `Apply`. Note line 343 (in place, the operator is applied where the mask
element is *true*) and line 362 (`Set(c, r, …)`). -/
def apply (inp : Ref) (mask : Mask) (u : T → T) (matrix : Ref) : M T Unit := do
  let mask ← mask.orEmpty matrix
  mask.check matrix
  if inp = matrix then do
    let _ ← forMap inp true (fun r c value => do
      let e ← mask.element r c
      if e then pure (u value) else pure value)
    pure ()
  else do
    let _ ← forEach inp (some ()) (fun r c value => do
      let e ← mask.element r c
      if !e then set matrix c r (u value)
      pure none)
    pure ()

/-- operators.go:369-396 `Negative` (`s` is not used). -/
def negative (_s : Ref) (mask : Mask) (matrix : Ref) : M T Unit := do
  let mask ← mask.orEmpty matrix
  mask.check matrix
  let _ ← forMap matrix true (fun r c value => do
    let e ← mask.element r c
    if !e then pure (-value) else pure value)
  pure ()

/-- operators.go:401-426 `Transpose`. -/
def transpose (s : Ref) (mask : Mask) (matrix : Ref) : M T Unit := do
  let mask ← mask.orEmpty matrix
  mask.check matrix
  let _ ← forEach s (some ()) (fun r c value => do
    let e ← mask.element r c
    if !e then set matrix c r value
    pure none)
  pure ()

/-- operators.go:429-434 `TransposeToCSR`. -/
def transposeToCSR (s : Ref) : M T Ref := do
  let c ← colsOf s
  let r ← rowsOf s
  let matrix ← alloc (.csr (CSR.new c r))
  transpose s .nil matrix
  pure matrix

/-- operators.go:437-442 `TransposeToCSC`. -/
def transposeToCSC (s : Ref) : M T Ref := do
  let c ← colsOf s
  let r ← rowsOf s
  let matrix ← alloc (.csc (CSC.new c r))
  transpose s .nil matrix
  pure matrix

/-- operators.go:492-549 `Equal`. -/
def equal (s m : Ref) : M T Bool := do
  let sc ← colsOf s
  let mc ← colsOf m
  if sc ≠ mc then pure false
  else do
    let sr ← rowsOf s
    let mr ← rowsOf m
    if sr ≠ mr then pure false
    else do
      let spS ← isSparse s
      let spM ← isSparse m
      let sv ← valuesOf s
      let mv ← valuesOf m
      if ((spS && spM) || (!spS && !spM)) && sv != mv then pure false
      else do
        let (over, matrix) := if spS then (s, m) else (m, s)
        let res ← forEach over (some false) (fun r c sV => do
          let mV ← at' matrix r c
          if !GoNum.geq sV mV then pure (some false) else pure none)
        match res with
        | some b => pure b
        | none => pure true

/-- operators.go:552-554 `NotEqual`. -/
def notEqual (s m : Ref) : M T Bool := do
  let b ← equal s m
  pure (!b)

/-- operators.go:557-570 `Scalar`. Line 562: `break` leaves only the `select`. -/
def scalar (s : Ref) (alpha : T) : M T Ref := do
  let matrix ← copy s
  let _ ← forMap matrix false (fun _ _ v => pure (alpha * v))
  pure matrix

end Ops

namespace Meth
open M Ops

/-- Run with `context.Background()`: the methods do not pass the caller's context. -/
def background {α : Type} (x : M T α) : M T α := fun w =>
  match x { w with cancel := none } with
  | .ok a w' => .ok a { w' with cancel := w.cancel }
  | .panic w' => .panic { w' with cancel := w.cancel }
  | .hang w' => .hang { w' with cancel := w.cancel }

/-- `Scalar`: csrMatrix.go:248-250, cscMatrix.go:255-257, denseMatrix.go:211-213,
denseVector.go:220-222, sparseVector.go:233-235. -/
def scalar (s : Ref) (alpha : T) : M T Ref := background (Ops.scalar s alpha)

/-- The output object of `Multiply`: csrMatrix.go:254, cscMatrix.go:261, denseMatrix.go:217,
denseVector.go:226, sparseVector.go:239 (the vectors allocate `m.Rows() × 1`). -/
def mulOut (s m : Mat T) : Mat T :=
  match s with
  | .csr s => .csr (CSR.new s.r m.cols)
  | .csc s => .csc (CSC.new s.r m.cols)
  | .dense s => .dense (Dense.new s.r m.cols)
  | .dvec _ => .dense (Dense.new m.rows 1)
  | .svec _ => .dense (Dense.new m.rows 1)

/-- `Multiply`: csrMatrix.go:253-257, cscMatrix.go:260-264, denseMatrix.go:216-220,
denseVector.go:225-229, sparseVector.go:238-242. -/
def multiply (s m : Ref) : M T Ref := background do
  let out ← fun w => alloc (mulOut (w.heap s) (w.heap m)) w
  matrixMatrixMultiply s m .nil out
  pure out

/-- `Add`: csrMatrix.go:260-264, cscMatrix.go:267-272, denseMatrix.go:223-228,
denseVector.go:232-236, sparseVector.go:245-249. -/
def add (s m : Ref) : M T Ref := background do
  let matrix ← copy s
  Ops.add s m .nil matrix
  pure matrix

/-- `Subtract`: csrMatrix.go:267-271, cscMatrix.go:275-280, denseMatrix.go:231-236,
denseVector.go:239-243 copy `m`; sparseVector.go:252-256 copies `s`. -/
def subtract (s m : Ref) : M T Ref := background do
  let matrix ← fun w =>
    match w.heap s with
    | .svec _ => copy s w
    | _ => copy m w
  Ops.subtract s m .nil matrix
  pure matrix

/-- `Negative`: csrMatrix.go:274-278, cscMatrix.go:283-288, denseMatrix.go:239-243,
denseVector.go:246-250, sparseVector.go:259-263. -/
def negative (s : Ref) : M T Ref := background do
  let matrix ← copy s
  Ops.negative s .nil matrix
  pure matrix

/-- The output object of `Transpose`: csrMatrix.go:282, cscMatrix.go:292, denseMatrix.go:247,
denseVector.go:254, sparseVector.go:267. -/
def transOut (s : Mat T) : Mat T :=
  match s with
  | .csr s => .csr (CSR.new s.c s.r)
  | .csc s => .csc (CSC.new s.c s.r)
  | .dense s => .dense (Dense.new s.c s.r)
  | .dvec s => .dense (Dense.new 1 s.l)
  | .svec s => .dense (Dense.new 1 s.l)

/-- `Transpose`: csrMatrix.go:281-285, cscMatrix.go:291-295, denseMatrix.go:246-250,
denseVector.go:253-257, sparseVector.go:266-270. -/
def transpose (s : Ref) : M T Ref := background do
  let matrix ← fun w => alloc (transOut (w.heap s)) w
  Ops.transpose s .nil matrix
  pure matrix

/-- `Equal`: csrMatrix.go:288-290, cscMatrix.go:298-300, denseMatrix.go:253-255,
denseVector.go:260-262, sparseVector.go:273-275. -/
def equal (s m : Ref) : M T Bool := background (Ops.equal s m)

/-- `NotEqual`: csrMatrix.go:293-295, cscMatrix.go:303-305, denseMatrix.go:258-260,
denseVector.go:265-267, sparseVector.go:278-280. -/
def notEqual (s m : Ref) : M T Bool := background (Ops.notEqual s m)

end Meth
end GB
