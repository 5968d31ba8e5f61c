import Verif.Model.Reduce
import Verif.Model.Reduced
import Verif.Model.Strassen
import Verif.Model.MathPkg
import Verif.Model.BFS
import Verif.Model.Rune
import Verif.Model.Registry
import Verif.Props.FloatSum

/-!
# The model replayed against the tests of the repository

This file proves no property. It runs the test tables of the repository on the model, with IEEE doubles as the
element type, and records what the model answers, so that a slip in transcribing a method has a chance to show. Each
`example` names the Go test. A test passes when the model gives the answer the Go test asks for; every one of them does.

The Go tests build their objects by a run of `Set` or `SetVec` calls on a new object; so do these.
-/

namespace GB.Conformance
open M

/-- A double. -/
def d (q : ℚ) : F64 := Fl.of binary64 q

/-- A new object of the given type and shape (`NewCSRMatrix`, `NewCSCMatrix`, `NewDenseMatrixN`, `NewDenseVectorN`,
`NewSparseVector`). -/
def fresh {T : Type} [GoNum T] (k : Kind) (r c : Nat) : Mat T :=
  match k with
  | .csr => .csr (CSR.new r c)
  | .csc => .csc (CSC.new r c)
  | .dense => .dense (Dense.new r c)
  | .dvec => .dvec (DVec.new r)
  | .svec => .svec (SVec.new r)

/-- The calls `Set(i, j, rows[i][j])`, row by row, on a new object. -/
def setup {T : Type} [GoNum T] (k : Kind) (rows : List (List T)) : Out (Mat T) :=
  loop rows.length 0 (fun i m => do
    let row ← idx rows i
    loop row.length 0 (fun j m => do
      let v ← idx row j
      m.set i j v) m) (fresh k rows.length (rows.headD []).length)

/-- Objects set up as the given tables, then a program on them that answers yes or no. -/
def passes {T : Type} [GoNum T] (objs : List (Kind × List (List T))) (p : M T Bool) : Bool :=
  match objs.mapM (fun o => setup o.1 o.2) with
  | .ok ms =>
    match p (World.of 99 ms) with
    | .ok b _ => b
    | _ => false
  | _ => false

/-- A table of doubles. -/
def tab (rows : List (List ℚ)) : List (List F64) := rows.map (fun r => r.map d)
/-- A column of doubles. -/
def col (xs : List ℚ) : List (List F64) := xs.map (fun x => [d x])

/-- The three matrix types of the test tables. -/
def mats : List Kind := [.dense, .csc, .csr]
/-- The two vector types of the test tables. -/
def vecs : List Kind := [.dvec, .svec]

/-- Make an object of the value a method returned. -/
def object {T : Type} [GoNum T] (x : M T (Vec T)) : M T Ref := do
  let v ← x
  alloc v.toMat

/-! ## matrix_test.go -/

/-- `TestMatrix_Update` -/
example : ([(Kind.dense, (2 : ℚ)), (.csc, 2), (.csr, 2), (.csc, 0), (.csr, 0)].all fun t =>
    passes [(t.1, tab [[4, 0], [1, -9]])] (do
      update 0 0 0 (fun _ => d t.2)
      let v ← at' 0 0 0
      pure (GoNum.geq v (d t.2)))) = true := by decide +kernel

/-- The number of cells an iteration finds equal to those of object 1; the turns it takes. -/
def agree (m : Mat F64) (dense : Mat F64) : (gas : Nat) → Mat.Iter → Nat × Nat → Out (Nat × Nat)
  | 0, _, _ => .hang
  | g + 1, it, (n, k) =>
    if it.hasNext then do
      let (it', r, c, v) ← m.step it
      let (x, _) ← dense.at' r c
      agree m dense g it' (if GoNum.geq x v then n + 1 else n, k + 1)
    else .ok (n, k)

/-- `TestMatrix_SparseEnumerate`, and `TestMatrix_SparseMap`, whose callback returns the value it was given. -/
example : ([Kind.csc, .csr].all fun k =>
    (do
      let t := tab [[9, 0, 7], [0, 0, 0], [3, 0, 1]]
      let m ← setup k t
      let dense ← setup .dense t
      let n ← agree m dense 9 m.iter (0, 0)
      Out.ok (decide (n = (4, 4)))) = .ok true) = true := by decide +kernel

example : ([Kind.csc, .csr].all fun k =>
    passes [(k, tab [[9, 0, 7], [0, 0, 0], [3, 0, 1]]), (.dense, tab [[9, 0, 7], [0, 0, 0], [3, 0, 1]])] (do
      let _ ← forMap 0 true (fun r c v => do
        let x ← at' 1 r c
        if !GoNum.geq x v then M.fail
        pure v)
      Meth.equal 0 1)) = true := by decide +kernel

/-- `TestMatrix_ColumnsAt` -/
example : (mats.all fun k => passes [(k, tab [[4, 0], [1, -9]]), (.dvec, col [4, 1])] (do
    let got ← object (ofObj 0 (fun m => m.columnsAt 0))
    Meth.equal got 1)) = true := by decide +kernel

/-- `TestMatrix_RowAt` -/
example : (mats.all fun k => passes [(k, tab [[4, 0], [1, -9]]), (.dvec, col [4, 0])] (do
    let got ← object (ofObj 0 (fun m => m.rowsAt 0))
    Meth.equal got 1)) = true := by decide +kernel

/-- `TestMatrix_Scalar` -/
example : (mats.all fun k => passes [(k, tab [[4, 0], [1, -9]]), (.dense, tab [[8, 0], [2, -18]])] (do
    let got ← Meth.scalar 0 (d 2)
    Meth.equal got 1)) = true := by decide +kernel

/-- `TestMatrix_Negative` -/
example : (mats.all fun k => passes [(k, tab [[2, -4], [7, 10]]), (.dense, tab [[-2, 4], [-7, -10]])] (do
    let got ← Meth.negative 0
    Meth.equal got 1)) = true := by decide +kernel

/-- `TestMatrix_Transpose` -/
example : (mats.all fun k =>
    passes [(k, tab [[6, 4, 24], [1, -9, 8]]), (.dense, tab [[6, 1], [4, -9], [24, 8]])] (do
      let got ← Meth.transpose 0
      Meth.equal got 1)) = true := by decide +kernel

/-- `TestMatrix_Equal` -/
example : (mats.all fun k => passes [(k, tab [[1, 2, 3], [4, 5, 6]]), (.dense, tab [[1, 2, 3], [4, 5, 6]])]
    (Meth.equal 0 1)) = true := by decide +kernel

/-- `TestMatrix_NotEqual` -/
example : (mats.all fun k => passes [(k, tab [[1, 2, 3], [4, 5, 6]]), (.dense, tab [[2, 3, 4], [5, 6, 7]])]
    (Meth.notEqual 0 1)) = true := by decide +kernel

/-- `TestMatrix_NotEqual_Size` -/
example : ([(Kind.dense, 3, 2), (.dense, 2, 3), (.csc, 3, 2), (.csc, 2, 3), (.csr, 3, 2), (.csr, 2, 3)].all fun t =>
    match Meth.notEqual (T := F64) 0 1 (World.of 9 [fresh t.1 2 2, fresh .dense t.2.1 t.2.2]) with
    | .ok b _ => b
    | _ => false) = true := by decide +kernel

/-- `TestMatrix_Copy` -/
example : (mats.all fun k => passes [(k, tab [[1, 2, 3], [4, 5, 6]]), (.dense, tab [[1, 2, 3], [4, 5, 6]])] (do
    let got ← copy 0
    Meth.equal got 1)) = true := by decide +kernel

/-- `TestMatrix_Multiply` -/
example : (mats.all fun k => passes [(k, tab [[1, 2, 3], [4, 5, 6]]), (.dense, tab [[7, 8], [9, 10], [11, 12]]),
      (.dense, tab [[58, 64], [139, 154]])] (do
    let got ← Meth.multiply 0 1
    Meth.equal got 2)) = true := by decide +kernel

/-- `TestMatrix_Add` -/
example : (mats.all fun k => passes [(k, tab [[3, 8], [4, 6]]), (.dense, tab [[4, 0], [1, -9]]),
      (.dense, tab [[7, 8], [5, -3]])] (do
    let got ← Meth.add 0 1
    Meth.equal got 2)) = true := by decide +kernel

/-- `TestMatrix_Subtract` -/
example : (mats.all fun k => passes [(k, tab [[3, 8], [4, 6]]), (.dense, tab [[4, 0], [1, -9]]),
      (.dense, tab [[-1, 8], [3, 15]])] (do
    let got ← Meth.subtract 0 1
    Meth.equal got 2)) = true := by decide +kernel

/-- `TestMatrix_Size` (it asks for `Values()`) -/
example : ([(Kind.dense, 6), (.csc, 5), (.csr, 5)].all fun t => passes [(t.1, tab [[6, 4, 24], [1, 0, 8]])] (do
    let n ← valuesOf 0
    pure (n == t.2))) = true := by decide +kernel

/-- The array constructors. -/
def fromArray (k : Kind) (data : List (List F64)) : Out (Mat F64) :=
  match k with
  | .csr => do let s ← CSR.fromArray data; .ok (.csr s)
  | .csc => do let s ← CSC.fromArray data; .ok (.csc s)
  | _ => do let s ← Dense.fromArray data; .ok (.dense s)

/-- `TestMatrix_FromArray` -/
example : (mats.all fun k => passes [(.dense, tab [[1, 2, 3], [4, 5, 6]])] (do
    let m ← lift (fromArray k (tab [[1, 2, 3], [4, 5, 6]]))
    let got ← alloc m
    let b ← Meth.notEqual got 0
    pure (!b))) = true := by decide +kernel

/-! ## vector_test.go -/

/-- `TestVector_Update` -/
example : ([(Kind.dvec, (2 : ℚ)), (.svec, 2), (.dvec, 0)].all fun t => passes [(t.1, col [3, 8])] (do
    update 0 0 0 (fun _ => d t.2)
    let v ← at' 0 0 0
    pure (GoNum.geq v (d t.2)))) = true := by decide +kernel

/-- `TestVector_ColumnsAt` -/
example : (vecs.all fun k => passes [(k, col [4, 0]), (.dvec, col [4, 0])] (do
    let got ← object (ofObj 0 (fun m => m.columnsAt 0))
    Meth.equal got 1)) = true := by decide +kernel

/-- `TestVector_RowAt` -/
example : (vecs.all fun k => passes [(k, col [4, 0]), (.dvec, col [4])] (do
    let got ← object (ofObj 0 (fun m => m.rowsAt 0))
    Meth.equal got 1)) = true := by decide +kernel

/-- `TestVector_Scalar` -/
example : (vecs.all fun k => passes [(k, col [4, 0]), (.dvec, col [8, 0])] (do
    let got ← Meth.scalar 0 (d 2)
    Meth.equal got 1)) = true := by decide +kernel

/-- `TestVector_Negative` -/
example : (vecs.all fun k => passes [(k, col [2, -4]), (.dvec, col [-2, 4])] (do
    let got ← Meth.negative 0
    Meth.equal got 1)) = true := by decide +kernel

/-- `TestVector_Transpose` -/
example : (vecs.all fun k => passes [(k, col [6, 4, 24]), (.dense, tab [[6, 4, 24]])] (do
    let got ← Meth.transpose 0
    Meth.equal got 1)) = true := by decide +kernel

/-- `TestVector_Equal` -/
example : (vecs.all fun k => passes [(k, col [1, 2, 3]), (.dvec, col [1, 2, 3])] (Meth.equal 0 1)) = true := by
  decide +kernel

/-- `TestVector_NotEqual` -/
example : (vecs.all fun k => passes [(k, col [1, 2, 3]), (.dvec, col [4, 5, 6])] (Meth.notEqual 0 1)) = true := by
  decide +kernel

/-- `TestVector_Copy` -/
example : (vecs.all fun k => passes [(k, col [1, 2, 3]), (.dvec, col [1, 2, 3])] (do
    let got ← copy 0
    Meth.equal got 1)) = true := by decide +kernel

/-- `TestVector_Multiply` -/
example : (vecs.all fun k => passes [(k, col [3, 4, 3]), (.dense, tab [[0, 3, 5], [5, 5, 2]]), (.dense, tab [[27], [41]])]
    (do
      let got ← Meth.multiply 1 0
      Meth.equal got 2)) = true := by decide +kernel

/-- `TestVector_Add` -/
example : (vecs.all fun k => passes [(k, col [3, 8]), (.dvec, col [4, 0]), (.dense, tab [[7], [8]])] (do
    let got ← Meth.add 0 1
    Meth.equal got 2)) = true := by decide +kernel

/-- `TestVector_Subtract` -/
example : (vecs.all fun k => passes [(k, col [3, 8]), (.dense, tab [[4], [0]]), (.dense, tab [[-1], [8]])] (do
    let got ← Meth.subtract 0 1
    Meth.equal got 2)) = true := by decide +kernel

/-- That test passes for the sparse vector although the difference is wrong (`C19_refuted`): all its cells are zero,
and `Equal` of a sparse vector without entries is true against every dense object of its shape (`C27_mixed_exact`). -/
example : passes [(.svec, col [3, 8]), (.dense, tab [[4], [0]])] (do
    let got ← Meth.subtract 0 1
    let x ← at' got 0 0
    let y ← at' got 1 0
    pure (GoNum.geq x 0 && GoNum.geq y 0)) = true := by decide +kernel

/-- `TestVector_Size` -/
example : ([(Kind.dvec, 6), (.svec, 5)].all fun t => passes [(t.1, col [6, 4, 24, 1, 0, 8])] (do
    let n ← valuesOf 0
    pure (n == t.2))) = true := by decide +kernel

/-! ## operators_test.go -/

/-- `setupMatrix` -/
def graph : List (List F64) := tab [
  [0, 1, 0, 1, 0, 0, 0],
  [0, 0, 0, 0, 0, 0, 1],
  [0, 0, 0, 0, 0, 0, 0],
  [1, 0, 0, 0, 0, 0, 0],
  [0, 0, 0, 0, 0, 0, 0],
  [0, 0, 0, 0, 0, 0, 0],
  [0, 0, 0, 1, 0, 0, 0]]

/-- `TestMatrix_VectorMatrixMultiply` -/
example : (mats.all fun k => passes [(k, tab [[2, 3], [4, 5], [-1, 6]]), (.dvec, col [4, 7]), (.dvec, col [0, 0, 0]),
      (.dvec, col [29, 51, 38])] (do
    Ops.vectorMatrixMultiply 1 0 .nil 2
    Meth.equal 2 3)) = true := by decide +kernel

/-- `TestMatrix_MatrixVectorMultiply` -/
example : (mats.all fun k => passes [(k, tab [[2, 3], [4, 5], [-1, 6]]), (.dvec, col [4, 7]), (.dvec, col [0, 0, 0]),
      (.dvec, col [29, 51, 38])] (do
    Ops.matrixVectorMultiply 0 1 .nil 2
    Meth.equal 2 3)) = true := by decide +kernel

/-- The second operand of the element-wise tests. -/
def graph2 : List (List F64) := tab [
  [0, 0, 0, 0, 0, 0, 0],
  [0, 0, 0, 0, 1, 0, 1],
  [0, 0, 0, 0, 0, 0, 0],
  [0, 0, 0, 0, 0, 0, 0],
  [0, 0, 0, 0, 0, 0, 0],
  [0, 0, 0, 0, 0, 0, 0],
  [0, 0, 0, 0, 1, 0, 0]]

/-- The wanted product. -/
def common : List (List F64) := tab [
  [0, 0, 0, 0, 0, 0, 0],
  [0, 0, 0, 0, 0, 0, 1],
  [0, 0, 0, 0, 0, 0, 0],
  [0, 0, 0, 0, 0, 0, 0],
  [0, 0, 0, 0, 0, 0, 0],
  [0, 0, 0, 0, 0, 0, 0],
  [0, 0, 0, 0, 0, 0, 0]]

/-- The wanted sum. -/
def union : List (List F64) := tab [
  [0, 1, 0, 1, 0, 0, 0],
  [0, 0, 0, 0, 1, 0, 1],
  [0, 0, 0, 0, 0, 0, 0],
  [1, 0, 0, 0, 0, 0, 0],
  [0, 0, 0, 0, 0, 0, 0],
  [0, 0, 0, 0, 0, 0, 0],
  [0, 0, 0, 1, 1, 0, 0]]

/-- `TestMatrix_ElementWiseMatrixMultiply` -/
example : (mats.all fun k => passes [(k, graph), (.dense, graph2), (.dense, common)] (do
    let got ← alloc (fresh .dense 7 7)
    Ops.elementWiseMatrixMultiply 0 1 .nil got
    Meth.equal got 2)) = true := by decide +kernel

/-- `TestMatrix_ElementWiseMatrixMultiply`, "Target is Source" -/
example : passes [(.csr, graph), (.dense, graph2), (.dense, common)] (do
    Ops.elementWiseMatrixMultiply 0 1 .nil 0
    Meth.equal 0 2) = true := by decide +kernel

/-- `TestMatrix_ElementWiseVectorMultiply` -/
example : (vecs.all fun k => passes [(k, col [0, 1, 0, 0, 0, 0, 1]), (.dvec, col [0, 1, 0, 0, 0, 1, 0]),
      (.dvec, col [0, 1, 0, 0, 0, 0, 0])] (do
    let got ← alloc (fresh .dvec 7 1)
    Ops.elementWiseVectorMultiply 0 1 .nil got
    Meth.equal got 2)) = true := by decide +kernel

/-- `TestMatrix_ElementWiseMatrixAdd` -/
example : (mats.all fun k => passes [(k, graph), (.dense, graph2), (.dense, union)] (do
    let got ← alloc (fresh .dense 7 7)
    Ops.elementWiseMatrixAdd 0 1 .nil got
    Meth.equal got 2)) = true := by decide +kernel

/-- `TestMatrix_ElementWiseMatrixAdd`, "Target is Source" -/
example : passes [(.dense, graph), (.dense, graph2), (.dense, union)] (do
    Ops.elementWiseMatrixAdd 0 1 .nil 0
    Meth.equal 0 2) = true := by decide +kernel

/-- `TestMatrix_ElementWiseVectorAdd` -/
example : (vecs.all fun k => passes [(k, col [0, 1, 0, 0, 0, 0, 1]), (.dvec, col [0, 1, 0, 0, 0, 1, 0]),
      (.dvec, col [0, 1, 0, 0, 0, 1, 1])] (do
    let got ← alloc (fresh .dvec 7 1)
    Ops.elementWiseVectorAdd 0 1 .nil got
    Meth.equal got 2)) = true := by decide +kernel

/-- `TestMatrix_Transpose_To_CSR` -/
example : (mats.all fun k =>
    passes [(k, tab [[6, 4, 24], [1, -9, 8]]), (.dense, tab [[6, 1], [4, -9], [24, 8]])] (do
      let got ← Ops.transposeToCSR 0
      Meth.equal got 1)) = true := by decide +kernel

/-- `TestMatrix_Transpose_To_CSC` -/
example : (mats.all fun k =>
    passes [(k, tab [[6, 4, 24], [1, -9, 8]]), (.dense, tab [[6, 1], [4, -9], [24, 8]])] (do
      let got ← Ops.transposeToCSC 0
      Meth.equal got 1)) = true := by decide +kernel

/-- `TestMatrix_ReduceMatrixToVector` -/
example : (mats.all fun k => passes [(k, graph), (.dvec, col [1, 1, 0, 1, 0, 0, 1])] (do
    let got ← Ops.reduceMatrixToVector 0
    Meth.equal got 1)) = true := by decide +kernel

/-- `TestMatrix_ReduceMatrixToScalar` -/
example : (mats.all fun k => passes [(k, graph)] (do
    let got ← Ops.reduceMatrixToScalar 0 .nil
    pure (GoNum.geq got (d 5)))) = true := by decide +kernel

/-- `TestMatrix_ReduceVectorToScalar` (both rows of the table reduce a column of a dense matrix) -/
example : passes [(.dense, graph)] (do
    let s ← object (ofObj 0 (fun m => m.columnsAt 0))
    let got ← Ops.reduceMatrixToScalar s .nil
    pure (GoNum.geq got (d 1))) = true := by decide +kernel

/-! ## matrixRegistry_test.go -/

/-- `TestSparseMatrixRegistry_IsSparseMatrix` -/
example : ([(Kind.dense, false), (.csc, true), (.csr, true)].all fun t =>
    Registry.isSparse initReg (fresh t.1 2 2 : Mat F64) == t.2) = true := by decide +kernel

/-! ## binaryop/monoID_test.go, operators/*_test.go -/

/-- `Test_Reduce`: one value is sent, then `done` is signalled; the reducer delivers 2. -/
example : [d 1].foldl (OpPkg.addition (T := F64)) (d 1) = d 2 := by decide +kernel

/-- A single. -/
def e (q : ℚ) : F32 := Fl.of binary32 q

/-- `Test_Addition`, `Test_Subtraction`, `Test_Multiplication`, `Test_Division` -/
example : OpPkg.addition (e 2) (e 2) = e 4 ∧ OpPkg.subtraction (e 4) (e 3) = e 1 ∧
    OpPkg.multiplication (e 2) (e 3) = e 6 ∧ OpPkg.division (e 6) (e 2) = .ok (e 3) := by decide +kernel

/-- `Test_LOR`, `Test_LAND`, `Test_LXOR`, on (true, true), (false, true), (true, false), (false, false) -/
example : ([(OpPkg.lor, [true, true, true, false]), (OpPkg.land, [true, false, false, false]),
      (OpPkg.lxor, [false, true, true, false])].all fun t =>
    [t.1 true true, t.1 false true, t.1 true false, t.1 false false] == t.2) = true := by decide +kernel

/-- `Test_LogicalInverse` -/
example : OpPkg.logicalInverse true = false ∧ OpPkg.logicalInverse false = true := by decide

/-- The comparison tests, on (1, 1), (1, 2), (2, 1) -/
example : ([(OpPkg.equal (T := F32), [true, false, false]), (OpPkg.notEqual, [false, true, true]),
      (OpPkg.greaterThan, [false, false, true]), (OpPkg.lessThan, [false, true, false]),
      (OpPkg.greaterThanOrEqual, [true, false, true]), (OpPkg.lessThanOrEqual, [true, true, false])].all fun t =>
    [t.1 (e 1) (e 1), t.1 (e 1) (e 2), t.1 (e 2) (e 1)] == t.2) = true := by decide +kernel

/-- `Test_FirstArgument`, `Test_SecondArgument`, `Test_Minimum`, `Test_Maximum`, on (1, 1), (1, 2), (2, 1) -/
example : ([(OpPkg.firstArgument (T := F32), [e 1, e 1, e 2]), (OpPkg.secondArgument, [e 1, e 2, e 1]),
      (OpPkg.minimum, [e 1, e 1, e 1]), (OpPkg.maximum, [e 1, e 2, e 2])].all fun t =>
    decide ([t.1 (e 1) (e 1), t.1 (e 1) (e 2), t.1 (e 2) (e 1)] = t.2)) = true := by decide +kernel

/-! ## math/, breadthfirst/, sort/ -/

/-- symmetric_test.go `TestMatrix_Symmetric` -/
example : (mats.all fun k => passes [(k, tab [[1, 7, 3], [7, 4, -5], [3, -5, 6]])] (MathPkg.symmetric 0)) = true := by
  decide +kernel

/-- skewSymmetric_test.go `TestMatrix_SkewSymmetric` -/
example : (mats.all fun k => passes [(k, tab [[0, 2, -1], [-2, 0, -4], [1, 4, 0]])] (MathPkg.skewSymmetric 0)) = true := by
  decide +kernel

/-- strassen_test.go `TestMatrix_Multiply` -/
example : (mats.all fun k =>
    (do
      let t := tab [[1, 2, 3, 4], [1, 2, 3, 4], [1, 2, 3, 4], [1, 2, 3, 4]]
      let a ← setup k t
      let b ← setup .dense t
      let want ← setup .dense (tab [[10, 20, 30, 40], [10, 20, 30, 40], [10, 20, 30, 40], [10, 20, 30, 40]])
      let got ← Strassen.eval 99 2 2 a b
      Out.ok (match Meth.equal 0 1 (World.of 99 [got, want]) with
        | .ok b _ => b
        | _ => false)) = .ok true) = true := by decide +kernel

/-- reduced_test.go `TestMatrix_Reduced` -/
example : (mats.all fun k => passes [(k, tab [[1, 2, -1, -4], [2, 3, -1, -11], [-2, 0, -3, 22]]),
      (.dense, tab [[1, 0, 0, -8], [0, 1, 0, 1], [0, 0, 1, -2]])] (do
    let got ← Reduced.reduced 99 0
    let b ← Meth.notEqual got 1
    pure (!b))) = true := by decide +kernel

/-- breadthFirst_test.go `TestBreadthFirstSearch` -/
example : passes [(.dense, tab [
      [0, 0, 0, 1, 0, 0, 0],
      [1, 0, 0, 0, 0, 0, 0],
      [0, 0, 0, 1, 0, 1, 1],
      [1, 0, 0, 0, 0, 0, 1],
      [0, 1, 0, 0, 0, 0, 1],
      [0, 0, 1, 0, 1, 0, 0],
      [0, 1, 0, 0, 0, 0, 0]])] (do
    let (atx, _) ← BFS.search 0 3 (fun vs =>
      match vs.getLast? with
      | some (.dvec v) => decide (v.atVec 5 = .ok (d 1))
      | _ => false)
    let x ← at' atx 1 0
    let y ← at' atx 5 0
    pure (GoNum.geq x (d 1) && GoNum.geq y (d 1))) = true := by decide +kernel

/-- A rune. -/
def rune (x : Char) : Rune := BitVec.ofNat 32 x.toNat

/-- bubble_test.go `TestBubbleColumns` -/
example : (match Runes.bubbleColumns 0 (World.of 99 [.dense ⟨3, 3, [['c', 'a', 'b'].map rune, ['b', 'a', 'c'].map rune,
      ['a', 'b', 'c'].map rune]⟩]) with
    | .ok p w => decide (w.heap p = .dense ⟨3, 3, [['a', 'b', 'c'].map rune, ['a', 'c', 'b'].map rune,
        ['b', 'c', 'a'].map rune]⟩)
    | _ => false) = true := by decide +kernel

/-- bubble_test.go `TestBubbleRow` -/
example : (match Runes.bubbleRow 0 (World.of 99 [.dense ⟨3, 3, [['c', 'a', 'b'].map rune, ['b', 'a', 'c'].map rune,
      ['a', 'b', 'c'].map rune]⟩]) with
    | .ok p w => decide (w.heap p = .dense ⟨3, 3, [['a', 'b', 'c'].map rune, ['b', 'a', 'c'].map rune,
        ['c', 'a', 'b'].map rune]⟩)
    | _ => false) = true := by decide +kernel

end GB.Conformance
