import Verif.Model.CSR
import Verif.Model.CSC
import Verif.Model.Dense

/-!
# The dynamic type behind the `Matrix[T]` interface

matrix.go:10-97 and vector.go:12-33 are interfaces; a value of interface type holds one of the
five concrete types. `Mat` is that sum, and each function below is the dynamic dispatch.
`DenseMatrix`/`DenseMatrixNumber` and `DenseVector`/`DenseVectorNumber` have the same methods and
are not told apart. `MutexMatrix` does not implement `Matrix[T]` (its `Copy` returns
`MatrixLogical[T]` and it has no `CopyLogical`); it is modelled in `Model/Mutex.lean`.
-/

namespace GB

variable {T : Type} [GoNum T]

/-- The concrete types behind `Matrix[T]`. -/
inductive Mat (T : Type) where
  | csr (s : CSR T)
  | csc (s : CSC T)
  | dense (s : Dense T)
  | dvec (s : DVec T)
  | svec (s : SVec T)
  deriving DecidableEq, Repr

/-- The concrete types behind `VectorLogial[T]` (vector.go:23-27). -/
inductive Vec (T : Type) where
  | dvec (s : DVec T)
  | svec (s : SVec T)
  deriving DecidableEq, Repr

/-- A vector seen as a matrix. -/
def Vec.toMat : Vec T → Mat T
  | .dvec s => .dvec s
  | .svec s => .svec s

/-- `AtVec`. -/
def Vec.atVec : Vec T → Int → Out T
  | .dvec s, i => s.atVec i
  | .svec s, i => s.atVec i

/-- `Length`: denseVector.go:103-105, sparseVector.go:53-55. -/
def Vec.length : Vec T → Nat
  | .dvec s => s.l
  | .svec s => s.l

/-- Go's `int` on a 64-bit machine: arithmetic wraps (two's complement). -/
def goInt (x : Int) : Int := x.bmod (2 ^ 64)

namespace Mat

/-- `Rows`. -/
def rows : Mat T → Nat
  | csr s => s.r
  | csc s => s.r
  | dense s => s.r
  | dvec s => s.l
  | svec s => s.l

/-- `Columns` (1 for vectors: denseVector.go:108-110, sparseVector.go:92-94). -/
def cols : Mat T → Nat
  | csr s => s.c
  | csc s => s.c
  | dense s => s.c
  | dvec _ => 1
  | svec _ => 1

/-- `Values`: csrMatrix.go:303-305, cscMatrix.go:313-315, denseMatrix.go:268-270,
denseVector.go:270-272, sparseVector.go:288-290. -/
def nvalues : Mat T → Nat
  | csr s => s.values.length
  | csc s => s.values.length
  | dense s => s.r * s.c
  | dvec s => s.l
  | svec s => s.values.length

/-- `Size`: csrMatrix.go:298-300, cscMatrix.go:308-310, denseMatrix.go:263-265 (`s.r * s.c`, which may
overflow), denseVector.go:83-85, sparseVector.go:283-285 (the length). -/
def size : Mat T → Int
  | csr s => goInt (s.r * s.c)
  | csc s => goInt (s.r * s.c)
  | dense s => goInt (s.r * s.c)
  | dvec s => s.l
  | svec s => s.l

/-- `At`. The compressed formats implement it as an `Update`, so it returns the new object. -/
def at' : Mat T → Int → Int → Out (T × Mat T)
  | csr s, r, c => do let (v, s') ← s.at' r c; .ok (v, csr s')
  | csc s, r, c => do let (v, s') ← s.at' r c; .ok (v, csc s')
  | dense s, r, c => do let v ← s.at' r c; .ok (v, dense s)
  | dvec s, r, c => do let v ← s.at' r c; .ok (v, dvec s)
  | svec s, r, c => do let (v, s') ← s.at' r c; .ok (v, svec s')

/-- `Element`. -/
def element : Mat T → Int → Int → Out (Bool × Mat T)
  | csr s, r, c => do let (v, s') ← s.element r c; .ok (v, csr s')
  | csc s, r, c => do let (v, s') ← s.element r c; .ok (v, csc s')
  | dense s, r, c => do let v ← s.element r c; .ok (v, dense s)
  | dvec s, r, c => do let v ← s.element r c; .ok (v, dvec s)
  | svec s, r, c => do let v ← s.element r c; .ok (v, svec s)

/-- `Set`. -/
def set : Mat T → Int → Int → T → Out (Mat T)
  | csr s, r, c, v => do let s' ← s.set r c v; .ok (csr s')
  | csc s, r, c, v => do let s' ← s.set r c v; .ok (csc s')
  | dense s, r, c, v => do let s' ← s.set r c v; .ok (dense s')
  | dvec s, r, c, v => do let s' ← s.set r c v; .ok (dvec s')
  | svec s, r, c, v => do let s' ← s.set r c v; .ok (svec s')

/-- `Update`. -/
def update : Mat T → Int → Int → (T → T) → Out (Mat T)
  | csr s, r, c, f => do let s' ← s.update r c f; .ok (csr s')
  | csc s, r, c, f => do let s' ← s.update r c f; .ok (csc s')
  | dense s, r, c, f => do let s' ← s.update r c f; .ok (dense s')
  | dvec s, r, c, f => do let s' ← s.update r c f; .ok (dvec s')
  | svec s, r, c, f => do let s' ← s.update r c f; .ok (svec s')

/-- `Copy`. -/
def copy : Mat T → Out (Mat T)
  | csr s => do let s' ← s.copy; .ok (csr s')
  | csc s => do let s' ← s.copy; .ok (csc s')
  | dense s => do let s' ← s.copy; .ok (dense s')
  | dvec s => do let s' ← s.copy; .ok (dvec s')
  | svec s => do let s' ← s.copy; .ok (svec s')

/-- `Clear`. -/
def clear : Mat T → Mat T
  | csr s => csr s.clear
  | csc s => csc s.clear
  | dense s => dense s.clear
  | dvec s => dvec s.clear
  | svec s => svec s.clear

/-- `RowsAt`. -/
def rowsAt : Mat T → Int → Out (Vec T)
  | csr s, r => do let v ← s.rowsAt r; .ok (.svec v)
  | csc s, r => do let v ← s.rowsAt r; .ok (.svec v)
  | dense s, r => do let v ← s.rowsAt r; .ok (.dvec v)
  | dvec s, r => do let v ← s.rowsAt r; .ok (.dvec v)
  | svec s, r => do let v ← s.rowsAt r; .ok (.svec v)

/-- `ColumnsAt`. -/
def columnsAt : Mat T → Int → Out (Vec T)
  | csr s, c => do let v ← s.columnsAt c; .ok (.svec v)
  | csc s, c => do let v ← s.columnsAt c; .ok (.svec v)
  | dense s, c => do let v ← s.columnsAt c; .ok (.dvec v)
  | dvec s, c => do let v ← s.columnsAt c; .ok (.dvec v)
  | svec s, c => do let v ← s.columnsAt c; .ok (.svec v)

/-- `RowsAtToArray`. -/
def rowsAtToArray : Mat T → Int → Out (List T)
  | csr s, r => s.rowsAtToArray r
  | csc s, r => s.rowsAtToArray r
  | dense s, r => s.rowsAtToArray r
  | dvec s, r => s.rowsAtToArray r
  | svec s, r => s.rowsAtToArray r

/-- The name reflection prints for the dynamic type (`reflect.TypeOf(s).Elem().Name()`,
matrixRegistry.go:28-29). -/
def typeName : Mat T → String
  | csr _ => "CSRMatrix[" ++ GoNum.gname T ++ "]"
  | csc _ => "CSCMatrix[" ++ GoNum.gname T ++ "]"
  | dense _ => "DenseMatrixNumber[" ++ GoNum.gname T ++ "]"
  | dvec _ => "DenseVectorNumber[" ++ GoNum.gname T ++ "]"
  | svec _ => "SparseVector[" ++ GoNum.gname T ++ "]"

/-- The five iterators (`Enumerate[T]`, `Map[T]`). -/
inductive Iter where
  | csr (it : CSR.Iter)
  | csc (it : CSC.Iter)
  | dense (it : Dense.Iter)
  | dvec (it : DVec.Iter)
  | svec (it : SVec.Iter)
  deriving DecidableEq, Repr

/-- `Enumerate` / `Map`: a fresh iterator. -/
def iter : Mat T → Iter
  | csr s => .csr s.iter
  | csc s => .csc s.iter
  | dense s => .dense s.iter
  | dvec s => .dvec s.iter
  | svec s => .svec s.iter

/-- `HasNext`. -/
def Iter.hasNext : Iter → Bool
  | .csr it => it.hasNext
  | .csc it => it.hasNext
  | .dense it => it.hasNext
  | .dvec it => it.hasNext
  | .svec it => it.hasNext

/-- `Next`, and the reading half of `Map`. An iterator always belongs to the object it was made
from; the mixed cases cannot arise (an object never changes its dynamic type). -/
def step : Mat T → Iter → Out (Iter × Nat × Nat × T)
  | csr s, .csr it => do let (it', r, c, v) ← s.step it; .ok (.csr it', r, c, v)
  | csc s, .csc it => do let (it', r, c, v) ← s.step it; .ok (.csc it', r, c, v)
  | dense s, .dense it => do let (it', r, c, v) ← s.step it; .ok (.dense it', r, c, v)
  | dvec s, .dvec it => do let (it', r, c, v) ← s.step it; .ok (.dvec it', r, c, v)
  | svec s, .svec it => do let (it', r, c, v) ← s.step it; .ok (.svec it', r, c, v)
  | _, _ => .panic

/-- The writing half of `Map`. -/
def put : Mat T → Iter → T → Out (Mat T)
  | csr s, .csr it, v => do let s' ← s.put it v; .ok (csr s')
  | csc s, .csc it, v => do let s' ← s.put it v; .ok (csc s')
  | dense s, .dense it, v => do let s' ← s.put it v; .ok (dense s')
  | dvec s, .dvec it, v => do let s' ← s.put it v; .ok (dvec s')
  | svec s, .svec it, v => do let s' ← s.put it v; .ok (svec s')
  | _, _, _ => .panic

end Mat
end GB
