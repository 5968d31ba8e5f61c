import Verif.Model.Mat
import Verif.Model.Share

/-!
# Signed dimensions

Dimensions are Go `int`s; the rest of the model has natural numbers. This file models the constructors, the
element access, `Clear`, `Transpose` and `ReSize` for arguments of any sign. No code of the repository checks
the sign: what happens is decided by `make` and by slicing.
-/

namespace GB

variable {T : Type} [GoNum T]

/-- `make([]A, n)`: zero values, or a run-time panic when `n` is negative. -/
def goMake {α : Type} (n : Int) (zero : α) : Out (List α) :=
  if n < 0 then .panic else .ok (List.replicate n.toNat zero)

/-- The five concrete types with signed dimensions: csrMatrix.go:21-27, cscMatrix.go:22-28, denseMatrix.go:16-20,
denseVector.go:16-19, sparseVector.go:25-29. -/
inductive IMat (T : Type) where
  | csr (r c : Int) (values : List T) (cols rowStart : List Nat)
  | csc (r c : Int) (values : List T) (rows colStart : List Nat)
  | dense (r c : Int) (data : List (List T))
  | dvec (l : Int) (values : List T)
  | svec (l : Int) (values : List T) (indices : List Nat)
  deriving DecidableEq, Repr

namespace IMat

/-- csrMatrix.go:30-32, 47-56 `NewCSRMatrix`. -/
def newCSR (r c : Int) : Out (IMat T) := do
  let rowStart ← goMake (r + 1) 0
  .ok (.csr r c [] [] rowStart)

/-- cscMatrix.go:31-33, 50-62 `NewCSCMatrix`. -/
def newCSC (r c : Int) : Out (IMat T) := do
  let colStart ← goMake (c + 1) 0
  .ok (.csc r c [] [] colStart)

/-- denseMatrix.go:27-33, 53-77 `NewDenseMatrix(N)`: `make([][]T, r)`, then for every row `make([]T, c)`. -/
def newDense (r c : Int) : Out (IMat T) := do
  let data ← goMake r ([] : List T)
  let data ← loop data.length 0 (fun i d => do
    let row ← goMake c (0 : T)
    setIdx d i row) data
  .ok (.dense r c data)

/-- denseVector.go:26-28, 38-40, 48-62 `NewDenseVector(N)`. -/
def newDVec (l : Int) : Out (IMat T) := do
  let values ← goMake l (0 : T)
  .ok (.dvec l values)

/-- sparseVector.go:32-34, 48-50 `NewSparseVector`: both slices are made with length 0. -/
def newSVec (l : Int) : Out (IMat T) := .ok (.svec l [] [])

/-- `Rows`: csrMatrix.go:64-66, cscMatrix.go:70-72, denseMatrix.go:85-87, denseVector.go:113-115, sparseVector.go:97-99. -/
def rows : IMat T → Int
  | csr r _ _ _ _ => r
  | csc r _ _ _ _ => r
  | dense r _ _ => r
  | dvec l _ => l
  | svec l _ _ => l

/-- `Columns`. -/
def cols : IMat T → Int
  | csr _ c _ _ _ => c
  | csc _ c _ _ _ => c
  | dense _ c _ => c
  | dvec _ _ => 1
  | svec _ _ _ => 1

/-- `Size`: csrMatrix.go:298-300, cscMatrix.go:308-310, denseMatrix.go:263-265, denseVector.go:83-85,
sparseVector.go:283-285. -/
def size : IMat T → Int
  | csr r c _ _ _ => goInt (r * c)
  | csc r c _ _ _ => goInt (r * c)
  | dense r c _ => goInt (r * c)
  | dvec l _ => l
  | svec l _ _ => l

/-- `Values`. -/
def nvalues : IMat T → Int
  | csr _ _ values _ _ => values.length
  | csc _ _ values _ _ => values.length
  | dense r c _ => r * c
  | dvec l _ => l
  | svec _ values _ => values.length

/-- The object of the rest of the model; meant for non-negative dimensions. -/
def nat : IMat T → Mat T
  | csr r c values cols rowStart => .csr ⟨r.toNat, c.toNat, values, cols, rowStart⟩
  | csc r c values rows colStart => .csc ⟨r.toNat, c.toNat, values, rows, colStart⟩
  | dense r c data => .dense ⟨r.toNat, c.toNat, data⟩
  | dvec l values => .dvec ⟨l.toNat, values⟩
  | svec l values indices => .svec ⟨l.toNat, values, indices⟩

/-- An object of the rest of the model. -/
def ofMat : Mat T → IMat T
  | .csr s => csr s.r s.c s.values s.cols s.rowStart
  | .csc s => csc s.r s.c s.values s.rows s.colStart
  | .dense s => dense s.r s.c s.data
  | .dvec s => dvec s.l s.values
  | .svec s => svec s.l s.values s.indices

/-- The checks every element access begins with: csrMatrix.go:74-80, cscMatrix.go:80-86, denseMatrix.go:91-97,
106-112, 119-125, denseVector.go:119-125, 138-144, sparseVector.go:103-109, 126-132. `DenseVector.At`
(denseVector.go:132-134) checks the row only. -/
def check (m : IMat T) (r c : Int) : Out Unit :=
  if r < 0 ∨ r ≥ m.rows then .panic else if c < 0 ∨ c ≥ m.cols then .panic else .ok ()

/-- `At`. Behind the checks both dimensions are positive, and the call is that of the rest of the model. -/
def at' (m : IMat T) (r c : Int) : Out (T × IMat T) := do
  match m with
  | dvec l values => (dvec l values : IMat T).check r 0
  | m => m.check r c
  let (v, m') ← m.nat.at' r c
  .ok (v, ofMat m')

/-- `Set`. -/
def set (m : IMat T) (r c : Int) (value : T) : Out (IMat T) := do
  m.check r c
  let m' ← m.nat.set r c value
  .ok (ofMat m')

/-- `Update`. -/
def update (m : IMat T) (r c : Int) (f : T → T) : Out (IMat T) := do
  m.check r c
  let m' ← m.nat.update r c f
  .ok (ofMat m')

/-- `Clear`: csrMatrix.go:308-312, cscMatrix.go:318-322, denseMatrix.go:273-278, denseVector.go:275-277,
sparseVector.go:293-297. -/
def clear : IMat T → Out (IMat T)
  | csr r c _ _ _ => newCSR r c
  | csc r c _ _ _ => newCSC r c
  | dense r c _ => newDense r c
  | dvec l _ => newDVec l
  | svec l _ _ => newSVec l

/-- `Transpose` of an object without entries: csrMatrix.go:281-285, cscMatrix.go:291-295, denseMatrix.go:246-250,
denseVector.go:253-257, sparseVector.go:266-270. The loop of operators.go:414-425 makes no turn. -/
def transposeEmpty : IMat T → Out (IMat T)
  | csr r c _ _ _ => newCSR c r
  | csc r c _ _ _ => newCSC c r
  | dense r c _ => newDense c r
  | dvec l _ => newDense 1 l
  | svec l _ _ => newDense 1 l

end IMat

namespace Share.LDVec

/-- denseVector.go:88-100 `ReSize`, for any size. Line 95 slices `s.values[:length]`: Go bounds the upper index
by the capacity, that is by what is left of the array. -/
def reSizeI (o : LDVec) (size : Int) : H T LDVec := fun m =>
  if size > o.l then
    (do
      let values ← hAppend (T := T) numF o.values (List.replicate (size - o.l).toNat 0)
      pure ({ l := values.len, values := values } : LDVec)) m
  else if size < o.l then
    let length := (o.l - size).toNat
    if o.values.off + length ≤ (m.num o.values.arr).length then
      (do
        let l ← hRead (T := T) numF { o.values with len := length }
        let nil ← hAlloc numF []
        let values ← hAppend numF nil l
        pure ({ l := values.len, values := values } : LDVec)) m
    else .panic m
  else .ok { o with l := o.values.len } m

end Share.LDVec

end GB
