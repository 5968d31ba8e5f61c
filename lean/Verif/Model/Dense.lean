import Verif.Model.DVec

/-!
# Model of denseMatrix.go
-/

namespace GB

variable {T : Type} [GoNum T]

/-- denseMatrix.go:16-24 `DenseMatrix` and `DenseMatrixNumber` (the latter only embeds the
former; both are this structure). -/
structure Dense (T : Type) where
  r : Nat
  c : Nat
  data : List (List T)
  deriving DecidableEq, Repr

namespace Dense

/-- denseMatrix.go:53-77 `newMatrix` with `initialise == nil`, and its callers. -/
def new (r c : Nat) : Dense T :=
  { r := r, c := c, data := List.replicate r (List.replicate c 0) }

/-- denseMatrix.go:36-51 `NewDenseMatrixFromArray(N)`. The sharing of the caller's slices is the
subject of the separate model in `Model/Share.lean`. -/
def fromArray (data : List (List T)) : Out (Dense T) := do
  let row0 ← idx data 0
  .ok { (new data.length row0.length : Dense T) with data := data }

/-- denseMatrix.go:90-102 `Update`, with a captured result. -/
def updateWith {β : Type} (s : Dense T) (r c : Int) (f : T → β × T) : Out (β × Dense T) :=
  if inRange r s.r then
    if inRange c s.c then do
      let row ← idx s.data r.toNat
      let v ← idx row c.toNat
      let row' ← setIdx row c.toNat (f v).2
      let data' ← setIdx s.data r.toNat row'
      .ok ((f v).1, { s with data := data' })
    else .panic
  else .panic

/-- denseMatrix.go:90-102 `Update`. -/
def update (s : Dense T) (r c : Int) (f : T → T) : Out (Dense T) := do
  let (_, s') ← s.updateWith r c (fun v => ((), f v))
  .ok s'

/-- denseMatrix.go:105-115 `At`. -/
def at' (s : Dense T) (r c : Int) : Out T :=
  if inRange r s.r then
    if inRange c s.c then do
      let row ← idx s.data r.toNat
      idx row c.toNat
    else .panic
  else .panic

/-- denseMatrix.go:118-128 `Set`. -/
def set (s : Dense T) (r c : Int) (value : T) : Out (Dense T) :=
  if inRange r s.r then
    if inRange c s.c then do
      let row ← idx s.data r.toNat
      let row' ← setIdx row c.toNat value
      let data' ← setIdx s.data r.toNat row'
      .ok { s with data := data' }
    else .panic
  else .panic

/-- denseMatrix.go:131-143 `ColumnsAt`. -/
def columnsAt (s : Dense T) (c : Int) : Out (DVec T) :=
  if inRange c s.c then
    loop s.r 0 (fun r columns => do
      let row ← idx s.data r
      let v ← idx row c.toNat
      columns.setVec r v) (DVec.new s.r)
  else .panic

/-- denseMatrix.go:146-158 `RowsAt`. -/
def rowsAt (s : Dense T) (r : Int) : Out (DVec T) :=
  if inRange r s.r then
    loop s.c 0 (fun i rows => do
      let row ← idx s.data r.toNat
      let v ← idx row i
      rows.setVec i v) (DVec.new s.c)
  else .panic

/-- denseMatrix.go:161-173 `RowsAtToArray`. -/
def rowsAtToArray (s : Dense T) (r : Int) : Out (List T) :=
  if inRange r s.r then
    loop s.c 0 (fun i rows => do
      let row ← idx s.data r.toNat
      let v ← idx row i
      setIdx rows i v) (List.replicate s.c 0)
  else .panic

/-- denseMatrix.go:176-208 `CopyLogical`, `Copy`, with `newMatrix`'s `initialise` callback filling
each fresh row (both branches of the zero test store the same value). -/
def copy (s : Dense T) : Out (Dense T) := do
  let data ← loop s.r 0 (fun i data => do
      let row ← loop s.c 0 (fun c row => do
          let srow ← idx s.data i
          let v ← idx srow c
          setIdx row c v) (List.replicate s.c 0)
      setIdx data i row) (List.replicate s.r [])
  .ok { r := s.r, c := s.c, data := data }

/-- denseMatrix.go:273-278 `Clear`. -/
def clear (s : Dense T) : Dense T :=
  { s with data := List.replicate s.r (List.replicate s.c 0) }

/-- denseMatrix.go:360-366 `Element`, `element`. -/
def element (s : Dense T) (r c : Int) : Out Bool := do
  let v ← s.at' r c
  .ok (GoNum.glt 0 v)

/-- denseMatrix.go:301-309 `denseMatrixIterator` (without the matrix pointer and the unused
`rOld`). -/
structure Iter where
  size : Nat
  last : Nat
  c : Nat
  r : Nat
  cOld : Nat
  deriving DecidableEq, Repr

/-- denseMatrix.go:290-299 `iterator`; 268-270 `Values`. -/
def iter (s : Dense T) : Iter := { size := s.r * s.c, last := 0, c := 0, r := 0, cOld := 0 }

/-- denseMatrix.go:312-317 `HasNext`. -/
def Iter.hasNext (it : Iter) : Bool := decide (it.last < it.size)

/-- denseMatrix.go:319-327 `next`. -/
def next (s : Dense T) (it : Iter) : Iter :=
  let it := if it.c = s.c then { it with c := 0, r := it.r + 1 } else it
  { it with cOld := it.c, c := it.c + 1, last := it.last + 1 }

/-- denseMatrix.go:330-334 `Next`, and the first half of `Map` (354-356). -/
def step (s : Dense T) (it : Iter) : Out (Iter × Nat × Nat × T) := do
  let it := s.next it
  let v ← s.at' it.r it.cOld
  .ok (it, it.r, it.cOld, v)

/-- denseMatrix.go:356, the second half of `Map`. -/
def put (s : Dense T) (it : Iter) (value : T) : Out (Dense T) := s.set it.r it.cOld value

end Dense
end GB
