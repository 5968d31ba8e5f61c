import Verif.SpecMat

/-!
# Backing arrays: what the objects share

The rest of the model treats a matrix as a value: writing to one object cannot change another.
In Go a matrix is a struct of slices, and slices may share backing arrays. This file models the
five formats at that level. A memory holds arrays at addresses; a slice is an address, an offset
and a length; `append` writes in place when the capacity allows it and otherwise moves to a fresh
array, with any amount of spare capacity. The methods below are the same Go functions as in
`Model/CSR.lean`, …, `Model/SVec.lean`, with every write to an array spelt out. Pure reads
(searching, indexing) are taken from there and applied to the present contents.
-/

namespace GB.Share

/-- A Go slice header: array, offset into it, length. The capacity is what is left of the array. -/
structure Slice where
  arr : Nat
  off : Nat
  len : Nat
  deriving DecidableEq, Repr

/-- The three element types of backing arrays: numbers, machine integers, row headers. -/
inductive Tag where
  | num
  | int
  | row
  deriving DecidableEq, Repr

/-- Memory: the arrays at each address, by element type; the next free address; and the spare
capacity the allocator grants to the array it creates at an address when `append` grows a slice
(any function: Go does not specify it). -/
structure Mem (T : Type) where
  num : Nat → List T
  int : Nat → List Nat
  row : Nat → List Slice
  next : Nat
  slack : Nat → Nat

/-- Outcome of a computation on memory. A panic leaves the memory as it is at that moment. -/
inductive HRes (T α : Type) where
  | ok (a : α) (m : Mem T)
  | panic (m : Mem T)
  | hang (m : Mem T)

/-- Computations on memory. -/
def H (T α : Type) : Type := Mem T → HRes T α

/-- Sequencing. -/
def H.bind {T α β : Type} (x : H T α) (f : α → H T β) : H T β := fun m =>
  match x m with
  | .ok a m' => f a m'
  | .panic m' => .panic m'
  | .hang m' => .hang m'

instance {T : Type} : Monad (H T) where
  pure a := fun m => .ok a m
  bind := H.bind

/-- A pure read, on the present contents. -/
def lift {T α : Type} (x : Out α) : H T α := fun m =>
  match x with
  | .ok a => .ok a m
  | .panic => .panic m
  | .hang => .hang m

/-- One of the three kinds of arrays: how to read and write a whole array, and the zero value. -/
structure Fld (T α : Type) where
  tag : Tag
  get : Mem T → Nat → List α
  put : Mem T → Nat → List α → Mem T
  zero : α

variable {T : Type} [GoNum T]

/-- Arrays of numbers. -/
def numF : Fld T T where
  tag := .num
  get m a := m.num a
  put m a l := { m with num := Function.update m.num a l }
  zero := 0

/-- Arrays of machine integers. -/
def intF : Fld T Nat where
  tag := .int
  get m a := m.int a
  put m a l := { m with int := Function.update m.int a l }
  zero := 0

/-- Arrays of row headers (`[][]T`). -/
def rowF : Fld T Slice where
  tag := .row
  get m a := m.row a
  put m a l := { m with row := Function.update m.row a l }
  zero := ⟨0, 0, 0⟩

section ops

variable {α : Type} (φ : Fld T α)

/-- The elements of a slice. -/
def Slice.get (s : Slice) (m : Mem T) : List α := ((φ.get m s.arr).drop s.off).take s.len

/-- All elements of a slice, as the right-hand side of an expression. -/
def hRead (s : Slice) : H T (List α) := fun m => .ok (s.get φ m) m

/-- `s[i]`. -/
def hIdx (s : Slice) (i : Nat) : H T α := do
  let l ← hRead φ s
  lift (idx l i)

/-- `s[i] = a`: writes the backing array. -/
def hSet (s : Slice) (i : Nat) (a : α) : H T Unit := fun m =>
  if i < s.len then .ok () (φ.put m s.arr ((φ.get m s.arr).set (s.off + i) a)) else .panic m

/-- `make([]A, n)` and slice literals: a fresh array without spare capacity. -/
def hAlloc (l : List α) : H T Slice := fun m =>
  .ok ⟨m.next, 0, l.length⟩ { φ.put m m.next l with next := m.next + 1 }

/-- `append(dst, src...)`: in place when the capacity allows, else into a fresh array with the
spare capacity the allocator chooses. -/
def hAppend (dst : Slice) (src : List α) : H T Slice := fun m =>
  let a := φ.get m dst.arr
  let e := dst.off + dst.len
  if e + src.length ≤ a.length then
    .ok { dst with len := dst.len + src.length }
      (φ.put m dst.arr (a.take e ++ src ++ a.drop (e + src.length)))
  else
    .ok ⟨m.next, 0, dst.len + src.length⟩
      { φ.put m m.next (dst.get φ m ++ src ++ List.replicate (m.slack m.next) φ.zero) with
        next := m.next + 1 }

/-- `append(s[:p], append([]A{a}, s[p:]...)...)`. Taking `s[p:]` panics when `p > len(s)`. -/
def hSplice (s : Slice) (p : Nat) (a : α) : H T Slice := do
  if p ≤ s.len then
    let t ← hAlloc φ [a]
    let l ← hRead φ s
    let t ← hAppend φ t (l.drop p)
    let l ← hRead φ t
    hAppend φ { s with len := p } l
  else lift .panic

/-- `append(s[:p], s[p+1:]...)`. Taking `s[p+1:]` panics when `p + 1 > len(s)`. -/
def hUnsplice (s : Slice) (p : Nat) : H T Slice := do
  if p < s.len then
    let l ← hRead φ s
    hAppend φ { s with len := p } (l.drop (p + 1))
  else lift .panic

end ops

/-- `for i := i0; i < i0+n; i++ { body }`. -/
def hLoop {σ : Type} : (n i0 : Nat) → (Nat → σ → H T σ) → σ → H T σ
  | 0, _, _, s => pure s
  | n + 1, i0, f, s => f i0 s >>= hLoop n (i0 + 1) f

/-! ## csrMatrix.go -/

/-- csrMatrix.go:21-27 `CSRMatrix`, with slice headers. -/
structure LCSR where
  r : Nat
  c : Nat
  values : Slice
  cols : Slice
  rowStart : Slice
  deriving DecidableEq, Repr

namespace LCSR

/-- The present contents. -/
def view (o : LCSR) : H T (CSR T) := fun m =>
  .ok { r := o.r, c := o.c, values := o.values.get numF m, cols := o.cols.get intF m,
        rowStart := o.rowStart.get intF m } m

/-- csrMatrix.go:47-56 `newCSRMatrix`. -/
def newL (r c l : Nat) : H T LCSR := do
  let values ← hAlloc numF (List.replicate l 0)
  let cols ← hAlloc intF (List.replicate l 0)
  let rowStart ← hAlloc intF (List.replicate (r + 1) 0)
  pure { r := r, c := c, values := values, cols := cols, rowStart := rowStart }

/-- csrMatrix.go:30-32 `NewCSRMatrix`. -/
def new (r c : Nat) : H T LCSR := newL r c 0

/-- csrMatrix.go:184-186 and 195-197. -/
def bump (f : Nat → Nat) (rowStart : Slice) (r sr : Nat) : H T Unit :=
  hLoop (sr - r) (r + 1) (fun i _ => do
    let x ← hIdx intF rowStart i
    hSet intF rowStart i (f x)) ()

/-- csrMatrix.go:176-189 `insert` (the Go result is not used here). -/
def insert (o : LCSR) (pointer r c : Nat) (value : T) : H T LCSR :=
  if isZero value then pure o
  else do
    let cols ← hSplice intF o.cols pointer c
    let values ← hSplice numF o.values pointer value
    bump (· + 1) o.rowStart r o.r
    pure { o with cols := cols, values := values }

/-- csrMatrix.go:191-198 `remove`. -/
def remove (o : LCSR) (pointer r : Nat) : H T LCSR := do
  let cols ← hUnsplice intF o.cols pointer
  let values ← hUnsplice numF o.values pointer
  bump (· - 1) o.rowStart r o.r
  pure { o with cols := cols, values := values }

/-- csrMatrix.go:69-96 `Update`, `UpdateReturnPointer`; `At`, `Set`, `Element` are calls of it. -/
def updateWith {β : Type} (o : LCSR) (r c : Int) (f : T → β × T) : H T (β × LCSR) :=
  if inRange r o.r then
    if inRange c o.c then do
      let v ← o.view
      let (pStart, pEnd) ← lift (v.columnIndex r.toNat c.toNat)
      let found ← lift (v.hit pStart pEnd c.toNat)
      if found then do
        let old ← hIdx numF o.values pStart
        let value := (f old).2
        if isZero value then do
          let o' ← o.remove pStart r.toNat
          pure ((f old).1, o')
        else do
          hSet numF o.values pStart value
          pure ((f old).1, o)
      else do
        let o' ← o.insert pStart r.toNat c.toNat (f 0).2
        pure ((f 0).1, o')
    else lift .panic
  else lift .panic

/-- csrMatrix.go:35-45 `NewCSRMatrixFromArray`; `data` is the caller's slice of row slices. -/
def fromArray (data : Slice) : H T LCSR := do
  let row0 ← hIdx rowF data 0
  let o ← new data.len row0.len
  hLoop data.len 0 (fun i o =>
    hLoop row0.len 0 (fun k o => do
      let row ← hIdx rowF data i
      let v ← hIdx numF row k
      let (_, o') ← o.updateWith i k (fun _ => ((), v))
      pure o') o) o

/-- csrMatrix.go:232-245 `Copy`. -/
def copy (o : LCSR) : H T LCSR := do
  let n ← newL (T := T) o.r o.c o.values.len
  hLoop o.values.len 0 (fun i _ => do
    let x ← hIdx numF o.values i
    hSet numF n.values i x
    let y ← hIdx intF o.cols i
    hSet intF n.cols i y) ()
  hLoop o.rowStart.len 0 (fun i _ => do
    let x ← hIdx intF o.rowStart i
    hSet intF n.rowStart i x) ()
  pure n

/-- csrMatrix.go:308-312 `Clear`. -/
def clear (o : LCSR) : H T LCSR := do
  let values ← hAlloc numF []
  let cols ← hAlloc intF []
  let rowStart ← hAlloc intF (List.replicate (o.r + 1) 0)
  pure { o with values := values, cols := cols, rowStart := rowStart }

/-- csrMatrix.go:396-400, the writing half of `Map`. -/
def put (o : LCSR) (it : CSR.Iter) (value : T) : H T LCSR :=
  if !isZero value then do
    hSet numF o.values it.index value
    pure o
  else o.remove it.index it.r.toNat

end LCSR

/-! ## cscMatrix.go -/

/-- cscMatrix.go:22-28 `CSCMatrix`, with slice headers. -/
structure LCSC where
  r : Nat
  c : Nat
  values : Slice
  rows : Slice
  colStart : Slice
  deriving DecidableEq, Repr

namespace LCSC

/-- The present contents. -/
def view (o : LCSC) : H T (CSC T) := fun m =>
  .ok { r := o.r, c := o.c, values := o.values.get numF m, rows := o.rows.get intF m,
        colStart := o.colStart.get intF m } m

/-- cscMatrix.go:50-62 `newCSCMatrix`. -/
def newL (r c l : Nat) : H T LCSC := do
  let values ← hAlloc numF (List.replicate l 0)
  let rows ← hAlloc intF (List.replicate l 0)
  let colStart ← hAlloc intF (List.replicate (c + 1) 0)
  pure { r := r, c := c, values := values, rows := rows, colStart := colStart }

/-- cscMatrix.go:31-33 `NewCSCMatrix`. -/
def new (r c : Nat) : H T LCSC := newL r c 0

/-- cscMatrix.go:191-193 and 202-204. -/
def bump (f : Nat → Nat) (colStart : Slice) (c sc : Nat) : H T Unit :=
  hLoop (sc - c) (c + 1) (fun i _ => do
    let x ← hIdx intF colStart i
    hSet intF colStart i (f x)) ()

/-- cscMatrix.go:183-196 `insert`. -/
def insert (o : LCSC) (pointer r c : Nat) (value : T) : H T LCSC :=
  if isZero value then pure o
  else do
    let rows ← hSplice intF o.rows pointer r
    let values ← hSplice numF o.values pointer value
    bump (· + 1) o.colStart c o.c
    pure { o with rows := rows, values := values }

/-- cscMatrix.go:198-205 `remove`. -/
def remove (o : LCSC) (pointer c : Nat) : H T LCSC := do
  let rows ← hUnsplice intF o.rows pointer
  let values ← hUnsplice numF o.values pointer
  bump (· - 1) o.colStart c o.c
  pure { o with rows := rows, values := values }

/-- cscMatrix.go:75-104 `Update`, `UpdateReturnPointer`; `At`, `Set`, `Element` are calls of it. -/
def updateWith {β : Type} (o : LCSC) (r c : Int) (f : T → β × T) : H T (β × LCSC) :=
  if inRange r o.r then
    if inRange c o.c then do
      let v ← o.view
      let (pStart, pEnd) ← lift (v.rowIndex r.toNat c.toNat)
      let found ← lift (v.hit pStart pEnd r.toNat)
      if found then do
        let old ← hIdx numF o.values pStart
        let value := (f old).2
        if isZero value then do
          let o' ← o.remove pStart c.toNat
          pure ((f old).1, o')
        else do
          hSet numF o.values pStart value
          pure ((f old).1, o)
      else do
        let o' ← o.insert pStart r.toNat c.toNat (f 0).2
        pure ((f 0).1, o')
    else lift .panic
  else lift .panic

/-- cscMatrix.go:36-48 `NewCSCMatrixFromArray`. -/
def fromArray (data : Slice) : H T LCSC := do
  let row0 ← hIdx rowF data 0
  let o ← new data.len row0.len
  hLoop data.len 0 (fun i o =>
    hLoop row0.len 0 (fun k o => do
      let row ← hIdx rowF data i
      let v ← hIdx numF row k
      let (_, o') ← o.updateWith i k (fun _ => ((), v))
      pure o') o) o

/-- cscMatrix.go:239-252 `Copy`. -/
def copy (o : LCSC) : H T LCSC := do
  let n ← newL (T := T) o.r o.c o.values.len
  hLoop o.values.len 0 (fun i _ => do
    let x ← hIdx numF o.values i
    hSet numF n.values i x
    let y ← hIdx intF o.rows i
    hSet intF n.rows i y) ()
  hLoop o.colStart.len 0 (fun i _ => do
    let x ← hIdx intF o.colStart i
    hSet intF n.colStart i x) ()
  pure n

/-- cscMatrix.go:318-322 `Clear`. -/
def clear (o : LCSC) : H T LCSC := do
  let values ← hAlloc numF []
  let rows ← hAlloc intF []
  let colStart ← hAlloc intF (List.replicate (o.c + 1) 0)
  pure { o with values := values, rows := rows, colStart := colStart }

/-- cscMatrix.go:406-410, the writing half of `Map`. -/
def put (o : LCSC) (it : CSC.Iter) (value : T) : H T LCSC :=
  if !isZero value then do
    hSet numF o.values it.index value
    pure o
  else o.remove it.index it.c.toNat

end LCSC

/-! ## denseMatrix.go -/

/-- denseMatrix.go:16-24 `DenseMatrix`, with the header of its `[][]T`. -/
structure LDense where
  r : Nat
  c : Nat
  data : Slice
  deriving DecidableEq, Repr

namespace LDense

/-- denseMatrix.go:53-66 `newMatrix`: a fresh array of row headers, a fresh array per row;
`initialise` fills the row. -/
def newMatrix (r c : Nat) (initialise : Slice → Nat → H T Unit) : H T LDense := do
  let data ← hAlloc rowF (List.replicate r ⟨0, 0, 0⟩)
  hLoop r 0 (fun i _ => do
    let row ← hAlloc numF (List.replicate c 0)
    hSet rowF data i row
    initialise row i) ()
  pure { r := r, c := c, data := data }

/-- denseMatrix.go:27-33 `NewDenseMatrix`, `NewDenseMatrixN`. -/
def new (r c : Nat) : H T LDense := newMatrix r c (fun _ _ => pure ())

/-- denseMatrix.go:36-51 `NewDenseMatrixFromArray(N)`: `s.data = data`. -/
def fromArray (data : Slice) : H T LDense := do
  let row0 ← hIdx rowF data 0
  let s ← new (T := T) data.len row0.len
  pure { s with data := data }

/-- denseMatrix.go:90-102 `Update`. -/
def updateWith {β : Type} (o : LDense) (r c : Int) (f : T → β × T) : H T (β × LDense) :=
  if inRange r o.r then
    if inRange c o.c then do
      let row ← hIdx rowF o.data r.toNat
      let v ← hIdx numF row c.toNat
      hSet numF row c.toNat (f v).2
      pure ((f v).1, o)
    else lift .panic
  else lift .panic

/-- denseMatrix.go:105-115 `At`. -/
def at' (o : LDense) (r c : Int) : H T T :=
  if inRange r o.r then
    if inRange c o.c then do
      let row ← hIdx rowF o.data r.toNat
      hIdx numF row c.toNat
    else lift .panic
  else lift .panic

/-- denseMatrix.go:118-128 `Set`. -/
def set (o : LDense) (r c : Int) (value : T) : H T LDense :=
  if inRange r o.r then
    if inRange c o.c then do
      let row ← hIdx rowF o.data r.toNat
      hSet numF row c.toNat value
      pure o
    else lift .panic
  else lift .panic

/-- denseMatrix.go:176-208 `CopyLogical`, `Copy`. -/
def copy (o : LDense) : H T LDense :=
  newMatrix o.r o.c (fun row r =>
    hLoop o.c 0 (fun c _ => do
      let srow ← hIdx rowF o.data r
      let v ← hIdx numF srow c
      hSet numF row c v) ())

/-- denseMatrix.go:273-278 `Clear`. -/
def clear (o : LDense) : H T LDense := do
  let data ← hAlloc rowF (List.replicate o.r ⟨0, 0, 0⟩)
  hLoop o.r 0 (fun i _ => do
    let row ← hAlloc numF (List.replicate o.c 0)
    hSet rowF data i row) ()
  pure { o with data := data }

/-- denseMatrix.go:360-366 `Element`. -/
def element (o : LDense) (r c : Int) : H T Bool := do
  let v : T ← o.at' r c
  pure (GoNum.glt 0 v)

/-- denseMatrix.go:356, the writing half of `Map`. -/
def put (o : LDense) (it : Dense.Iter) (value : T) : H T LDense := o.set it.r it.cOld value

end LDense

/-! ## denseVector.go -/

/-- denseVector.go:16-23 `DenseVector`, with its slice header. -/
structure LDVec where
  l : Nat
  values : Slice
  deriving DecidableEq, Repr

namespace LDVec

/-- denseVector.go:48-62 `newDenseVector`. -/
def new (l : Nat) : H T LDVec := do
  let values ← hAlloc numF (List.replicate l 0)
  pure { l := l, values := values }

/-- denseVector.go:31-46 `NewDenseVectorFromArray(N)`: `v.values = data`. -/
def fromArray (data : Slice) : H T LDVec := do
  let v ← new (T := T) data.len
  pure { v with values := data }

/-- denseVector.go:65-71 `AtVec`. -/
def atVec (o : LDVec) (i : Int) : H T T :=
  if inRange i o.l then hIdx numF o.values i.toNat else lift .panic

/-- denseVector.go:74-80 `SetVec`. -/
def setVec (o : LDVec) (i : Int) (value : T) : H T LDVec :=
  if inRange i o.l then do
    hSet numF o.values i.toNat value
    pure o
  else lift .panic

/-- denseVector.go:88-100 `ReSize`. -/
def reSize (o : LDVec) (size : Nat) : H T LDVec :=
  if size > o.l then do
    let values ← hAppend (T := T) numF o.values (List.replicate (size - o.l) 0)
    pure { l := values.len, values := values }
  else if size < o.l then
    if o.l - size ≤ o.values.len then do
      let l ← hRead (T := T) numF o.values
      let nil ← hAlloc numF []
      let values ← hAppend numF nil (l.take (o.l - size))
      pure { l := values.len, values := values }
    else lift .panic
  else pure { o with l := o.values.len }

/-- denseVector.go:118-129 `Update`. -/
def updateWith {β : Type} (o : LDVec) (r c : Int) (f : T → β × T) : H T (β × LDVec) :=
  if inRange r o.l then
    if inRange c 1 then do
      let v ← o.atVec r
      let o' ← o.setVec r (f v).2
      pure ((f v).1, o')
    else lift .panic
  else lift .panic

/-- denseVector.go:137-147 `Set`. -/
def set (o : LDVec) (r c : Int) (value : T) : H T LDVec :=
  if inRange r o.l then
    if inRange c 1 then o.setVec r value else lift .panic
  else lift .panic

/-- denseVector.go:186-217 `copy`, `Copy`, `CopyLogical`. -/
def copy (o : LDVec) : H T LDVec := do
  let n ← new (T := T) o.l
  hLoop o.values.len 0 (fun i n => do
    let x ← hIdx (T := T) numF o.values i
    n.setVec i x) n

/-- denseVector.go:275-277 `Clear`. -/
def clear (o : LDVec) : H T LDVec := do
  let values ← hAlloc numF (List.replicate o.l 0)
  pure { o with values := values }

/-- denseVector.go:353-355 `Element`. -/
def element (o : LDVec) (r : Int) : H T Bool := do
  let v : T ← o.atVec r
  pure (GoNum.glt 0 v)

/-- denseVector.go:349, the writing half of `Map`. -/
def put (o : LDVec) (it : DVec.Iter) (value : T) : H T LDVec := o.setVec it.rOld value

end LDVec

/-! ## sparseVector.go -/

/-- sparseVector.go:25-29 `SparseVector`, with slice headers. -/
structure LSVec where
  l : Nat
  values : Slice
  indices : Slice
  deriving DecidableEq, Repr

namespace LSVec

/-- The present contents. -/
def view (o : LSVec) : H T (SVec T) := fun m =>
  .ok { l := o.l, values := o.values.get numF m, indices := o.indices.get intF m } m

/-- sparseVector.go:48-50 `newSparseVector`. -/
def newL (l n : Nat) : H T LSVec := do
  let values ← hAlloc numF (List.replicate n 0)
  let indices ← hAlloc intF (List.replicate n 0)
  pure { l := l, values := values, indices := indices }

/-- sparseVector.go:32-34 `NewSparseVector`. -/
def new (l : Nat) : H T LSVec := newL l 0

/-- sparseVector.go:175-182 `insert`. -/
def insert (o : LSVec) (pointer i : Nat) (value : T) : H T LSVec :=
  if isZero value then pure o
  else do
    let indices ← hSplice intF o.indices pointer i
    let values ← hSplice numF o.values pointer value
    pure { o with indices := indices, values := values }

/-- sparseVector.go:184-187 `remove`. -/
def remove (o : LSVec) (pointer : Nat) : H T LSVec := do
  let indices ← hUnsplice intF o.indices pointer
  let values ← hUnsplice numF o.values pointer
  pure { o with indices := indices, values := values }

/-- sparseVector.go:58-70 `AtVec`. -/
def atVec (o : LSVec) (i : Int) : H T T := do
  let v ← o.view
  lift (v.atVec i)

/-- sparseVector.go:73-89 `SetVec`. -/
def setVec (o : LSVec) (i : Int) (value : T) : H T LSVec :=
  if inRange i o.l then do
    let v ← o.view (T := T)
    let (pointer, length) ← lift (v.index i.toNat)
    if pointer < length then do
      let x ← hIdx intF o.indices pointer
      if x = i.toNat then
        if isZero value then o.remove pointer
        else do
          hSet numF o.values pointer value
          pure o
      else o.insert pointer i.toNat value
    else o.insert pointer i.toNat value
  else lift .panic

/-- sparseVector.go:102-113 `Update`; `At` is a call of it. -/
def updateWith {β : Type} (o : LSVec) (r c : Int) (f : T → β × T) : H T (β × LSVec) :=
  if inRange r o.l then
    if inRange c 1 then do
      let v ← o.atVec r
      let o' ← o.setVec r (f v).2
      pure ((f v).1, o')
    else lift .panic
  else lift .panic

/-- sparseVector.go:126-136 `Set`. -/
def set (o : LSVec) (r c : Int) (value : T) : H T LSVec :=
  if inRange r o.l then
    if inRange c 1 then o.setVec r value else lift .panic
  else lift .panic

/-- sparseVector.go:37-46 `NewSparseVectorFromArray`. -/
def fromArray (data : Slice) : H T LSVec := do
  let o ← new (T := T) data.len
  hLoop data.len 0 (fun i o => do
    let v : T ← hIdx numF data i
    o.setVec i v) o

/-- sparseVector.go:212-230 `copy`, `Copy`, `CopyLogical`. -/
def copy (o : LSVec) : H T LSVec := do
  let n ← newL (T := T) o.l o.indices.len
  hLoop o.values.len 0 (fun i _ => do
    let x ← hIdx numF o.values i
    hSet numF n.values i x
    let y ← hIdx intF o.indices i
    hSet intF n.indices i y) ()
  pure n

/-- sparseVector.go:293-297 `Clear`. -/
def clear (o : LSVec) : H T LSVec := do
  let values ← hAlloc numF []
  let indices ← hAlloc intF []
  pure { o with values := values, indices := indices }

/-- sparseVector.go:369-371 `Element`. -/
def element (o : LSVec) (r : Int) : H T Bool := do
  let v : T ← o.atVec r
  pure (GoNum.glt 0 v)

/-- sparseVector.go:361-365, the writing half of `Map`. -/
def put (o : LSVec) (it : SVec.Iter) (value : T) : H T LSVec :=
  if !isZero value then do
    hSet numF o.values it.old value
    pure o
  else o.remove it.old

end LSVec

/-! ## Rows and columns handed out -/

namespace LCSR

/-- csrMatrix.go:122-138 `ColumnsAt`: a new sparse vector, filled entry by entry. -/
def columnsAt (o : LCSR) (c : Int) : H T LSVec :=
  if inRange c o.c then do
    let columns ← LSVec.new (T := T) o.r
    hLoop o.r 0 (fun r columns => do
      let v ← o.view (T := T)
      let (pStart, pEnd) ← lift (v.columnIndex r c.toNat)
      let found ← lift (v.hit pStart pEnd c.toNat)
      if found then do
        let x ← hIdx numF o.values pStart
        columns.setVec r x
      else pure columns) columns
  else lift .panic

/-- csrMatrix.go:141-156 `RowsAt`: a new sparse vector, filled entry by entry. -/
def rowsAt (o : LCSR) (r : Int) : H T LSVec :=
  if inRange r o.r then do
    let rows ← LSVec.new (T := T) o.c
    let start ← hIdx intF o.rowStart r.toNat
    let stop ← hIdx intF o.rowStart (r.toNat + 1)
    hLoop (stop - start) start (fun i rows => do
      let c ← hIdx intF o.cols i
      let x ← hIdx (T := T) numF o.values i
      rows.setVec c x) rows
  else lift .panic

/-- csrMatrix.go:159-174 `RowsAtToArray`: a new array. -/
def rowsAtToArray (o : LCSR) (r : Int) : H T Slice :=
  if inRange r o.r then do
    let rows ← hAlloc (T := T) numF (List.replicate o.c 0)
    let start ← hIdx intF o.rowStart r.toNat
    let stop ← hIdx intF o.rowStart (r.toNat + 1)
    hLoop (stop - start) start (fun i _ => do
      let c ← hIdx intF o.cols i
      let x ← hIdx (T := T) numF o.values i
      hSet numF rows c x) ()
    pure rows
  else lift .panic

end LCSR

namespace LCSC

/-- cscMatrix.go:130-145 `ColumnsAt`: a new sparse vector, filled entry by entry. -/
def columnsAt (o : LCSC) (c : Int) : H T LSVec :=
  if inRange c o.c then do
    let columns ← LSVec.new (T := T) o.r
    let start ← hIdx intF o.colStart c.toNat
    let stop ← hIdx intF o.colStart (c.toNat + 1)
    hLoop (stop - start) start (fun i columns => do
      let r ← hIdx intF o.rows i
      let x ← hIdx (T := T) numF o.values i
      columns.setVec r x) columns
  else lift .panic

/-- cscMatrix.go:148-163 `RowsAt`: a new sparse vector, filled entry by entry. -/
def rowsAt (o : LCSC) (r : Int) : H T LSVec :=
  if inRange r o.r then do
    let rows ← LSVec.new (T := T) o.c
    hLoop o.c 0 (fun c rows => do
      let v ← o.view (T := T)
      let (pStart, pEnd) ← lift (v.rowIndex r.toNat c)
      let found ← lift (v.hit pStart pEnd r.toNat)
      if found then do
        let x ← hIdx numF o.values pStart
        rows.setVec c x
      else pure rows) rows
  else lift .panic

/-- cscMatrix.go:166-181 `RowsAtToArray`: a new array. -/
def rowsAtToArray (o : LCSC) (r : Int) : H T Slice :=
  if inRange r o.r then do
    let rows ← hAlloc (T := T) numF (List.replicate o.c 0)
    hLoop o.c 0 (fun c _ => do
      let v ← o.view (T := T)
      let (pStart, pEnd) ← lift (v.rowIndex r.toNat c)
      let found ← lift (v.hit pStart pEnd r.toNat)
      if found then do
        let x ← hIdx numF o.values pStart
        hSet numF rows c x
      else pure ()) ()
    pure rows
  else lift .panic

end LCSC

namespace LDense

/-- denseMatrix.go:131-143 `ColumnsAt`: a new dense vector, filled element by element. -/
def columnsAt (o : LDense) (c : Int) : H T LDVec :=
  if inRange c o.c then do
    let columns ← LDVec.new (T := T) o.r
    hLoop o.r 0 (fun r columns => do
      let row ← hIdx (T := T) rowF o.data r
      let x ← hIdx (T := T) numF row c.toNat
      columns.setVec r x) columns
  else lift .panic

/-- denseMatrix.go:146-158 `RowsAt`: a new dense vector, filled element by element. -/
def rowsAt (o : LDense) (r : Int) : H T LDVec :=
  if inRange r o.r then do
    let rows ← LDVec.new (T := T) o.c
    hLoop o.c 0 (fun i rows => do
      let row ← hIdx (T := T) rowF o.data r.toNat
      let x ← hIdx (T := T) numF row i
      rows.setVec i x) rows
  else lift .panic

/-- denseMatrix.go:161-173 `RowsAtToArray`: a new array. -/
def rowsAtToArray (o : LDense) (r : Int) : H T Slice :=
  if inRange r o.r then do
    let rows ← hAlloc (T := T) numF (List.replicate o.c 0)
    hLoop o.c 0 (fun i _ => do
      let row ← hIdx (T := T) rowF o.data r.toNat
      let x ← hIdx (T := T) numF row i
      hSet numF rows i x) ()
    pure rows
  else lift .panic

/-- denseMatrix.go:281-283 `RawMatrix`: the matrix's own `[][]T`. -/
def rawMatrix (o : LDense) : H T Slice := pure o.data

end LDense

namespace LDVec

/-- denseVector.go:150-156 `ColumnsAt`. -/
def columnsAt (o : LDVec) (c : Int) : H T LDVec := if inRange c 1 then o.copy else lift .panic

/-- denseVector.go:159-170 `RowsAt`. -/
def rowsAt (o : LDVec) (r : Int) : H T LDVec :=
  if inRange r o.l then do
    let rows ← LDVec.new (T := T) 1
    let v : T ← o.atVec r
    rows.setVec 0 v
  else lift .panic

/-- denseVector.go:173-184 `RowsAtToArray`. -/
def rowsAtToArray (o : LDVec) (r : Int) : H T Slice :=
  if inRange r o.l then do
    let rows ← hAlloc (T := T) numF (List.replicate 1 0)
    let v ← o.atVec r
    hSet (T := T) numF rows 0 v
    pure rows
  else lift .panic

end LDVec

namespace LSVec

/-- sparseVector.go:139-145 `ColumnsAt`. -/
def columnsAt (o : LSVec) (c : Int) : H T LSVec := if inRange c 1 then o.copy else lift .panic

/-- sparseVector.go:148-159 `RowsAt`. -/
def rowsAt (o : LSVec) (r : Int) : H T LSVec :=
  if inRange r o.l then do
    let rows ← LSVec.new (T := T) 1
    let v : T ← o.atVec r
    rows.setVec 0 v
  else lift .panic

/-- sparseVector.go:162-173 `RowsAtToArray`. -/
def rowsAtToArray (o : LSVec) (r : Int) : H T Slice :=
  if inRange r o.l then do
    let rows ← hAlloc (T := T) numF (List.replicate 1 0)
    let v ← o.atVec r
    hSet (T := T) numF rows 0 v
    pure rows
  else lift .panic

end LSVec

/-! ## The five types together -/

/-- An object: one of the five structs. -/
inductive LMat where
  | csr (o : LCSR)
  | csc (o : LCSC)
  | dense (o : LDense)
  | dvec (o : LDVec)
  | svec (o : LSVec)
  deriving DecidableEq, Repr

namespace LMat

/-- `At`. -/
def at' : LMat → Int → Int → H T (T × LMat)
  | csr o, r, c => do let (v, o') ← o.updateWith r c (fun v => (v, v)); pure (v, csr o')
  | csc o, r, c => do let (v, o') ← o.updateWith r c (fun v => (v, v)); pure (v, csc o')
  | dense o, r, c => do let v ← o.at' r c; pure (v, dense o)
  | dvec o, r, _ => do let v ← o.atVec r; pure (v, dvec o)
  | svec o, r, c => do let (v, o') ← o.updateWith r c (fun v => (v, v)); pure (v, svec o')

/-- `Element`. -/
def element : LMat → Int → Int → H T (Bool × LMat)
  | csr o, r, c => do let (v, o') ← o.updateWith r c (fun v : T => (GoNum.glt 0 v, v)); pure (v, csr o')
  | csc o, r, c => do let (v, o') ← o.updateWith r c (fun v : T => (GoNum.glt 0 v, v)); pure (v, csc o')
  | dense o, r, c => do let v ← o.element r c; pure (v, dense o)
  | dvec o, r, _ => do let v ← o.element r; pure (v, dvec o)
  | svec o, r, _ => do let v ← o.element r; pure (v, svec o)

/-- `Set`. -/
def set : LMat → Int → Int → T → H T LMat
  | csr o, r, c, v => do let (_, o') ← o.updateWith r c (fun _ => ((), v)); pure (csr o')
  | csc o, r, c, v => do let (_, o') ← o.updateWith r c (fun _ => ((), v)); pure (csc o')
  | dense o, r, c, v => do let o' ← o.set r c v; pure (dense o')
  | dvec o, r, c, v => do let o' ← o.set r c v; pure (dvec o')
  | svec o, r, c, v => do let o' ← o.set r c v; pure (svec o')

/-- `Update`. -/
def update : LMat → Int → Int → (T → T) → H T LMat
  | csr o, r, c, f => do let (_, o') ← o.updateWith r c (fun v => ((), f v)); pure (csr o')
  | csc o, r, c, f => do let (_, o') ← o.updateWith r c (fun v => ((), f v)); pure (csc o')
  | dense o, r, c, f => do let (_, o') ← o.updateWith r c (fun v => ((), f v)); pure (dense o')
  | dvec o, r, c, f => do let (_, o') ← o.updateWith r c (fun v => ((), f v)); pure (dvec o')
  | svec o, r, c, f => do let (_, o') ← o.updateWith r c (fun v => ((), f v)); pure (svec o')

/-- `Clear`. -/
def clear : LMat → H T LMat
  | csr o => do let o' ← o.clear; pure (csr o')
  | csc o => do let o' ← o.clear; pure (csc o')
  | dense o => do let o' ← o.clear; pure (dense o')
  | dvec o => do let o' ← o.clear; pure (dvec o')
  | svec o => do let o' ← o.clear; pure (svec o')

/-- `Copy`. -/
def copy : LMat → H T LMat
  | csr o => do let o' ← o.copy; pure (csr o')
  | csc o => do let o' ← o.copy; pure (csc o')
  | dense o => do let o' ← o.copy; pure (dense o')
  | dvec o => do let o' ← o.copy; pure (dvec o')
  | svec o => do let o' ← o.copy; pure (svec o')

/-- The writing half of `Map`. -/
def put : LMat → Mat.Iter → T → H T LMat
  | csr o, .csr it, v => do let o' ← o.put it v; pure (csr o')
  | csc o, .csc it, v => do let o' ← o.put it v; pure (csc o')
  | dense o, .dense it, v => do let o' ← o.put it v; pure (dense o')
  | dvec o, .dvec it, v => do let o' ← o.put it v; pure (dvec o')
  | svec o, .svec it, v => do let o' ← o.put it v; pure (svec o')
  | _, _, _ => lift .panic

/-- `ReSize`: only dense vectors have it. -/
def reSize : LMat → Nat → H T LMat
  | dvec o, n => do let o' ← o.reSize n; pure (dvec o')
  | _, _ => lift .panic

/-- `RowsAt`: a vector, which is an object like any other. -/
def rowsAt : LMat → Int → H T LMat
  | csr o, r => do let v ← o.rowsAt r; pure (svec v)
  | csc o, r => do let v ← o.rowsAt r; pure (svec v)
  | dense o, r => do let v ← o.rowsAt r; pure (dvec v)
  | dvec o, r => do let v ← o.rowsAt r; pure (dvec v)
  | svec o, r => do let v ← o.rowsAt r; pure (svec v)

/-- `ColumnsAt`. -/
def columnsAt : LMat → Int → H T LMat
  | csr o, c => do let v ← o.columnsAt c; pure (svec v)
  | csc o, c => do let v ← o.columnsAt c; pure (svec v)
  | dense o, c => do let v ← o.columnsAt c; pure (dvec v)
  | dvec o, c => do let v ← o.columnsAt c; pure (dvec v)
  | svec o, c => do let v ← o.columnsAt c; pure (svec v)

/-- `RowsAtToArray`. -/
def rowsAtToArray : LMat → Int → H T Slice
  | csr o, r => o.rowsAtToArray r
  | csc o, r => o.rowsAtToArray r
  | dense o, r => o.rowsAtToArray r
  | dvec o, r => o.rowsAtToArray r
  | svec o, r => o.rowsAtToArray r

end LMat

/-- The calls whose effects on the backing arrays are compared. -/
inductive Call (T : Type) where
  | op (o : Op T)
  | put (it : Mat.Iter) (v : T)
  | reSize (n : Nat)

/-- Perform a call on an object in memory. -/
def Call.low (o : LMat) : Call T → H T LMat
  | .op (.set i j v) => o.set i j v
  | .op (.update i j f) => o.update i j f
  | .op .clear => o.clear
  | .op (.read i j) => do let ((_ : T), o') ← o.at' i j; pure o'
  | .op (.element i j) => do let (_, o') ← o.element (T := T) i j; pure o'
  | .put it v => o.put it v
  | .reSize n => o.reSize n

/-- Perform a call on a value. -/
def Call.high (v : Mat T) : Call T → Out (Mat T)
  | .op o => o.apply v
  | .put it x => v.put it x
  | .reSize n =>
    match v with
    | .dvec s => do let (s', _) ← s.reSize n; .ok (.dvec s')
    | _ => .panic

/-! ## Programs that handle several objects -/

/-- What a program does: make an object, copy one, take a row or column of one, call a method on
one, or assign to an element of an array of its own. `rowArray` is
`NewDenseVectorFromArray(m.RowsAtToArray(i))`: it wraps the array that `RowsAtToArray` returns, without
copying it, so that `Set` on the wrapper is an assignment to an element of that array. Objects are
numbered in the order of their creation. -/
inductive Act (T : Type) where
  | newCSR (r c : Nat)
  | newCSC (r c : Nat)
  | newDense (r c : Nat)
  | newDVec (l : Nat)
  | newSVec (l : Nat)
  | copy (k : Nat)
  | rowsAt (k : Nat) (i : Int)
  | columnsAt (k : Nat) (j : Int)
  | rowArray (k : Nat) (i : Int)
  | call (k : Nat) (f : Call T)
  | poke (a i : Nat) (x : T)

/-- One action in memory. -/
def Act.low (os : List LMat) : Act T → H T (List LMat)
  | .newCSR r c => do let o ← LCSR.new r c; pure (os ++ [.csr o])
  | .newCSC r c => do let o ← LCSC.new r c; pure (os ++ [.csc o])
  | .newDense r c => do let o ← LDense.new r c; pure (os ++ [.dense o])
  | .newDVec l => do let o ← LDVec.new l; pure (os ++ [.dvec o])
  | .newSVec l => do let o ← LSVec.new l; pure (os ++ [.svec o])
  | .copy k => do let o ← lift (idx os k); let o' ← o.copy; pure (os ++ [o'])
  | .rowsAt k i => do let o ← lift (idx os k); let o' ← o.rowsAt i; pure (os ++ [o'])
  | .columnsAt k j => do let o ← lift (idx os k); let o' ← o.columnsAt j; pure (os ++ [o'])
  | .rowArray k i => do
    let o ← lift (idx os k)
    let l ← o.rowsAtToArray (T := T) i
    pure (os ++ [.dvec { l := l.len, values := l }])
  | .call k f => do let o ← lift (idx os k); let o' ← f.low o; pure (os.set k o')
  | .poke a i x => fun m => .ok os { m with num := Function.update m.num a ((m.num a).set i x) }

/-- One action when objects are independent values. -/
def Act.high (vs : List (Mat T)) : Act T → Out (List (Mat T))
  | .newCSR r c => .ok (vs ++ [.csr (CSR.new r c)])
  | .newCSC r c => .ok (vs ++ [.csc (CSC.new r c)])
  | .newDense r c => .ok (vs ++ [.dense (Dense.new r c)])
  | .newDVec l => .ok (vs ++ [.dvec (DVec.new l)])
  | .newSVec l => .ok (vs ++ [.svec (SVec.new l)])
  | .copy k => do let v ← idx vs k; let v' ← v.copy; .ok (vs ++ [v'])
  | .rowsAt k i => do let v ← idx vs k; let w ← v.rowsAt i; .ok (vs ++ [w.toMat])
  | .columnsAt k j => do let v ← idx vs k; let w ← v.columnsAt j; .ok (vs ++ [w.toMat])
  | .rowArray k i => do let v ← idx vs k; let l ← v.rowsAtToArray i; .ok (vs ++ [.dvec (DVec.fromArray l)])
  | .call k f => do let v ← idx vs k; let v' ← f.high v; .ok (vs.set k v')
  | .poke _ _ _ => .ok vs

/-- A program in memory. -/
def runLow (os : List LMat) : List (Act T) → H T (List LMat)
  | [] => pure os
  | a :: as => do let os' ← a.low os; runLow os' as

/-- A program on independent values. -/
def runHigh (vs : List (Mat T)) : List (Act T) → Out (List (Mat T))
  | [] => .ok vs
  | a :: as => do let vs' ← a.high vs; runHigh vs' as

end GB.Share
