import Verif.Model.SVec

/-!
# Model of csrMatrix.go
-/

namespace GB

variable {T : Type} [GoNum T]

/-- csrMatrix.go:21-27 `CSRMatrix`. Dimensions are natural numbers (negative dimensions are not
modelled); column indices and row pointers are natural numbers: `rowStart[i]--` would differ from
Go only at 0, which `CSR.Rep` rules out for every reachable state. -/
structure CSR (T : Type) where
  r : Nat
  c : Nat
  values : List T
  cols : List Nat
  rowStart : List Nat
  deriving DecidableEq, Repr

namespace CSR

/-- csrMatrix.go:47-56 `newCSRMatrix`. -/
def newL (r c l : Nat) : CSR T :=
  { r := r, c := c, values := List.replicate l 0, cols := List.replicate l 0,
    rowStart := List.replicate (r + 1) 0 }

/-- csrMatrix.go:30-32 `NewCSRMatrix`. -/
def new (r c : Nat) : CSR T := newL r c 0

/-- csrMatrix.go:213-224, the binary search loop of `columnIndex`. -/
def search (cols : List Nat) (c : Nat) : (fuel s e : Nat) → Out (Nat × Nat)
  | 0, s, e => if s < e then .hang else .ok (s, e)
  | fuel + 1, s, e =>
    if s < e then do
      let p := (s + e) / 2
      let x ← idx cols p
      if x > c then search cols c fuel s p
      else if x < c then search cols c fuel (p + 1) e
      else .ok (p, e)
    else .ok (s, e)

/-- csrMatrix.go:200-225 `columnIndex`. The fuel `stop - start` is always enough for the loop. -/
def columnIndex (s : CSR T) (r c : Nat) : Out (Nat × Nat) := do
  let start ← idx s.rowStart r
  let stop ← idx s.rowStart (r + 1)
  if start = stop then .ok (start, stop)
  else do
    let last ← idxPred s.cols stop
    if c > last then .ok (stop, stop)
    else search s.cols c (stop - start) start stop

/-- The test `pointerStart < pointerEnd && s.cols[pointerStart] == c` (csrMatrix.go:84 and 131). -/
def hit (s : CSR T) (pStart pEnd c : Nat) : Out Bool :=
  if pStart < pEnd then do
    let x ← idx s.cols pStart
    .ok (decide (x = c))
  else .ok false

/-- csrMatrix.go:184-186 and 195-197: `for i := r + 1; i <= s.r; i++ { rowStart[i]±± }`. -/
def bump (f : Nat → Nat) (rowStart : List Nat) (r sr : Nat) : Out (List Nat) :=
  loop (sr - r) (r + 1) (fun i l => do let x ← idx l i; setIdx l i (f x)) rowStart

/-- csrMatrix.go:176-189 `insert`; also returns the Go result (0 or `s.r`). -/
def insert (s : CSR T) (pointer r c : Nat) (value : T) : Out (CSR T × Nat) :=
  if isZero value then .ok (s, 0)
  else do
    let cols ← splice s.cols pointer c
    let values ← splice s.values pointer value
    let rowStart ← bump (· + 1) s.rowStart r s.r
    .ok ({ s with cols := cols, values := values, rowStart := rowStart }, s.r)

/-- csrMatrix.go:191-198 `remove`. -/
def remove (s : CSR T) (pointer r : Nat) : Out (CSR T) := do
  let cols ← unsplice s.cols pointer
  let values ← unsplice s.values pointer
  let rowStart ← bump (· - 1) s.rowStart r s.r
  .ok { s with cols := cols, values := values, rowStart := rowStart }

/-- csrMatrix.go:73-96 `UpdateReturnPointer`. The callback may also deliver a captured result
(closures in `At` and `Element`). Returns the captured result, the new matrix and the two Go
results. -/
def updateRP {β : Type} (s : CSR T) (r c : Int) (f : T → β × T) : Out (β × CSR T × Nat × Nat) :=
  if inRange r s.r then
    if inRange c s.c then do
      let (pStart, pEnd) ← s.columnIndex r.toNat c.toNat
      let found ← s.hit pStart pEnd c.toNat
      if found then do
        let old ← idx s.values pStart
        let value := (f old).2
        if isZero value then do
          let s' ← s.remove pStart r.toNat
          .ok ((f old).1, s', pStart, 0)
        else do
          let values ← setIdx s.values pStart value
          .ok ((f old).1, { s with values := values }, pStart, 0)
      else do
        let (s', row) ← s.insert pStart r.toNat c.toNat (f 0).2
        .ok ((f 0).1, s', pStart, row)
    else .panic
  else .panic

/-- csrMatrix.go:69-71 `Update`, with a callback that may deliver a captured result. -/
def updateWith {β : Type} (s : CSR T) (r c : Int) (f : T → β × T) : Out (β × CSR T) := do
  let (b, s', _, _) ← s.updateRP r c f
  .ok (b, s')

/-- csrMatrix.go:69-71 `Update`. -/
def update (s : CSR T) (r c : Int) (f : T → T) : Out (CSR T) := do
  let (_, s') ← s.updateWith r c (fun v => ((), f v))
  .ok s'

/-- csrMatrix.go:99-106 `At`. -/
def at' (s : CSR T) (r c : Int) : Out (T × CSR T) := s.updateWith r c (fun v => (v, v))

/-- csrMatrix.go:109-113 `Set`. -/
def set (s : CSR T) (r c : Int) (value : T) : Out (CSR T) := s.update r c (fun _ => value)

/-- csrMatrix.go:115-119 `SetReturnPointer`. -/
def setRP (s : CSR T) (r c : Int) (value : T) : Out (CSR T × Nat × Nat) := do
  let (_, res) ← s.updateRP r c (fun _ => ((), value))
  .ok res

/-- csrMatrix.go:404-411 `Element`. -/
def element (s : CSR T) (r c : Int) : Out (Bool × CSR T) :=
  s.updateWith r c (fun v => (GoNum.glt 0 v, v))

/-- csrMatrix.go:35-45 `NewCSRMatrixFromArray`. -/
def fromArray (data : List (List T)) : Out (CSR T) := do
  let r := data.length
  let row0 ← idx data 0
  let c := row0.length
  loop r 0 (fun i s =>
    loop c 0 (fun k s => do
      let row ← idx data i
      let v ← idx row k
      s.set i k v) s) (new r c)

/-- csrMatrix.go:122-138 `ColumnsAt`. -/
def columnsAt (s : CSR T) (c : Int) : Out (SVec T) :=
  if inRange c s.c then
    loop s.r 0 (fun r columns => do
      let (pStart, pEnd) ← s.columnIndex r c.toNat
      let found ← s.hit pStart pEnd c.toNat
      if found then do
        let v ← idx s.values pStart
        columns.setVec r v
      else .ok columns) (SVec.new s.r)
  else .panic

/-- csrMatrix.go:141-156 `RowsAt`. -/
def rowsAt (s : CSR T) (r : Int) : Out (SVec T) :=
  if inRange r s.r then do
    let start ← idx s.rowStart r.toNat
    let stop ← idx s.rowStart (r.toNat + 1)
    loop (stop - start) start (fun i rows => do
      let c ← idx s.cols i
      let v ← idx s.values i
      rows.setVec c v) (SVec.new s.c)
  else .panic

/-- csrMatrix.go:159-174 `RowsAtToArray`. -/
def rowsAtToArray (s : CSR T) (r : Int) : Out (List T) :=
  if inRange r s.r then do
    let start ← idx s.rowStart r.toNat
    let stop ← idx s.rowStart (r.toNat + 1)
    loop (stop - start) start (fun i rows => do
      let c ← idx s.cols i
      let v ← idx s.values i
      setIdx rows c v) (List.replicate s.c 0)
  else .panic

/-- csrMatrix.go:232-245 `Copy` (and 228-230 `CopyLogical`). -/
def copy (s : CSR T) : Out (CSR T) := do
  let m ← loop s.values.length 0 (fun i m => do
      let x ← idx s.values i
      let vals ← setIdx m.values i x
      let y ← idx s.cols i
      let cols ← setIdx m.cols i y
      .ok { m with values := vals, cols := cols }) (newL s.r s.c s.values.length)
  loop s.rowStart.length 0 (fun i m => do
      let x ← idx s.rowStart i
      let rs ← setIdx m.rowStart i x
      .ok { m with rowStart := rs }) m

/-- csrMatrix.go:308-312 `Clear`. -/
def clear (s : CSR T) : CSR T :=
  { s with values := [], cols := [], rowStart := List.replicate (s.r + 1) 0 }

/-- csrMatrix.go:319-329 `cSRMatrixIterator` (without the matrix pointer). -/
structure Iter where
  size : Nat
  last : Nat
  c : Nat
  r : Int
  cIndex : Nat
  index : Nat
  pointerStart : Nat
  pointerEnd : Nat
  deriving DecidableEq, Repr

/-- csrMatrix.go:331-338 `iterator`. -/
def iter (s : CSR T) : Iter :=
  { size := s.values.length, last := 0, c := 0, r := -1, cIndex := 0, index := 0,
    pointerStart := 0, pointerEnd := 0 }

/-- csrMatrix.go:363-368 `HasNext`. -/
def Iter.hasNext (it : Iter) : Bool := decide (it.last < it.size)

/-- csrMatrix.go:342-347, first loop of `next`: move to the next non-empty row. Each turn
increments `r` and reads `rowStart[r+1]`, so `len(rowStart)+1` turns always end in an answer or a
panic. -/
def skip (s : CSR T) : (fuel : Nat) → Iter → Out Iter
  | 0, _ => .hang
  | fuel + 1, it =>
    if it.pointerStart = it.pointerEnd then do
      let r := it.r + 1
      let ps ← idxI s.rowStart r
      let pe ← idxI s.rowStart (r + 1)
      let ci ← idx s.cols ps
      skip s fuel { it with r := r, pointerStart := ps, pointerEnd := pe, cIndex := ci }
    else .ok it

/-- csrMatrix.go:349-359, second loop of `next`: advance `cIndex` to the stored column. When the
stored column is below `cIndex` the Go loop counts upwards for ever (up to integer wrap-around):
`hang`. -/
def walk (s : CSR T) : (fuel : Nat) → Iter → Out Iter
  | 0, _ => .hang
  | fuel + 1, it =>
    if it.pointerStart < it.pointerEnd then do
      let x ← idx s.cols it.pointerStart
      if x = it.cIndex then
        .ok { it with index := it.pointerStart, pointerStart := it.pointerStart + 1,
                      c := it.cIndex, cIndex := it.cIndex + 1, last := it.last + 1 }
      else walk s fuel { it with cIndex := it.cIndex + 1 }
    else .ok it

/-- csrMatrix.go:340-360 `next`. -/
def next (s : CSR T) (it : Iter) : Out Iter := do
  let it ← skip s (s.rowStart.length + 1) it
  walk s (s.cols.getD it.pointerStart 0 + 1 - it.cIndex + 1) it

/-- csrMatrix.go:371-374 `Next`, and the first half of `Map` (394-395): advance and read. The row
is never negative here. -/
def step (s : CSR T) (it : Iter) : Out (Iter × Nat × Nat × T) := do
  let it ← s.next it
  let v ← idx s.values it.index
  .ok (it, it.r.toNat, it.c, v)

/-- csrMatrix.go:396-400, the second half of `Map`: store the callback's result, or remove the
entry when it is zero. -/
def put (s : CSR T) (it : Iter) (value : T) : Out (CSR T) :=
  if !isZero value then do
    let vals ← setIdx s.values it.index value
    .ok { s with values := vals }
  else s.remove it.index it.r.toNat

end CSR
end GB
