import Verif.Model.SVec

/-!
# Model of cscMatrix.go
-/

namespace GB

variable {T : Type} [GoNum T]

/-- cscMatrix.go:22-28 `CSCMatrix`. Same conventions as `CSR`. -/
structure CSC (T : Type) where
  r : Nat
  c : Nat
  values : List T
  rows : List Nat
  colStart : List Nat
  deriving DecidableEq, Repr

namespace CSC

/-- cscMatrix.go:50-62 `newCSCMatrix`. -/
def newL (r c l : Nat) : CSC T :=
  { r := r, c := c, values := List.replicate l 0, rows := List.replicate l 0,
    colStart := List.replicate (c + 1) 0 }

/-- cscMatrix.go:31-33 `NewCSCMatrix`. -/
def new (r c : Nat) : CSC T := newL r c 0

/-- cscMatrix.go:220-231, the binary search loop of `rowIndex`. -/
def search (rows : List Nat) (r : Nat) : (fuel s e : Nat) → Out (Nat × Nat)
  | 0, s, e => if s < e then .hang else .ok (s, e)
  | fuel + 1, s, e =>
    if s < e then do
      let p := (s + e) / 2
      let x ← idx rows p
      if x > r then search rows r fuel s p
      else if x < r then search rows r fuel (p + 1) e
      else .ok (p, e)
    else .ok (s, e)

/-- cscMatrix.go:207-232 `rowIndex`. -/
def rowIndex (s : CSC T) (r c : Nat) : Out (Nat × Nat) := do
  let start ← idx s.colStart c
  let stop ← idx s.colStart (c + 1)
  if start = stop then .ok (start, stop)
  else do
    let last ← idxPred s.rows stop
    if r > last then .ok (stop, stop)
    else search s.rows r (stop - start) start stop

/-- The test `pointerStart < pointerEnd && s.rows[pointerStart] == r` (cscMatrix.go:90, 157 and
175). -/
def hit (s : CSC T) (pStart pEnd r : Nat) : Out Bool :=
  if pStart < pEnd then do
    let x ← idx s.rows pStart
    .ok (decide (x = r))
  else .ok false

/-- cscMatrix.go:191-193 and 202-204: `for i := c + 1; i <= s.c; i++ { colStart[i]±± }`. -/
def bump (f : Nat → Nat) (colStart : List Nat) (c sc : Nat) : Out (List Nat) :=
  loop (sc - c) (c + 1) (fun i l => do let x ← idx l i; setIdx l i (f x)) colStart

/-- cscMatrix.go:183-196 `insert`. -/
def insert (s : CSC T) (pointer r c : Nat) (value : T) : Out (CSC T × Nat) :=
  if isZero value then .ok (s, 0)
  else do
    let rows ← splice s.rows pointer r
    let values ← splice s.values pointer value
    let colStart ← bump (· + 1) s.colStart c s.c
    .ok ({ s with rows := rows, values := values, colStart := colStart }, s.c)

/-- cscMatrix.go:198-205 `remove`. -/
def remove (s : CSC T) (pointer c : Nat) : Out (CSC T) := do
  let rows ← unsplice s.rows pointer
  let values ← unsplice s.values pointer
  let colStart ← bump (· - 1) s.colStart c s.c
  .ok { s with rows := rows, values := values, colStart := colStart }

/-- cscMatrix.go:79-104 `UpdateReturnPointer`. -/
def updateRP {β : Type} (s : CSC T) (r c : Int) (f : T → β × T) : Out (β × CSC T × Nat × Nat) :=
  if inRange r s.r then
    if inRange c s.c then do
      let (pStart, pEnd) ← s.rowIndex r.toNat c.toNat
      let found ← s.hit pStart pEnd r.toNat
      if found then do
        let old ← idx s.values pStart
        let value := (f old).2
        if isZero value then do
          let s' ← s.remove pStart c.toNat
          .ok ((f old).1, s', pStart, 0)
        else do
          let values ← setIdx s.values pStart value
          .ok ((f old).1, { s with values := values }, pStart, 0)
      else do
        let (s', col) ← s.insert pStart r.toNat c.toNat (f 0).2
        .ok ((f 0).1, s', pStart, col)
    else .panic
  else .panic

/-- cscMatrix.go:75-77 `Update`, with a callback that may deliver a captured result. -/
def updateWith {β : Type} (s : CSC T) (r c : Int) (f : T → β × T) : Out (β × CSC T) := do
  let (b, s', _, _) ← s.updateRP r c f
  .ok (b, s')

/-- cscMatrix.go:75-77 `Update`. -/
def update (s : CSC T) (r c : Int) (f : T → T) : Out (CSC T) := do
  let (_, s') ← s.updateWith r c (fun v => ((), f v))
  .ok s'

/-- cscMatrix.go:107-114 `At`. -/
def at' (s : CSC T) (r c : Int) : Out (T × CSC T) := s.updateWith r c (fun v => (v, v))

/-- cscMatrix.go:117-121 `Set`. -/
def set (s : CSC T) (r c : Int) (value : T) : Out (CSC T) := s.update r c (fun _ => value)

/-- cscMatrix.go:123-127 `SetReturnPointer`. -/
def setRP (s : CSC T) (r c : Int) (value : T) : Out (CSC T × Nat × Nat) := do
  let (_, res) ← s.updateRP r c (fun _ => ((), value))
  .ok res

/-- cscMatrix.go:414-421 `Element`. -/
def element (s : CSC T) (r c : Int) : Out (Bool × CSC T) :=
  s.updateWith r c (fun v => (GoNum.glt 0 v, v))

/-- cscMatrix.go:36-48 `NewCSCMatrixFromArray`. -/
def fromArray (data : List (List T)) : Out (CSC T) := do
  let r := data.length
  let row0 ← idx data 0
  let c := row0.length
  loop r 0 (fun i s =>
    loop c 0 (fun k s => do
      let row ← idx data i
      let v ← idx row k
      s.set i k v) s) (new r c)

/-- cscMatrix.go:130-145 `ColumnsAt`. -/
def columnsAt (s : CSC T) (c : Int) : Out (SVec T) :=
  if inRange c s.c then do
    let start ← idx s.colStart c.toNat
    let stop ← idx s.colStart (c.toNat + 1)
    loop (stop - start) start (fun i columns => do
      let r ← idx s.rows i
      let v ← idx s.values i
      columns.setVec r v) (SVec.new s.r)
  else .panic

/-- cscMatrix.go:148-163 `RowsAt`. -/
def rowsAt (s : CSC T) (r : Int) : Out (SVec T) :=
  if inRange r s.r then
    loop s.c 0 (fun c rows => do
      let (pStart, pEnd) ← s.rowIndex r.toNat c
      let found ← s.hit pStart pEnd r.toNat
      if found then do
        let v ← idx s.values pStart
        rows.setVec c v
      else .ok rows) (SVec.new s.c)
  else .panic

/-- cscMatrix.go:166-181 `RowsAtToArray`. -/
def rowsAtToArray (s : CSC T) (r : Int) : Out (List T) :=
  if inRange r s.r then
    loop s.c 0 (fun c rows => do
      let (pStart, pEnd) ← s.rowIndex r.toNat c
      let found ← s.hit pStart pEnd r.toNat
      if found then do
        let v ← idx s.values pStart
        setIdx rows c v
      else .ok rows) (List.replicate s.c 0)
  else .panic

/-- cscMatrix.go:239-252 `Copy` (and 235-237 `CopyLogical`). -/
def copy (s : CSC T) : Out (CSC T) := do
  let m ← loop s.values.length 0 (fun i m => do
      let x ← idx s.values i
      let vals ← setIdx m.values i x
      let y ← idx s.rows i
      let rows ← setIdx m.rows i y
      .ok { m with values := vals, rows := rows }) (newL s.r s.c s.values.length)
  loop s.colStart.length 0 (fun i m => do
      let x ← idx s.colStart i
      let cs ← setIdx m.colStart i x
      .ok { m with colStart := cs }) m

/-- cscMatrix.go:318-322 `Clear`. -/
def clear (s : CSC T) : CSC T :=
  { s with values := [], rows := [], colStart := List.replicate (s.c + 1) 0 }

/-- cscMatrix.go:338-348 `cSCMatrixIterator` (without the matrix pointer). -/
structure Iter where
  size : Nat
  last : Nat
  c : Int
  r : Nat
  rIndex : Nat
  index : Nat
  pointerStart : Nat
  pointerEnd : Nat
  deriving DecidableEq, Repr

/-- cscMatrix.go:329-336 `iterator`. -/
def iter (s : CSC T) : Iter :=
  { size := s.values.length, last := 0, c := -1, r := 0, rIndex := 0, index := 0,
    pointerStart := 0, pointerEnd := 0 }

/-- cscMatrix.go:351-356 `HasNext`. -/
def Iter.hasNext (it : Iter) : Bool := decide (it.last < it.size)

/-- cscMatrix.go:360-365, first loop of `next`. -/
def skip (s : CSC T) : (fuel : Nat) → Iter → Out Iter
  | 0, _ => .hang
  | fuel + 1, it =>
    if it.pointerStart = it.pointerEnd then do
      let c := it.c + 1
      let ps ← idxI s.colStart c
      let pe ← idxI s.colStart (c + 1)
      let ri ← idx s.rows ps
      skip s fuel { it with c := c, pointerStart := ps, pointerEnd := pe, rIndex := ri }
    else .ok it

/-- cscMatrix.go:367-377, second loop of `next`. -/
def walk (s : CSC T) : (fuel : Nat) → Iter → Out Iter
  | 0, _ => .hang
  | fuel + 1, it =>
    if it.pointerStart < it.pointerEnd then do
      let x ← idx s.rows it.pointerStart
      if x = it.rIndex then
        .ok { it with index := it.pointerStart, pointerStart := it.pointerStart + 1,
                      r := it.rIndex, rIndex := it.rIndex + 1, last := it.last + 1 }
      else walk s fuel { it with rIndex := it.rIndex + 1 }
    else .ok it

/-- cscMatrix.go:358-378 `next`. -/
def next (s : CSC T) (it : Iter) : Out Iter := do
  let it ← skip s (s.colStart.length + 1) it
  walk s (s.rows.getD it.pointerStart 0 + 1 - it.rIndex + 1) it

/-- cscMatrix.go:381-384 `Next`, and the first half of `Map` (404-405). -/
def step (s : CSC T) (it : Iter) : Out (Iter × Nat × Nat × T) := do
  let it ← s.next it
  let v ← idx s.values it.index
  .ok (it, it.r, it.c.toNat, v)

/-- cscMatrix.go:406-410, the second half of `Map`. -/
def put (s : CSC T) (it : Iter) (value : T) : Out (CSC T) :=
  if !isZero value then do
    let vals ← setIdx s.values it.index value
    .ok { s with values := vals }
  else s.remove it.index it.c.toNat

end CSC
end GB
