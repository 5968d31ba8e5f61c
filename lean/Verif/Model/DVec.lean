import Verif.Model.Basic

/-!
# Model of denseVector.go
-/

namespace GB

variable {T : Type} [GoNum T]

/-- denseVector.go:16-23 `DenseVector` and `DenseVectorNumber` (the latter only embeds the
former; both are this structure). -/
structure DVec (T : Type) where
  l : Nat
  values : List T
  deriving DecidableEq, Repr

namespace DVec

/-- denseVector.go:48-62 `newDenseVector` and its callers. -/
def new (l : Nat) : DVec T := { l := l, values := List.replicate l 0 }

/-- denseVector.go:31-46 `NewDenseVectorFromArray(N)`. The sharing of the caller's slice is the
subject of the separate model in `Model/Share.lean`. -/
def fromArray (data : List T) : DVec T := { (new data.length : DVec T) with values := data }

/-- denseVector.go:65-71 `AtVec`. -/
def atVec (s : DVec T) (i : Int) : Out T := if inRange i s.l then idx s.values i.toNat else .panic

/-- denseVector.go:74-80 `SetVec`. -/
def setVec (s : DVec T) (i : Int) (value : T) : Out (DVec T) :=
  if inRange i s.l then do
    let vals ← setIdx s.values i.toNat value
    .ok { s with values := vals }
  else .panic

/-- denseVector.go:88-100 `ReSize` for a non-negative size. (`append` may or may not reuse the
backing array; only the resulting contents are modelled.) Line 95 slices `[:length]` with
`length = s.l - size`. -/
def reSize (s : DVec T) (size : Nat) : Out (DVec T × Nat) :=
  if size > s.l then
    let length := size - s.l
    let values := s.values ++ List.replicate length 0
    .ok ({ l := values.length, values := values }, values.length)
  else if size < s.l then
    let length := s.l - size
    if length ≤ s.values.length then
      let values := s.values.take length
      .ok ({ l := values.length, values := values }, values.length)
    else .panic
  else .ok ({ l := s.values.length, values := s.values }, s.values.length)

/-- denseVector.go:118-129 `Update`, with a captured result. -/
def updateWith {β : Type} (s : DVec T) (r c : Int) (f : T → β × T) : Out (β × DVec T) :=
  if inRange r s.l then
    if inRange c 1 then do
      let v ← s.atVec r
      let s' ← s.setVec r (f v).2
      .ok ((f v).1, s')
    else .panic
  else .panic

/-- denseVector.go:118-129 `Update`. -/
def update (s : DVec T) (r c : Int) (f : T → T) : Out (DVec T) := do
  let (_, s') ← s.updateWith r c (fun v => ((), f v))
  .ok s'

/-- denseVector.go:132-134 `At` (the column is ignored). -/
def at' (s : DVec T) (r _c : Int) : Out T := s.atVec r

/-- denseVector.go:137-147 `Set`. -/
def set (s : DVec T) (r c : Int) (value : T) : Out (DVec T) :=
  if inRange r s.l then
    if inRange c 1 then s.setVec r value else .panic
  else .panic

/-- denseVector.go:186-217 `copy`, `Copy`, `CopyLogical` (both branches of the zero test store the
same value). -/
def copy (s : DVec T) : Out (DVec T) :=
  loop s.values.length 0 (fun i v => do
    let x ← idx s.values i
    v.setVec i x) (new s.l)

/-- denseVector.go:150-156 `ColumnsAt`. -/
def columnsAt (s : DVec T) (c : Int) : Out (DVec T) := if inRange c 1 then s.copy else .panic

/-- denseVector.go:159-170 `RowsAt`. -/
def rowsAt (s : DVec T) (r : Int) : Out (DVec T) :=
  if inRange r s.l then do
    let v ← s.atVec r
    (new 1).setVec 0 v
  else .panic

/-- denseVector.go:173-184 `RowsAtToArray`. -/
def rowsAtToArray (s : DVec T) (r : Int) : Out (List T) :=
  if inRange r s.l then do
    let v ← s.atVec r
    .ok [v]
  else .panic

/-- denseVector.go:275-277 `Clear`. -/
def clear (s : DVec T) : DVec T := { s with values := List.replicate s.l 0 }

/-- denseVector.go:353-355 `Element` (the column is ignored). -/
def element (s : DVec T) (r _c : Int) : Out Bool := do
  let v ← s.atVec r
  .ok (GoNum.glt 0 v)

/-- denseVector.go:295-302 `denseVectorIterator` (without the matrix pointer). -/
structure Iter where
  size : Nat
  last : Nat
  c : Nat
  r : Nat
  rOld : Nat
  deriving DecidableEq, Repr

/-- denseVector.go:284-293 `iterator`. -/
def iter (s : DVec T) : Iter := { size := s.l, last := 0, c := 0, r := 0, rOld := 0 }

/-- denseVector.go:305-310 `HasNext`. -/
def Iter.hasNext (it : Iter) : Bool := decide (it.last < it.size)

/-- denseVector.go:312-320 `next`. -/
def next (s : DVec T) (it : Iter) : Iter :=
  let it := if it.r = s.l then { it with r := 0, c := it.c + 1 } else it
  { it with rOld := it.r, r := it.r + 1, last := it.last + 1 }

/-- denseVector.go:323-327 `Next`, and the first half of `Map` (347-349). -/
def step (s : DVec T) (it : Iter) : Out (Iter × Nat × Nat × T) := do
  let it := s.next it
  let v ← s.atVec it.rOld
  .ok (it, it.rOld, 0, v)

/-- denseVector.go:349, the second half of `Map`. -/
def put (s : DVec T) (it : Iter) (value : T) : Out (DVec T) := s.setVec it.rOld value

end DVec
end GB
