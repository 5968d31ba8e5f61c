import Verif.Model.Basic

/-!
# Model of sparseVector.go
-/

namespace GB

variable {T : Type} [GoNum T]

/-- sparseVector.go:25-29 `SparseVector`. -/
structure SVec (T : Type) where
  l : Nat
  values : List T
  indices : List Nat
  deriving DecidableEq, Repr

namespace SVec

/-- sparseVector.go:48-50 `newSparseVector`. Negative lengths are not modelled. -/
def newL (l n : Nat) : SVec T := { l := l, values := List.replicate n 0, indices := List.replicate n 0 }

/-- sparseVector.go:32-34 `NewSparseVector`. -/
def new (l : Nat) : SVec T := newL l 0

/-- sparseVector.go:198-207, the binary search loop of `index`; returns the first component of
the result. The fuel `e - s` used by `index` is always enough. -/
def search (xs : List Nat) (i : Nat) : (fuel s e : Nat) → Out Nat
  | 0, s, e => if s < e then .hang else .ok s
  | fuel + 1, s, e =>
    if s < e then do
      let p := (s + e) / 2
      let x ← idx xs p
      if x > i then search xs i fuel s p
      else if x < i then search xs i fuel (p + 1) e
      else .ok p
    else .ok s

/-- sparseVector.go:189-210 `index` (the always-nil error is dropped). Note line 191: the
position `i` is compared with the number of stored entries. -/
def index (s : SVec T) (i : Nat) : Out (Nat × Nat) :=
  let length := s.indices.length
  if i > length then .ok (length, length)
  else do
    let p ← search s.indices i length 0 length
    .ok (p, length)

/-- sparseVector.go:175-182 `insert`. -/
def insert (s : SVec T) (pointer i : Nat) (value : T) : Out (SVec T) :=
  if isZero value then .ok s
  else do
    let ind ← splice s.indices pointer i
    let vals ← splice s.values pointer value
    .ok { s with indices := ind, values := vals }

/-- sparseVector.go:184-187 `remove`. -/
def remove (s : SVec T) (pointer : Nat) : Out (SVec T) := do
  let ind ← unsplice s.indices pointer
  let vals ← unsplice s.values pointer
  .ok { s with indices := ind, values := vals }

/-- sparseVector.go:58-70 `AtVec`. -/
def atVec (s : SVec T) (i : Int) : Out T :=
  if inRange i s.l then do
    let (pointer, length) ← s.index i.toNat
    if pointer < length then do
      let x ← idx s.indices pointer
      if x = i.toNat then idx s.values pointer else .ok 0
    else .ok 0
  else .panic

/-- sparseVector.go:73-89 `SetVec`. -/
def setVec (s : SVec T) (i : Int) (value : T) : Out (SVec T) :=
  if inRange i s.l then do
    let (pointer, length) ← s.index i.toNat
    if pointer < length then do
      let x ← idx s.indices pointer
      if x = i.toNat then
        if isZero value then s.remove pointer
        else do
          let vals ← setIdx s.values pointer value
          .ok { s with values := vals }
      else s.insert pointer i.toNat value
    else s.insert pointer i.toNat value
  else .panic

/-- sparseVector.go:102-113 `Update`. The callback may also deliver a captured result of type
`β` (as the closures in `At` do). -/
def updateWith {β : Type} (s : SVec T) (r c : Int) (f : T → β × T) : Out (β × SVec T) :=
  if inRange r s.l then
    if inRange c 1 then do
      let v ← s.atVec r
      let s' ← s.setVec r (f v).2
      .ok ((f v).1, s')
    else .panic
  else .panic

/-- sparseVector.go:102-113 `Update`. -/
def update (s : SVec T) (r c : Int) (f : T → T) : Out (SVec T) := do
  let (_, s') ← s.updateWith r c (fun v => ((), f v))
  .ok s'

/-- sparseVector.go:116-123 `At`: an `Update` with the identity that captures the value. -/
def at' (s : SVec T) (r c : Int) : Out (T × SVec T) := s.updateWith r c (fun v => (v, v))

/-- sparseVector.go:126-136 `Set`. -/
def set (s : SVec T) (r c : Int) (value : T) : Out (SVec T) :=
  if inRange r s.l then
    if inRange c 1 then s.setVec r value else .panic
  else .panic

/-- sparseVector.go:37-46 `NewSparseVectorFromArray`. -/
def fromArray (data : List T) : Out (SVec T) :=
  loop data.length 0 (fun i s => do let v ← idx data i; s.setVec i v) (new data.length)

/-- sparseVector.go:212-221 `copy` (also 224-230 `Copy`, `CopyLogical`). -/
def copy (s : SVec T) : Out (SVec T) :=
  loop s.values.length 0
    (fun i v => do
      let x ← idx s.values i
      let vals ← setIdx v.values i x
      let y ← idx s.indices i
      let ind ← setIdx v.indices i y
      .ok { v with values := vals, indices := ind })
    (newL s.l s.indices.length)

/-- sparseVector.go:139-145 `ColumnsAt`. -/
def columnsAt (s : SVec T) (c : Int) : Out (SVec T) := if inRange c 1 then s.copy else .panic

/-- sparseVector.go:148-159 `RowsAt`. -/
def rowsAt (s : SVec T) (r : Int) : Out (SVec T) :=
  if inRange r s.l then do
    let v ← s.atVec r
    (new 1).setVec 0 v
  else .panic

/-- sparseVector.go:162-173 `RowsAtToArray`. -/
def rowsAtToArray (s : SVec T) (r : Int) : Out (List T) :=
  if inRange r s.l then do
    let v ← s.atVec r
    .ok [v]
  else .panic

/-- sparseVector.go:293-297 `Clear`. -/
def clear (s : SVec T) : SVec T := { s with values := [], indices := [] }

/-- sparseVector.go:369-371 `Element` (`c` is ignored). -/
def element (s : SVec T) (r _c : Int) : Out Bool := do
  let v ← s.atVec r
  .ok (GoNum.glt 0 v)

/-- sparseVector.go:313-318 `sparseVectorIterator` (without the matrix pointer). -/
structure Iter where
  size : Nat
  last : Nat
  old : Nat
  deriving DecidableEq, Repr

/-- sparseVector.go:304-311 `iterator`. -/
def iter (s : SVec T) : Iter := { size := s.values.length, last := 0, old := 0 }

/-- sparseVector.go:321-326 `HasNext`. -/
def Iter.hasNext (it : Iter) : Bool := decide (it.last < it.size)

/-- sparseVector.go:328-331 `next`. -/
def Iter.next (it : Iter) : Iter := { it with old := it.last, last := it.last + 1 }

/-- sparseVector.go:334-338 `Next`, and the first half of `Map` (358-360): advance and read. -/
def step (s : SVec T) (it : Iter) : Out (Iter × Nat × Nat × T) := do
  let it := it.next
  let i ← idx s.indices it.old
  let v ← idx s.values it.old
  .ok (it, i, 0, v)

/-- sparseVector.go:361-365, the second half of `Map`: store the callback's result, or remove
the entry when it is zero. -/
def put (s : SVec T) (it : Iter) (value : T) : Out (SVec T) :=
  if !isZero value then do
    let vals ← setIdx s.values it.old value
    .ok { s with values := vals }
  else s.remove it.old

end SVec
end GB
