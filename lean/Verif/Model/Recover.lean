import Verif.Model.Share

/-!
# `Update` with a function that may panic

The caller's update function may panic (an integer division by the old value, say). It is a partial
function here: `none` is a panic. The methods are those of `Model/Share.lean`, with the call of the
function at its place among the reads and writes.
-/

namespace GB.Share

variable {T : Type} [GoNum T]

/-- Call the caller's function. -/
def ask (f : T → Option T) (v : T) : H T T :=
  match f v with
  | some x => pure x
  | none => lift .panic

/-- csrMatrix.go:69-96 `Update`, `UpdateReturnPointer`. -/
def LCSR.updateTry (o : LCSR) (r c : Int) (f : T → Option T) : H T LCSR :=
  if inRange r o.r then
    if inRange c o.c then do
      let v ← o.view
      let (pStart, pEnd) ← lift (v.columnIndex r.toNat c.toNat)
      let found ← lift (v.hit pStart pEnd c.toNat)
      if found then do
        let old ← hIdx numF o.values pStart
        let value ← ask f old
        if isZero value then o.remove pStart r.toNat
        else do
          hSet numF o.values pStart value
          pure o
      else do
        let value ← ask f 0
        o.insert pStart r.toNat c.toNat value
    else lift .panic
  else lift .panic

/-- cscMatrix.go:75-104 `Update`, `UpdateReturnPointer`. -/
def LCSC.updateTry (o : LCSC) (r c : Int) (f : T → Option T) : H T LCSC :=
  if inRange r o.r then
    if inRange c o.c then do
      let v ← o.view
      let (pStart, pEnd) ← lift (v.rowIndex r.toNat c.toNat)
      let found ← lift (v.hit pStart pEnd r.toNat)
      if found then do
        let old ← hIdx numF o.values pStart
        let value ← ask f old
        if isZero value then o.remove pStart c.toNat
        else do
          hSet numF o.values pStart value
          pure o
      else do
        let value ← ask f 0
        o.insert pStart r.toNat c.toNat value
    else lift .panic
  else lift .panic

/-- denseMatrix.go:90-102 `Update`. -/
def LDense.updateTry (o : LDense) (r c : Int) (f : T → Option T) : H T LDense :=
  if inRange r o.r then
    if inRange c o.c then do
      let row ← hIdx rowF o.data r.toNat
      let v ← hIdx numF row c.toNat
      let value ← ask f v
      hSet numF row c.toNat value
      pure o
    else lift .panic
  else lift .panic

/-- denseVector.go:118-129 `Update`. -/
def LDVec.updateTry (o : LDVec) (r c : Int) (f : T → Option T) : H T LDVec :=
  if inRange r o.l then
    if inRange c 1 then do
      let v ← o.atVec r
      let value ← ask f v
      o.setVec r value
    else lift .panic
  else lift .panic

/-- sparseVector.go:102-113 `Update`. -/
def LSVec.updateTry (o : LSVec) (r c : Int) (f : T → Option T) : H T LSVec :=
  if inRange r o.l then
    if inRange c 1 then do
      let v ← o.atVec r
      let value ← ask f v
      o.setVec r value
    else lift .panic
  else lift .panic

/-- `Update` with a function that may panic. -/
def LMat.updateTry : LMat → Int → Int → (T → Option T) → H T LMat
  | csr o, r, c, f => do let o' ← o.updateTry r c f; pure (csr o')
  | csc o, r, c, f => do let o' ← o.updateTry r c f; pure (csc o')
  | dense o, r, c, f => do let o' ← o.updateTry r c f; pure (dense o')
  | dvec o, r, c, f => do let o' ← o.updateTry r c f; pure (dvec o')
  | svec o, r, c, f => do let o' ← o.updateTry r c f; pure (svec o')

end GB.Share
