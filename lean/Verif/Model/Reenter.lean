import Verif.Model.CSR
import Verif.Model.CSC
import Verif.Model.Dense

/-!
# Model of `Update` with functions that use the matrix they are called for

In the other model files the function given to `Update` is a function of the old value. Here it may do anything with the
matrix meanwhile: read it, write it, call `Update` again, panic, or never return. It is given by what it answers and the
matrix it leaves, for the old value and the matrix it finds.
-/

namespace GB

variable {T : Type} [GoNum T]

/-- A function given to `Update`: for the old value and the matrix as it is when called, how it ends (with a value, in a
panic, or not at all) and the matrix it leaves. -/
abbrev Fn (S T : Type) := T → S → Out T × S

/-- `v := ...; x := f(v); write x`: the value `v` read from `s`, then the function, then the statement that writes, which
finds what the function left. A panic while reading or writing changes nothing: in csrMatrix.go:181 and 192 (and
cscMatrix.go:188 and 199) it is the first statement that panics, since both arrays have the same length. -/
def callback {S : Type} (v : Out T) (f : Fn S T) (write : T → S → Out S) (s : S) : Out Unit × S :=
  match v with
  | .panic => (.panic, s)
  | .hang => (.hang, s)
  | .ok v =>
    match f v s with
    | (.panic, t) => (.panic, t)
    | (.hang, t) => (.hang, t)
    | (.ok x, t) =>
      match write x t with
      | .ok u => (.ok (), u)
      | .panic => (.panic, t)
      | .hang => (.hang, t)

namespace CSR

/-- csrMatrix.go:82-85: where the cell is or would be, and its value if it is stored. -/
def look (s : CSR T) (r c : Nat) : Out (Nat × Option T) := do
  let (pStart, pEnd) ← s.columnIndex r c
  let found ← s.hit pStart pEnd c
  if found then do
    let old ← idx s.values pStart
    .ok (pStart, some old)
  else .ok (pStart, none)

/-- csrMatrix.go:86-94: what is done with the answer `x` at the position found before. -/
def finish (s : CSR T) (r c p : Nat) (stored : Bool) (x : T) : Out (CSR T) :=
  if stored then
    if isZero x then s.remove p r
    else do
      let values ← setIdx s.values p x
      .ok { s with values := values }
  else do
    let (s', _) ← s.insert p r c x
    .ok s'

/-- csrMatrix.go:69-96 `Update`. The position is looked up before the function is called, and used after it. (Row
pointers are natural numbers here; `rowStart[i]--` of `remove` could make a negative one in Go after a function that
removed entries. No theorem speaks of that outcome.) -/
def updateBy (s : CSR T) (r c : Int) (f : Fn (CSR T) T) : Out Unit × CSR T :=
  if inRange r s.r then
    if inRange c s.c then
      match s.look r.toNat c.toNat with
      | .ok (p, v) => callback (.ok (v.getD 0)) f (fun x t => t.finish r.toNat c.toNat p v.isSome x) s
      | .panic => (.panic, s)
      | .hang => (.hang, s)
    else (.panic, s)
  else (.panic, s)

end CSR

namespace CSC

/-- cscMatrix.go:88-91: where the cell is or would be, and its value if it is stored. -/
def look (s : CSC T) (r c : Nat) : Out (Nat × Option T) := do
  let (pStart, pEnd) ← s.rowIndex r c
  let found ← s.hit pStart pEnd r
  if found then do
    let old ← idx s.values pStart
    .ok (pStart, some old)
  else .ok (pStart, none)

/-- cscMatrix.go:92-102: what is done with the answer `x` at the position found before. -/
def finish (s : CSC T) (r c p : Nat) (stored : Bool) (x : T) : Out (CSC T) :=
  if stored then
    if isZero x then s.remove p c
    else do
      let values ← setIdx s.values p x
      .ok { s with values := values }
  else do
    let (s', _) ← s.insert p r c x
    .ok s'

/-- cscMatrix.go:75-104 `Update`. -/
def updateBy (s : CSC T) (r c : Int) (f : Fn (CSC T) T) : Out Unit × CSC T :=
  if inRange r s.r then
    if inRange c s.c then
      match s.look r.toNat c.toNat with
      | .ok (p, v) => callback (.ok (v.getD 0)) f (fun x t => t.finish r.toNat c.toNat p v.isSome x) s
      | .panic => (.panic, s)
      | .hang => (.hang, s)
    else (.panic, s)
  else (.panic, s)

end CSC

/-- denseMatrix.go:90-102 `Update`: `s.data[r][c] = f(s.data[r][c])`. The rows on the left are those after the call of the
function; Go leaves open whether `s.data` on the left is read before it, which matters only for a function that calls
`Clear`. -/
def Dense.updateBy (s : Dense T) (r c : Int) (f : Fn (Dense T) T) : Out Unit × Dense T :=
  if inRange r s.r then
    if inRange c s.c then
      callback (do let row ← idx s.data r.toNat; idx row c.toNat) f (fun x t => do
        let row ← idx t.data r.toNat
        let row' ← setIdx row c.toNat x
        let data' ← setIdx t.data r.toNat row'
        .ok { t with data := data' }) s
    else (.panic, s)
  else (.panic, s)

/-- denseVector.go:118-129 `Update`. -/
def DVec.updateBy (s : DVec T) (r c : Int) (f : Fn (DVec T) T) : Out Unit × DVec T :=
  if inRange r s.l then
    if inRange c 1 then callback (s.atVec r) f (fun x t => t.setVec r x) s
    else (.panic, s)
  else (.panic, s)

/-- sparseVector.go:102-113 `Update`. -/
def SVec.updateBy (s : SVec T) (r c : Int) (f : Fn (SVec T) T) : Out Unit × SVec T :=
  if inRange r s.l then
    if inRange c 1 then callback (s.atVec r) f (fun x t => t.setVec r x) s
    else (.panic, s)
  else (.panic, s)

end GB
