import Verif.Model.World

/-!
# `math/reduced`: Gauss-Jordan elimination

`Reduced` (reduced.go:15-77) copies its argument and works on the copy only.  The copy is a fresh
object, so the part after the copy is written as a function on the copy's state.  The one loop
without an obvious bound, the pivot search, is given a number of turns `gas` and answers `hang`
when they run out.
-/

namespace GB

namespace Reduced

variable {T : Type} [GoNum T]

/-- reduced.go:24-34: look for a non-zero cell at or below row `r`, column by column, starting at
`(i, lead)`.  `none` is the `return m` of line 31. -/
def pivot (rowCount columnCount r : Nat) : (gas i lead : Nat) → Mat T →
    Out (Option (Nat × Nat) × Mat T)
  | 0, _, _, _ => .hang
  | gas + 1, i, lead, m => do
    let (v, m) ← m.at' i lead
    if isZero v then
      if rowCount = i + 1 then
        if columnCount = lead + 1 then .ok (none, m)
        else pivot rowCount columnCount r gas r (lead + 1) m
      else pivot rowCount columnCount r gas (i + 1) lead m
    else .ok (some (i, lead), m)

/-- The loops of reduced.go:40-46: `for c := 0; c < len(v); c++ { m.Set(r, c, v[c]) }`. -/
def setRow (r : Nat) (v : List T) (m : Mat T) : Out (Mat T) :=
  loop v.length 0 (fun c m => do let x ← idx v c; m.set r c x) m

/-- reduced.go:36-47: exchange rows `i` and `r`. -/
def swapRows (i r : Nat) (m : Mat T) : Out (Mat T) :=
  if i ≠ r then do
    let v1 ← m.rowsAtToArray i
    let v2 ← m.rowsAtToArray r
    let m ← setRow r v1 m
    setRow i v2 m
  else .ok m

/-- The loop of reduced.go:52-56. -/
def scaleCells (r : Nat) (f : T) (vector : List T) (m : Mat T) : Out (Mat T) :=
  loop vector.length 0 (fun c m => do let value ← idx vector c; m.set r c (value * f)) m

/-- reduced.go:49-56: divide row `r` by its pivot. -/
def scaleRow (r lead : Nat) (m : Mat T) : Out (Mat T) := do
  let (v, m) ← m.at' r lead
  let f ← match GoNum.gdiv 1 v with | some f => .ok f | none => .panic
  let vector ← m.rowsAtToArray r
  scaleCells r f vector m

/-- The loop of reduced.go:62-69. -/
def subCells (i : Nat) (f : T) (vector : List T) (m : Mat T) : Out (Mat T) :=
  loop vector.length 0 (fun c m => do
    let value ← idx vector c
    m.update i c (fun v => v - value * f)) m

/-- reduced.go:58-71: clear the pivot column in every other row. -/
def eliminate (rowCount r lead : Nat) (m : Mat T) : Out (Mat T) :=
  loop rowCount 0 (fun i m =>
    if i ≠ r then do
      let (f, m) ← m.at' i lead
      let vector ← m.rowsAtToArray r
      subCells i f vector m
    else .ok m) m

/-- reduced.go:20-73: the outer loop, with `n` rows to go. -/
def rows (rowCount columnCount gas : Nat) : (n r lead : Nat) → Mat T → Out (Mat T)
  | 0, _, _, m => .ok m
  | n + 1, r, lead, m =>
    if columnCount ≤ lead then .ok m else do
      let (p, m) ← pivot rowCount columnCount r gas r lead m
      match p with
      | none => .ok m
      | some (i, lead) => do
        let m ← swapRows i r m
        let m ← scaleRow r lead m
        let m ← eliminate rowCount r lead m
        rows rowCount columnCount gas n (r + 1) (lead + 1) m

/-- reduced.go:17-76 on the copy. -/
def onCopy (gas : Nat) (m : Mat T) : Out (Mat T) := rows m.rows m.cols gas m.rows 0 0 m

/-- math/reduced/reduced.go:15-77 `Reduced`. -/
def reduced (gas : Nat) (s : Ref) : M T Ref := do
  let m ← M.copy s
  M.withObj m (fun a => do let a ← onCopy gas a; .ok ((), a))
  pure m

end Reduced

end GB
