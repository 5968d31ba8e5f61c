import Verif.Model.Mat

/-!
# Model of `Map` with functions that use the matrix they are called for

In the other model files the function given to the iterator's `Map` is a function of the cell. Here it may do anything with
the matrix meanwhile: read it, write it, panic, or never return. It is given by what it answers and the matrix it leaves, for
the cell and the matrix it finds. (It does not move the iterator it is called by.)
-/

namespace GB
namespace Mat

variable {T : Type} [GoNum T]

/-- A function given to `Map`: for the row, the column, the value and the matrix as it is when called, how it ends and the
matrix it leaves. -/
abbrev CellFn (T : Type) := Nat → Nat → T → Mat T → Out T × Mat T

/-- csrMatrix.go:393-401, cscMatrix.go:403-411, denseMatrix.go:353-357, denseVector.go:346-350, sparseVector.go:360-369
`Map` of the iterator: the iterator moves and the value is read (`step`); the function is called; its answer is written at
the position read, to the matrix as the function left it (`put`). A panic of `put` is taken to change nothing. -/
def mapOnce (f : CellFn T) (m : Mat T) (it : Iter) : Out Iter × Mat T :=
  match m.step it with
  | .panic => (.panic, m)
  | .hang => (.hang, m)
  | .ok (it', i, j, v) =>
    match f i j v m with
    | (.panic, t) => (.panic, t)
    | (.hang, t) => (.hang, t)
    | (.ok x, t) =>
      match t.put it' x with
      | .ok u => (.ok it', u)
      | .panic => (.panic, t)
      | .hang => (.hang, t)

/-- `for it := m.Map(); it.HasNext(); { it.Map(f) }` from the iterator `it` on, with `n` iterations granted; when they are
used up the outcome is `hang`. -/
def mapAll (f : CellFn T) : Nat → Mat T → Iter → Out Unit × Mat T
  | n, m, it =>
    if it.hasNext then
      match n with
      | 0 => (.hang, m)
      | n + 1 =>
        match mapOnce f m it with
        | (.ok it', u) => mapAll f n u it'
        | (.panic, u) => (.panic, u)
        | (.hang, u) => (.hang, u)
    else (.ok (), m)

end Mat
end GB
