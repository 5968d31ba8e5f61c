import Verif.Model.Mat

/-!
# The heap, the context, and the statements of the operators

Operators run in a `World`: a heap of matrices addressed by references (so that the output may be
one of the operands), a context that may become cancelled at any poll, and the sparse registry.
-/

namespace GB

variable {T : Type} [GoNum T]

/-- A pointer. Go compares interface values holding pointers by pointer equality. -/
abbrev Ref := Nat

/-- The state the operators run in. -/
structure World (T : Type) where
  /-- objects -/
  heap : Ref → Mat T
  /-- next free reference: references below `next` are allocated -/
  next : Ref
  /-- `none`: the context is never cancelled; `some k`: it is found cancelled from the `k+1`-st
  poll of `ctx.Done()` on -/
  cancel : Option Nat
  /-- names registered as sparse (matrixRegistry.go:15) -/
  reg : List String
  /-- iterations granted to each `for iterator.HasNext()` loop; when they are used up the outcome
  is `hang`. A call that never returns is one that is `hang` for every gas. -/
  gas : Nat

/-- The registry after package initialisation: csrMatrix.go:16-18, cscMatrix.go:17-19,
sparseVector.go:20-22 register the `float64` instances only. -/
def initReg : List String := ["CSRMatrix[float64]", "CSCMatrix[float64]", "SparseVector[float64]"]

/-- A program state holding the given objects: references `0, 1, …`; the registry as initialised;
the context never cancelled. -/
def World.of (gas : Nat) (objs : List (Mat T)) : World T :=
  { heap := fun p => objs.getD p (.dvec ⟨0, []⟩), next := objs.length, cancel := none, reg := initReg, gas }

/-- Outcome of a statement; every outcome carries the world it ended in. -/
inductive Res (T α : Type) where
  | ok (a : α) (w : World T)
  | panic (w : World T)
  | hang (w : World T)

/-- The world an outcome ended in. -/
def Res.world {α : Type} : Res T α → World T
  | ok _ w => w
  | panic w => w
  | hang w => w

/-- Statements. -/
def M (T α : Type) := World T → Res T α

namespace M

/-- Sequencing. -/
def bind' {α β : Type} (x : M T α) (f : α → M T β) : M T β := fun w =>
  match x w with
  | .ok a w' => f a w'
  | .panic w' => .panic w'
  | .hang w' => .hang w'

instance : Monad (M T) where
  pure a := fun w => .ok a w
  bind := bind'

/-- `log.Panicf`. -/
def fail {α : Type} : M T α := fun w => .panic w

/-- Run a method of the object `p`; its new contents are stored back. -/
def withObj {α : Type} (p : Ref) (f : Mat T → Out (α × Mat T)) : M T α := fun w =>
  match f (w.heap p) with
  | .ok (a, m) => .ok a { w with heap := Function.update w.heap p m }
  | .panic => .panic w
  | .hang => .hang w

/-- Run a method of the object `p` that does not write to it. -/
def ofObj {α : Type} (p : Ref) (f : Mat T → Out α) : M T α := fun w =>
  match f (w.heap p) with
  | .ok a => .ok a w
  | .panic => .panic w
  | .hang => .hang w

/-- A local computation that may panic. -/
def lift {α : Type} (x : Out α) : M T α := fun w =>
  match x with
  | .ok a => .ok a w
  | .panic => .panic w
  | .hang => .hang w

/-- `new`: allocate an object. -/
def alloc (m : Mat T) : M T Ref := fun w =>
  .ok w.next { w with heap := Function.update w.heap w.next m, next := w.next + 1 }

/-- `Rows()` of an object. -/
def rowsOf (p : Ref) : M T Nat := fun w => .ok (w.heap p).rows w
/-- `Columns()` of an object. -/
def colsOf (p : Ref) : M T Nat := fun w => .ok (w.heap p).cols w
/-- `Values()` of an object. -/
def valuesOf (p : Ref) : M T Nat := fun w => .ok (w.heap p).nvalues w
/-- `At`. -/
def at' (p : Ref) (r c : Nat) : M T T := withObj p (fun m => m.at' r c)
/-- `Set`. -/
def set (p : Ref) (r c : Nat) (v : T) : M T Unit :=
  withObj p (fun m => do let m' ← m.set r c v; .ok ((), m'))
/-- `Update`. -/
def update (p : Ref) (r c : Nat) (f : T → T) : M T Unit :=
  withObj p (fun m => do let m' ← m.update r c f; .ok ((), m'))
/-- `Clear`. -/
def clear (p : Ref) : M T Unit := withObj p (fun m => .ok ((), m.clear))
/-- `Copy`: a fresh object. -/
def copy (p : Ref) : M T Ref := do let m ← ofObj p Mat.copy; alloc m
/-- `Enumerate()` / `Map()`. -/
def iterOf (p : Ref) : M T Mat.Iter := fun w => .ok (w.heap p).iter w

/-- matrixRegistry.go:27-31 `IsSparseMatrix`. -/
def isSparse (p : Ref) : M T Bool := fun w => .ok (decide ((w.heap p).typeName ∈ w.reg)) w

/-- `select { case <-ctx.Done(): …; default: … }`: is the context found cancelled? -/
def poll : M T Bool := fun w =>
  match w.cancel with
  | none => .ok false w
  | some 0 => .ok true w
  | some (k + 1) => .ok false { w with cancel := some k }

/-- `for iterator.HasNext() { select { case <-ctx.Done(): onCancel; default: r, c, v := Next(); body } }`.
`onCancel = some b`: the cancelled branch returns `b`; `onCancel = none`: the cancelled branch does
nothing (`break` inside `select`). The body may `return b` early (`some b`). The result is `some b`
when the loop was left by a `return`. The gas counts iterations. -/
def loopIter {β : Type} (p : Ref) (onCancel : Option β) (body : Nat → Nat → T → M T (Option β)) :
    Nat → Mat.Iter → M T (Option β)
  | 0, it => if it.hasNext then (fun w => .hang w) else pure none
  | g + 1, it =>
    if it.hasNext then do
      let stop ← poll
      if stop then
        match onCancel with
        | some b => pure (some b)
        | none => loopIter p onCancel body g it
      else do
        let (it', r, c, v) ← ofObj p (fun m => m.step it)
        match ← body r c v with
        | some b => pure (some b)
        | none => loopIter p onCancel body g it'
    else pure none

/-- `for it := p.Enumerate(); it.HasNext(); { … }`. -/
def forEach {β : Type} (p : Ref) (onCancel : Option β) (body : Nat → Nat → T → M T (Option β)) :
    M T (Option β) := do
  let it ← iterOf p
  fun w => loopIter p onCancel body w.gas it w

/-- `for it := p.Map(); it.HasNext(); { … it.Map(f) }`, where `f` may read other objects
(the mask). `onCancel = true`: the cancelled branch returns; `false`: it does nothing. The result
tells whether the loop was left by the cancelled branch. -/
def loopMap (p : Ref) (onCancel : Bool) (f : Nat → Nat → T → M T T) : Nat → Mat.Iter → M T Bool
  | 0, it => if it.hasNext then (fun w => .hang w) else pure false
  | g + 1, it =>
    if it.hasNext then do
      let stop ← poll
      if stop then
        if onCancel then pure true else loopMap p onCancel f g it
      else do
        let (it', r, c, v) ← ofObj p (fun m => m.step it)
        let v' ← f r c v
        withObj p (fun m => do let m' ← m.put it' v'; .ok ((), m'))
        loopMap p onCancel f g it'
    else pure false

/-- `for it := p.Map(); it.HasNext(); { … }`. -/
def forMap (p : Ref) (onCancel : Bool) (f : Nat → Nat → T → M T T) : M T Bool := do
  let it ← iterOf p
  fun w => loopMap p onCancel f w.gas it w

/-- `for i := i0; i < i0+n; i++ { body }`, where the body may `return b` early. -/
def forN {β : Type} : (n i0 : Nat) → (Nat → M T (Option β)) → M T (Option β)
  | 0, _, _ => pure none
  | n + 1, i0, body => do
    match ← body i0 with
    | some b => pure (some b)
    | none => forN n (i0 + 1) body

end M

/-- The `mask` argument of an operator, which is an interface (mask.go:9-25): nil, an `EmptyMask` (mask.go:28-51), a
matrix of the element type of the operands (every `Matrix[T]` is a `Mask`, matrix.go:66-68), or any other value of the
interface, such as a matrix of another element type or a type of the caller: `Rows()`, `Columns()`, and what
`Element(r, c)` answers, where `none` is a panic. Simplification: a mask of the last sort answers a question alike
whenever it is asked during the call; its `Rows()` and `Columns()` are not negative. Masks that change are the subject of
C101. -/
inductive Mask where
  | nil
  | empty (r c : Nat)
  | ref (p : Ref)
  | given (r c : Nat) (el : Nat → Nat → Option Bool)

namespace Mask

/-- Is the mask the object `p`? (For the concrete cases.) -/
instance (mask : Mask) (p : Ref) : Decidable (mask = .ref p) :=
  match mask with
  | .ref q => if h : q = p then isTrue (by rw [h]) else isFalse (fun e => h (Mask.ref.inj e))
  | .nil => isFalse Mask.noConfusion
  | .empty _ _ => isFalse Mask.noConfusion
  | .given _ _ _ => isFalse Mask.noConfusion

/-- `if mask == nil { mask = NewEmptyMask(matrix.Rows(), matrix.Columns()) }`
(operators.go:24-26 and the other operators). -/
def orEmpty (mask : Mask) (matrix : Ref) : M T Mask :=
  match mask with
  | .nil => do
    let r ← M.rowsOf matrix
    let c ← M.colsOf matrix
    pure (.empty r c)
  | m => pure m

/-- `mask.Rows()`. -/
def rows : Mask → M T Nat
  | .nil => M.fail
  | .empty r _ => pure r
  | .ref p => M.rowsOf p
  | .given r _ _ => pure r

/-- `mask.Columns()`. -/
def cols : Mask → M T Nat
  | .nil => M.fail
  | .empty _ c => pure c
  | .ref p => M.colsOf p
  | .given _ c _ => pure c

/-- `mask.Element(r, c)`: mask.go:49-51 for the empty mask. -/
def element : Mask → Nat → Nat → M T Bool
  | .nil, _, _ => M.fail
  | .empty _ _, _, _ => pure false
  | .ref p, r, c => M.withObj p (fun m => m.element r c)
  | .given _ _ el, r, c => match el r c with
    | some b => pure b
    | none => M.fail

/-- The mask shape checks (operators.go:28-34 and the other operators). -/
def check (mask : Mask) (matrix : Ref) : M T Unit := do
  let mr ← mask.rows
  let r ← M.rowsOf matrix
  if mr ≠ r then M.fail
  let mc ← mask.cols
  let c ← M.colsOf matrix
  if mc ≠ c then M.fail

end Mask
end GB
