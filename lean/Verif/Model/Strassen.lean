import Verif.Model.Operators
import Mathlib.Data.Fin.VecNotation

/-!
# Model of math/strassen

The sequential pieces of `MultiplyCrossoverPoint` are `M` programs: the leaf product, the division
into the operands of the seven workers, the assembly of the result.  The goroutines are a transition
system over the tree of calls: between two synchronisations a goroutine works on objects no other
goroutine writes to (the operands are freshly made by the parent, which then only waits), so such a
stretch is one step and a matrix is represented by its state.
-/

namespace GB
namespace Strassen
open M

variable {T : Type} [GoNum T]

/-- `graphblas.NewDenseMatrixN[T](r, c)`. -/
def newDense (r c : Nat) : M T Ref := alloc (.dense (Dense.new r c))

/-- strassen.go:30-32: the ordinary product. -/
def leaf (a b : Ref) : M T Ref := do
  let r ← rowsOf a
  let c ← colsOf b
  let matrix ← newDense r c
  Ops.matrixMatrixMultiply a b .nil matrix
  pure matrix

/-- The eight blocks (strassen.go:37-45). -/
structure Blocks where
  (a11 a12 a21 a22 b11 b12 b21 b22 : Ref)

/-- `dst.Set(r, c, src.At(i, j))`. -/
def copyCell (dst : Ref) (r c : Nat) (src : Ref) (i j : Nat) : M T Unit := do
  let v ← at' src i j
  M.set dst r c v

/-- strassen.go:50-65: the body of the loop that fills the blocks. -/
def splitCell (a b : Ref) (k : Blocks) (size r c : Nat) : M T (Option Unit) := do
  let stop ← poll
  if stop then pure none
  else do
    copyCell k.a11 r c a r c
    copyCell k.a12 r c a r (c + size)
    copyCell k.a21 r c a (r + size) c
    copyCell k.a22 r c a (r + size) (c + size)
    copyCell k.b11 r c b r c
    copyCell k.b12 r c b r (c + size)
    copyCell k.b21 r c b (r + size) c
    copyCell k.b22 r c b (r + size) (c + size)
    pure none

/-- strassen.go:35-66: the blocks. -/
def split (a b : Ref) : M T Blocks := do
  let n ← rowsOf b
  let size := n / 2
  let a11 ← newDense size size
  let a12 ← newDense size size
  let a21 ← newDense size size
  let a22 ← newDense size size
  let b11 ← newDense size size
  let b12 ← newDense size size
  let b21 ← newDense size size
  let b22 ← newDense size size
  let k : Blocks := ⟨a11, a12, a21, a22, b11, b12, b21, b22⟩
  let _ ← forN size 0 (fun r => forN size 0 (fun c => splitCell a b k size r c))
  pure k

/-- strassen.go:70-76: the arguments of the seven workers. -/
def operands (k : Blocks) : M T (Fin 7 → Ref × Ref) := do
  let x1 ← Meth.add k.a11 k.a22
  let y1 ← Meth.add k.b11 k.b22
  let x2 ← Meth.add k.a21 k.a22
  let y3 ← Meth.subtract k.b12 k.b22
  let y4 ← Meth.subtract k.b21 k.b11
  let x5 ← Meth.add k.a11 k.a12
  let x6 ← Meth.subtract k.a21 k.a11
  let y6 ← Meth.add k.b11 k.b12
  let x7 ← Meth.subtract k.a12 k.a22
  let y7 ← Meth.add k.b21 k.b22
  pure ![(x1, y1), (x2, k.b11), (k.a11, y3), (k.a22, y4), (x5, k.b22), (x6, y6), (x7, y7)]

/-- strassen.go:95-103: the body of the loop that fills the result. -/
def joinCell (matrix c11 c12 c21 c22 : Ref) (shift r c : Nat) : M T (Option Unit) := do
  let stop ← poll
  if stop then pure none
  else do
    copyCell matrix r c c11 r c
    copyCell matrix r (c + shift) c12 r c
    copyCell matrix (r + shift) c c21 r c
    copyCell matrix (r + shift) (c + shift) c22 r c
    pure none

/-- strassen.go:89-106: the result from its four blocks. -/
def join (c11 c12 c21 c22 : Ref) : M T Ref := do
  let n ← rowsOf c11
  let matrix ← newDense (n * 2) (n * 2)
  let shift ← rowsOf c11
  let rows ← rowsOf c11
  let _ ← forN rows 0 (fun r => do
    let cols ← colsOf c11
    forN cols 0 (fun c => joinCell matrix c11 c12 c21 c22 shift r c))
  pure matrix

/-- strassen.go:84-106: the result from the seven products. -/
def assemble (m1 m2 m3 m4 m5 m6 m7 : Ref) : M T Ref := do
  let x ← Meth.add m1 m4
  let x ← Meth.subtract x m5
  let c11 ← Meth.add x m7
  let c12 ← Meth.add m3 m5
  let c21 ← Meth.add m2 m4
  let y ← Meth.subtract m1 m2
  let y ← Meth.add y m3
  let c22 ← Meth.add y m6
  join c11 c12 c21 c22

/-! ## The pieces on matrix states

`gas` bounds the iterator loops inside `Add` and `Subtract`, `cn` is the state of the context. -/

/-- A world with the given objects and context. -/
def scene (gas : Nat) (cn : Option Nat) (objs : List (Mat T)) : World T :=
  { World.of gas objs with cancel := cn }

/-- The state of the object a program returns. -/
def outObj : Res T Ref → Out (Mat T)
  | .ok p w => .ok (w.heap p)
  | .panic _ => .panic
  | .hang _ => .hang

/-- strassen.go:24-33 when the order is at most the crossover. -/
def leafV (gas : Nat) (cn : Option Nat) (a b : Mat T) : Out (Mat T) :=
  outObj (leaf 0 1 (scene gas cn [a, b]))

/-- strassen.go:35-76: what the seven workers are given. -/
def forkV (gas : Nat) (cn : Option Nat) (a b : Mat T) : Out (Fin 7 → Mat T × Mat T) :=
  match (do let k ← split 0 1; operands k) (scene gas cn [a, b]) with
  | .ok l w => .ok (fun k => (w.heap (l k).1, w.heap (l k).2))
  | .panic _ => .panic
  | .hang _ => .hang

/-- strassen.go:84-106 on the array `m` (a missing entry is a nil interface: the call panics). -/
def joinV (gas : Nat) (cn : Option Nat) (m : Nat → Option (Mat T)) : Out (Mat T) :=
  match m 1, m 2, m 3, m 4, m 5, m 6, m 7 with
  | some m1, some m2, some m3, some m4, some m5, some m6, some m7 =>
    outObj (assemble 0 1 2 3 4 5 6 (scene gas cn [m1, m2, m3, m4, m5, m6, m7]))
  | _, _, _, _, _, _, _ => .panic

/-! ## The goroutines -/

/-- A call of `MultiplyCrossoverPoint`, in some goroutine. -/
inductive Call (T : Type) where
  /-- called, nothing done yet -/
  | start (a b : Mat T)
  /-- at strassen.go:79: the workers it started, the array `m`, and the loop counter -/
  | wait (kid : Fin 7 → Call T) (m : Nat → Option (Mat T)) (i : Nat)
  /-- returned; for a worker: blocked at the send of strassen.go:110 -/
  | ret (v : Mat T)
  /-- the worker's send was received, its goroutine is over -/
  | gone
  /-- panicked -/
  | crash

/-- One step of one of the goroutines. `live`: the context is not cancelled during the call. -/
inductive Step (gas : Nat) (crossover : Int) (live : Bool) : Call T → Call T → Prop
  /-- strassen.go:24-26 -/
  | mismatch {a b} : a.cols ≠ b.rows → Step gas crossover live (.start a b) .crash
  /-- strassen.go:28-33 -/
  | leaf {a b v} (cn : Option Nat) : (live = true → cn = none) → a.cols = b.rows → (b.rows : Int) ≤ crossover →
      leafV gas cn a b = .ok v → Step gas crossover live (.start a b) (.ret v)
  | leafPanic {a b} (cn : Option Nat) : (live = true → cn = none) → a.cols = b.rows → (b.rows : Int) ≤ crossover →
      leafV gas cn a b = .panic → Step gas crossover live (.start a b) .crash
  /-- strassen.go:35-76 -/
  | fork {a b ops} (cn : Option Nat) : (live = true → cn = none) → a.cols = b.rows → ¬ (b.rows : Int) ≤ crossover →
      forkV gas cn a b = .ok ops →
      Step gas crossover live (.start a b)
        (.wait (fun k => .start (ops k).1 (ops k).2) (fun _ => none) 0)
  | forkPanic {a b} (cn : Option Nat) : (live = true → cn = none) → a.cols = b.rows → ¬ (b.rows : Int) ≤ crossover →
      forkV gas cn a b = .panic → Step gas crossover live (.start a b) .crash
  /-- a worker goes on -/
  | work {kid m i c} (k : Fin 7) : Step gas crossover live (kid k) c →
      Step gas crossover live (.wait kid m i) (.wait (Function.update kid k c) m i)
  /-- strassen.go:80-81 and 110-113: the send of worker `k+1` meets the receive; the result is stored
  under the tag it was sent with -/
  | deliver {kid m i v} (k : Fin 7) : i < 7 → kid k = .ret v →
      Step gas crossover live (.wait kid m i)
        (.wait (Function.update kid k .gone) (Function.update m (k.1 + 1) (some v)) (i + 1))
  /-- strassen.go:84-106, after the loop -/
  | done {kid m i v} (cn : Option Nat) : (live = true → cn = none) → ¬ i < 7 → joinV gas cn m = .ok v →
      Step gas crossover live (.wait kid m i) (.ret v)
  | donePanic {kid m i} (cn : Option Nat) : (live = true → cn = none) → ¬ i < 7 → joinV gas cn m = .panic →
      Step gas crossover live (.wait kid m i) .crash

/-- A number of steps. -/
inductive Steps (gas : Nat) (crossover : Int) (live : Bool) : Nat → Call T → Call T → Prop
  | refl {c} : Steps gas crossover live 0 c c
  | tail {n c c' c''} : Steps gas crossover live n c c' → Step gas crossover live c' c'' →
      Steps gas crossover live (n + 1) c c''

/-- The same call with the workers run one after the other, to the recursion depth `d`. -/
def eval (gas : Nat) (crossover : Int) : (d : Nat) → Mat T → Mat T → Out (Mat T)
  | 0, _, _ => .hang
  | d + 1, a, b =>
    if a.cols ≠ b.rows then .panic
    else if (b.rows : Int) ≤ crossover then leafV gas none a b
    else do
      let ops ← forkV gas none a b
      let m1 ← eval gas crossover d (ops 0).1 (ops 0).2
      let m2 ← eval gas crossover d (ops 1).1 (ops 1).2
      let m3 ← eval gas crossover d (ops 2).1 (ops 2).2
      let m4 ← eval gas crossover d (ops 3).1 (ops 3).2
      let m5 ← eval gas crossover d (ops 4).1 (ops 4).2
      let m6 ← eval gas crossover d (ops 5).1 (ops 5).2
      let m7 ← eval gas crossover d (ops 6).1 (ops 6).2
      joinV gas none (fun k => [none, some m1, some m2, some m3, some m4, some m5, some m6, some m7].getD k none)

end Strassen
end GB
