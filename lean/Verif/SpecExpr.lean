import Verif.SpecOps
import Verif.Model.MathPkg
import Mathlib.Data.Matrix.Mul

/-!
# Expressions over dense matrices

Programs that compute a matrix from others by calling methods and giving the results to further
methods, and what they should compute: the same expression in Mathlib's matrices.

Methods: /repo/denseMatrix.go:209-250. `Negative` and `Transpose` are declared to return `MatrixLogical`
(/repo/matrix.go:40, 92). `Negative` returns a `*DenseMatrixNumber`, so a caller asserts the type.
`Transpose` returns a `*DenseMatrix` `t`, so a caller writes `&DenseMatrixNumber[T]{DenseMatrix: *t}`. Neither
step touches the cells, and neither appears in the programs below.
-/

namespace GB

/-- An expression for an `r × c` matrix. -/
inductive MExpr (T : Type) : Nat → Nat → Type where
  /-- a matrix the program was given -/
  | var (p : Ref) (r c : Nat) : MExpr T r c
  /-- `a.Multiply(b)` -/
  | mul {r k c : Nat} (a : MExpr T r k) (b : MExpr T k c) : MExpr T r c
  /-- `a.Add(b)` -/
  | add {r c : Nat} (a b : MExpr T r c) : MExpr T r c
  /-- `a.Subtract(b)` -/
  | sub {r c : Nat} (a b : MExpr T r c) : MExpr T r c
  /-- `a.Negative()` -/
  | neg {r c : Nat} (a : MExpr T r c) : MExpr T r c
  /-- `a.Scalar(alpha)` -/
  | smul {r c : Nat} (alpha : T) (a : MExpr T r c) : MExpr T r c
  /-- `a.Transpose()` -/
  | trans {r c : Nat} (a : MExpr T r c) : MExpr T c r

namespace MExpr

variable {T : Type}

/-- The program: arguments from left to right, then the method. -/
def run [GoNum T] : {r c : Nat} → MExpr T r c → M T Ref
  | _, _, var p _ _ => pure p
  | _, _, mul a b => do
    let x ← a.run
    let y ← b.run
    Meth.multiply x y
  | _, _, add a b => do
    let x ← a.run
    let y ← b.run
    Meth.add x y
  | _, _, sub a b => do
    let x ← a.run
    let y ← b.run
    Meth.subtract x y
  | _, _, neg a => do
    let x ← a.run
    Meth.negative x
  | _, _, smul alpha a => do
    let x ← a.run
    Meth.scalar x alpha
  | _, _, trans a => do
    let x ← a.run
    Meth.transpose x

/-- What it should compute. -/
def den [GoRing T] (w : World T) : {r c : Nat} → MExpr T r c → Matrix (Fin r) (Fin c) T
  | _, _, var p _ _ => fun i j => (w.heap p).val i j
  | _, _, mul a b => a.den w * b.den w
  | _, _, add a b => a.den w + b.den w
  | _, _, sub a b => a.den w - b.den w
  | _, _, neg a => - a.den w
  | _, _, smul alpha a => alpha • a.den w
  | _, _, trans a => (a.den w).transpose

/-- The variables are dense matrices of the shapes the expression says. -/
def Good [GoNum T] (w : World T) : {r c : Nat} → MExpr T r c → Prop
  | _, _, var p r c => p < w.next ∧ (w.heap p).WF ∧ (w.heap p).kind = .dense ∧ (w.heap p).rows = r ∧ (w.heap p).cols = c
  | _, _, mul a b => a.Good w ∧ b.Good w
  | _, _, add a b => a.Good w ∧ b.Good w
  | _, _, sub a b => a.Good w ∧ b.Good w
  | _, _, neg a => a.Good w
  | _, _, smul _ a => a.Good w
  | _, _, trans a => a.Good w

/-- No matrix of the computation has more than `n` cells. -/
def Small (n : Nat) : {r c : Nat} → MExpr T r c → Prop
  | _, _, var _ r c => r * c ≤ n
  | r, c, mul a b => r * c ≤ n ∧ a.Small n ∧ b.Small n
  | _, _, add a b => a.Small n ∧ b.Small n
  | _, _, sub a b => a.Small n ∧ b.Small n
  | _, _, neg a => a.Small n
  | _, _, smul _ a => a.Small n
  | _, _, trans a => a.Small n

end MExpr
end GB
