import Verif.SpecExpr
import Verif.Lemmas.Registry
import Mathlib.Algebra.BigOperators.Fin

/-!
# Expressions over matrices of any format

The programs of `SpecExpr.lean` with variables that are CSR, CSC or dense matrices, in any mixture.

Methods: /repo/csrMatrix.go:248-285, /repo/cscMatrix.go:255-295, /repo/denseMatrix.go:209-250. `Negative` and
`Transpose` are declared to return `MatrixLogical`; the compressed formats return a `*CSRMatrix` and a
`*CSCMatrix`, so a caller asserts the type.
-/

namespace GB
namespace MExpr

variable {T : Type}

/-- The format of the result: the receiver's, except that a difference has the format of its argument. -/
def fmt [GoNum T] (w : World T) : {r c : Nat} → MExpr T r c → Kind
  | _, _, var p _ _ => (w.heap p).kind
  | _, _, mul a _ => a.fmt w
  | _, _, add a _ => a.fmt w
  | _, _, sub _ b => b.fmt w
  | _, _, neg a => a.fmt w
  | _, _, smul _ a => a.fmt w
  | _, _, trans a => a.fmt w

/-- The variables are matrices of the shapes the expression says. -/
def Given [GoNum T] (w : World T) : {r c : Nat} → MExpr T r c → Prop
  | _, _, var p r c => p < w.next ∧ (w.heap p).WF ∧ (w.heap p).kind ≠ .dvec ∧ (w.heap p).kind ≠ .svec ∧
      (w.heap p).rows = r ∧ (w.heap p).cols = c
  | _, _, mul a b => a.Given w ∧ b.Given w
  | _, _, add a b => a.Given w ∧ b.Given w
  | _, _, sub a b => a.Given w ∧ b.Given w
  | _, _, neg a => a.Given w
  | _, _, smul _ a => a.Given w
  | _, _, trans a => a.Given w

open Classical in
/-- How many cells of a row or column are not zero. -/
noncomputable def filled [GoRing T] {n : Nat} (g : Fin n → T) : Nat := (Finset.univ.filter (fun l => g l ≠ 0)).card

open Classical in
/-- What multiplication sees of a row or column `g` of a matrix in format `k`: of a compressed matrix, nothing
beyond the position that is the number of its non-zero cells. -/
noncomputable def seen [GoRing T] (k : Kind) {n : Nat} (g : Fin n → T) (l : Fin n) : T :=
  if k.sparse = true ∧ filled g < l then 0 else g l

/-- What `Multiply` computes: the product of what it sees. -/
noncomputable def prodIn [GoRing T] (k k' : Kind) {r n c : Nat} (A : Matrix (Fin r) (Fin n) T)
    (B : Matrix (Fin n) (Fin c) T) : Matrix (Fin r) (Fin c) T :=
  fun i j => ∑ l, seen k (A i) l * seen k' (fun x => B x j) l

open Classical in
/-- What `Add` computes: the cells where a compressed `float64` receiver is zero stay zero. -/
noncomputable def sumIn [GoRing T] (k : Kind) {r c : Nat} (A B : Matrix (Fin r) (Fin c) T) :
    Matrix (Fin r) (Fin c) T :=
  fun i j => if k.sparse = true ∧ GoNum.gname T = "float64" ∧ A i j = 0 then 0 else A i j + B i j

open Classical in
/-- What `Subtract` computes: where a compressed receiver is zero the argument's cell keeps its sign. -/
noncomputable def diffIn [GoRing T] (k : Kind) {r c : Nat} (A B : Matrix (Fin r) (Fin c) T) :
    Matrix (Fin r) (Fin c) T :=
  fun i j => if k.sparse = true ∧ A i j = 0 then B i j else A i j - B i j

/-- What the program computes. -/
noncomputable def got [GoRing T] (w : World T) : {r c : Nat} → MExpr T r c → Matrix (Fin r) (Fin c) T
  | _, _, var p _ _ => fun i j => (w.heap p).val i j
  | _, _, mul a b => prodIn (a.fmt w) (b.fmt w) (a.got w) (b.got w)
  | _, _, add a b => sumIn (a.fmt w) (a.got w) (b.got w)
  | _, _, sub a b => diffIn (a.fmt w) (a.got w) (b.got w)
  | _, _, neg a => - a.got w
  | _, _, smul alpha a => alpha • a.got w
  | _, _, trans a => (a.got w).transpose

/-- Multiplying `A` by `alpha` in format `k` makes a non-zero cell zero only if it is the last non-zero cell of its
row (CSR) or of its column (CSC). -/
def Lasts [GoRing T] (k : Kind) (alpha : T) {r c : Nat} (A : Matrix (Fin r) (Fin c) T) : Prop :=
  (k = .csr → ∀ i j j', j < j' → A i j ≠ 0 → alpha * A i j = 0 → A i j' = 0) ∧
  (k = .csc → ∀ i i' j, i < i' → A i j ≠ 0 → alpha * A i j = 0 → A i' j = 0)

/-- No multiple removes cells of a compressed matrix other than last ones. -/
def Keeps [GoRing T] (w : World T) : {r c : Nat} → MExpr T r c → Prop
  | _, _, var _ _ _ => True
  | _, _, mul a b => a.Keeps w ∧ b.Keeps w
  | _, _, add a b => a.Keeps w ∧ b.Keeps w
  | _, _, sub a b => a.Keeps w ∧ b.Keeps w
  | _, _, neg a => a.Keeps w
  | _, _, smul alpha a => a.Keeps w ∧ Lasts (a.fmt w) alpha (a.got w)
  | _, _, trans a => a.Keeps w

/-- Conditions, on the matrices the subexpressions denote, under which every single call is right. -/
def Right [GoRing T] (w : World T) : {r c : Nat} → MExpr T r c → Prop
  | _, _, var _ _ _ => True
  | _, _, mul a b => a.Right w ∧ b.Right w ∧
      ((a.fmt w).sparse = true → ∀ i l, a.den w i l ≠ 0 → (l : Nat) ≤ filled (a.den w i)) ∧
      ((b.fmt w).sparse = true → ∀ j l, b.den w l j ≠ 0 → (l : Nat) ≤ filled (fun x => b.den w x j))
  | _, _, add a b => a.Right w ∧ b.Right w ∧
      ((a.fmt w).sparse = true → GoNum.gname T = "float64" → ∀ i j, a.den w i j = 0 → b.den w i j = 0)
  | _, _, sub a b => a.Right w ∧ b.Right w ∧
      ((a.fmt w).sparse = true → ∀ i j, a.den w i j = 0 → b.den w i j = - b.den w i j)
  | _, _, neg a => a.Right w
  | _, _, smul alpha a => a.Right w ∧ Lasts (a.fmt w) alpha (a.den w)
  | _, _, trans a => a.Right w

/-- Only sums, negatives and transposes. -/
def Linear : {r c : Nat} → MExpr T r c → Prop
  | _, _, var _ _ _ => True
  | _, _, mul _ _ => False
  | _, _, add a b => a.Linear ∧ b.Linear
  | _, _, sub _ _ => False
  | _, _, neg a => a.Linear
  | _, _, smul _ _ => False
  | _, _, trans a => a.Linear

end MExpr
end GB
