import Verif.Model.MapBy
import Verif.Lemmas.Mat

/-!
# What `Map` does with a function that uses the matrix: a loop of `At` and `Set`
-/

namespace GB
namespace Mat

variable {T : Type} [GoNum T]

/-- `for each (i, j) of the list { v := m.At(i, j); x := f(i, j, v); m.Set(i, j, x) }`, where `f` may use `m`. -/
def eachSet (f : CellFn T) : List (Nat × Nat) → Mat T → Out Unit × Mat T
  | [], m => (.ok (), m)
  | p :: ps, m =>
    match m.at' p.1 p.2 with
    | .panic => (.panic, m)
    | .hang => (.hang, m)
    | .ok (v, m) =>
      match f p.1 p.2 v m with
      | (.panic, t) => (.panic, t)
      | (.hang, t) => (.hang, t)
      | (.ok x, t) =>
        match t.set p.1 p.2 x with
        | .ok u => eachSet f ps u
        | .panic => (.panic, t)
        | .hang => (.hang, t)

/-- The cells `m` stores: all of them if it is dense, the non-zero ones otherwise. -/
def Stored (m : Mat T) (i j : Nat) : Prop := m.kind = .dense ∨ m.kind = .dvec ∨ ∃ v, m.at' i j = .ok (v, m) ∧ isZero v = false

/-- Called on a matrix of the type and shape of `m0` that stores the same cells: when `f` answers, it leaves the matrix in its type and shape; in the formats that store only the non-zero cells, it
leaves the same cells non-zero and answers something that is not zero. -/
def CellFn.Orderly (P : Mat T → Prop) (f : CellFn T) (m0 : Mat T) : Prop :=
  ∀ (i j : Nat) (m : Mat T) (v : T), P m → m.kind = m0.kind → m.rows = m0.rows → m.cols = m0.cols →
    (∀ a b : Nat, a < m0.rows → b < m0.cols → (m.Stored a b ↔ m0.Stored a b)) →
    i < m0.rows → j < m0.cols → m.at' i j = .ok (v, m) → m.Stored i j →
    ∀ x t, f i j v m = (.ok x, t) → P t ∧ t.kind = m.kind ∧ t.rows = m.rows ∧ t.cols = m.cols ∧
      (m.kind = .dense ∨ m.kind = .dvec ∨ (isZero x = false ∧
        ∀ a b : Nat, a < m.rows → b < m.cols → (t.Stored a b ↔ m.Stored a b)))

/-- No cell after `(i, j)` in its line (row of a CSR matrix, column of a CSC matrix) is stored. -/
def NoneAfter (m : Mat T) (i j : Nat) : Prop :=
  (m.kind = .csr ∧ ∀ b, j < b → b < m.cols → ¬ m.Stored i b) ∨ (m.kind = .csc ∧ ∀ a, i < a → a < m.rows → ¬ m.Stored a j)

/-- Called on a compressed matrix of the type and shape of `m0` that stores no other cells than `m0`: when `f` answers, it
leaves the matrix in its type and shape with the same cells non-zero; and it answers zero only at the end of a line. -/
def CellFn.OrderlyEnds (P : Mat T → Prop) (f : CellFn T) (m0 : Mat T) : Prop :=
  ∀ (i j : Nat) (m : Mat T) (v : T), P m → m.kind = m0.kind → m.rows = m0.rows → m.cols = m0.cols →
    (∀ a b : Nat, a < m0.rows → b < m0.cols → m.Stored a b → m0.Stored a b) →
    i < m0.rows → j < m0.cols → m.at' i j = .ok (v, m) → m.Stored i j →
    ∀ x t, f i j v m = (.ok x, t) → P t ∧ t.kind = m.kind ∧ t.rows = m.rows ∧ t.cols = m.cols ∧
      (∀ a b : Nat, a < m.rows → b < m.cols → (t.Stored a b ↔ m.Stored a b)) ∧ (isZero x = false ∨ m.NoneAfter i j)

end Mat
end GB
