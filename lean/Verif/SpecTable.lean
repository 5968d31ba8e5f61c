import Verif.Props.Access
import Verif.SpecMutex

/-!
# Specification vocabulary: a matrix as a table of cells
-/

namespace GB
namespace Mutex

set_option linter.unusedSectionVars false

variable {T : Type} [GoNum T]

/-! ## The table -/

/-- A table of cells. `compressed`: a zero is stored as the zero of the type. -/
structure Table (T : Type) where
  rows : Nat
  cols : Nat
  compressed : Bool
  cell : Nat → Nat → T

/-- What a call on a table answers. -/
inductive Answer (T : Type) where
  | panic | unit | num (v : T) | bool (b : Bool) | list (l : List T) | line (n : Nat) (g : Nat → T)
  | table (rows cols : Nat) (cell : Nat → Nat → T)

namespace Table

def Valid (t : Table T) (i j : Int) : Prop := 0 ≤ i ∧ i < t.rows ∧ 0 ≤ j ∧ j < t.cols

instance (t : Table T) (i j : Int) : Decidable (t.Valid i j) := by unfold Valid; infer_instance

def store (t : Table T) (i j : Nat) (v : T) : Table T :=
  { t with cell := fun a b => if a = i ∧ b = j then (if t.compressed && GoNum.geq v 0 then 0 else v) else t.cell a b }

/-- The calls, as operations on a table. -/
def call : Method T → Table T → Answer T × Table T
  | .at' i j, t => if t.Valid i j then (.num (t.cell i.toNat j.toNat), t) else (.panic, t)
  | .element i j, t => if t.Valid i j then (.bool (GoNum.glt 0 (t.cell i.toNat j.toNat)), t) else (.panic, t)
  | .set i j v, t => if t.Valid i j then (.unit, t.store i.toNat j.toNat v) else (.panic, t)
  | .update i j f, t =>
    if t.Valid i j then (.unit, t.store i.toNat j.toNat (f (t.cell i.toNat j.toNat))) else (.panic, t)
  | .rowsAtToArray i, t =>
    if 0 ≤ i ∧ i < t.rows then (.list ((List.range t.cols).map (t.cell i.toNat)), t) else (.panic, t)
  | .rowsAt i, t => if 0 ≤ i ∧ i < t.rows then (.line t.cols (t.cell i.toNat), t) else (.panic, t)
  | .columnsAt j, t => if 0 ≤ j ∧ j < t.cols then (.line t.rows (fun i => t.cell i j.toNat), t) else (.panic, t)
  | .copy, t => (.table t.rows t.cols t.cell, t)
  | .transpose, t => (.table t.cols t.rows (fun j i => t.cell i j), t)
  | _, t => (.panic, t)

end Table

namespace Table

/-- What a matrix argument reads as. -/
def ofArg (m : Mat T) (i j : Nat) : T :=
  match m.at' i j with
  | .ok (v, _) => v
  | _ => 0

/-- The table has the shape of the argument. -/
def fits (t : Table T) (m : Mat T) : Bool := t.rows == m.rows && t.cols == m.cols

/-- The table and the argument have the same shape and the same numbers. -/
def same (t : Table T) (m : Mat T) : Bool :=
  t.fits m && (List.range t.rows).all fun i => (List.range t.cols).all fun j => GoNum.geq (t.cell i j) (ofArg m i j)

/-- The calls of `call` and the arithmetic, as operations on a table. -/
def reckon : Method T → Table T → Answer T × Table T
  | .scalar a, t => (.table t.rows t.cols (fun i j => a * t.cell i j), t)
  | .negative, t => (.table t.rows t.cols (fun i j => -t.cell i j), t)
  | .add m, t => (if t.fits m then .table t.rows t.cols (fun i j => t.cell i j + ofArg m i j) else .panic, t)
  | .subtract m, t => (if t.fits m then .table t.rows t.cols (fun i j => t.cell i j - ofArg m i j) else .panic, t)
  | .multiply m, t =>
    (if m.rows == t.cols then
      .table t.rows m.cols (fun i j => ((List.range t.cols).map fun l => t.cell i l * ofArg m l j).foldr (· + ·) 0)
      else .panic, t)
  | .equal m, t => (.bool (t.same m), t)
  | .notEqual m, t => (.bool (!t.same m), t)
  | q, t => call q t

end Table

/-- The calls of C86. The methods without a lock among them are those that read no element. -/
def Method.Plain : Method T → Prop
  | .at' _ _ | .element _ _ | .set _ _ _ | .update _ _ _ | .rowsAtToArray _ | .rowsAt _ | .columnsAt _ | .copy
  | .transpose | .rows | .columns | .size => True
  | _ => False

/-- The calls of C92 on a matrix that is compressed (`z`) or dense: those of C86, and the arithmetic where the method of
the wrapped matrix is exact (C17, C18, C19, C20, C27): on a dense matrix with dense arguments (any format to add or to
subtract); on a compressed matrix the negation, the multiplication by a number that makes no zero, the sum if the element
type is not `float64`, and the comparison with a compressed matrix. -/
def Method.Exact (gas : Nat) (z : Bool) : Method T → Prop
  | .scalar a => z = true → ∀ x : T, x ≠ 0 → a * x ≠ 0
  | .negative => True
  | .add m => Reach m ∧ (m.kind = .csr ∨ m.kind = .csc ∨ m.kind = .dense) ∧ m.rows * m.cols ≤ gas ∧
    (z = true → GoNum.gname T ≠ "float64")
  | .subtract m => Reach m ∧ (m.kind = .csr ∨ m.kind = .csc ∨ m.kind = .dense) ∧ z = false
  | .multiply m => Reach m ∧ m.kind = .dense ∧ z = false
  | .equal m | .notEqual m => Reach m ∧ m.rows * m.cols ≤ gas ∧
    (z = true ∧ (m.kind = .csr ∨ m.kind = .csc) ∨ z = false ∧ m.kind = .dense)
  | q => q.Plain

/-- The matrix reads as the table. -/
structure Reads (m : Mat T) (t : Table T) : Prop where
  kind : m.kind = .csr ∨ m.kind = .csc ∨ m.kind = .dense
  rows : m.rows = t.rows
  cols : m.cols = t.cols
  compressed : t.compressed = true ↔ m.kind ≠ .dense
  cells : ∀ i j : Nat, i < t.rows → j < t.cols → m.at' i j = .ok (t.cell i j, m)

/-- The outcome of a call on the matrix is the answer. -/
def Says : Out (Val T) → Answer T → Prop
  | .panic, .panic => True
  | .ok .unit, .unit => True
  | .ok (.num v), .num v' => v = v'
  | .ok (.bool b), .bool b' => b = b'
  | .ok (.arr l), .list l' => l = l'
  | .ok (.vec v), .line n g => VecHolds v n g
  | .ok (.mat m), .table r c cell =>
    m.rows = r ∧ m.cols = c ∧ ∀ i j : Nat, i < r → j < c → m.at' i j = .ok (cell i j, m)
  | _, _ => False

/-- Calls a single goroutine may make: all but the `Map` of an iterator; matrix arguments are matrices a program can
obtain. -/
def Method.Single (q : Method T) : Prop := q.Sound ∨ q = .clear

end Mutex
end GB
