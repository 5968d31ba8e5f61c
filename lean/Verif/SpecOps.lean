import Verif.Lemmas.History
import Verif.Model.Operators
import Verif.KernelRfl

/-!
# Specification vocabulary for the operators

`Mat.val m i j` is what `At(i, j)` returns, `Mat.keep` what a format keeps of a written value (the
value itself, up to replacing something `== 0` by the zero value).
-/

namespace GB

variable {T : Type} [GoNum T]

/-- `w` with the object `out` replaced and the context advanced. -/
def World.upd (w : World T) (out : Ref) (m : Mat T) (c : Option Nat) : World T :=
  { w with heap := Function.update w.heap out m, cancel := c }

/-- The call returned normally; it changed no object but `out`; `out` kept its type and shape; when
the context is never cancelled every cell of `out` has the value `new`; in every case each cell has
either the value `new` or its old value. -/
def Writes (w : World T) (out : Ref) (new : Nat → Nat → T) (r : Res T Unit) : Prop :=
  ∃ m' c, r = .ok () (w.upd out m' c) ∧ m'.WF ∧ Mat.Same m' (w.heap out) ∧
    (w.cancel = none → c = none ∧
      ∀ i j, i < m'.rows → j < m'.cols → m'.val i j = new i j) ∧
    ∀ i j, i < m'.rows → j < m'.cols →
      m'.val i j = new i j ∨ m'.val i j = (w.heap out).val i j

/-- The call returned a new object of the given type and shape whose cells are `new`; every object
that existed before is as it was; context and registry are untouched. -/
def Returns (w : World T) (k : Kind) (r c : Nat) (new : Nat → Nat → T) (res : Res T Ref) : Prop :=
  ∃ p w', res = .ok p w' ∧ w.next ≤ p ∧ p < w'.next ∧ (∀ q, q < w.next → w'.heap q = w.heap q) ∧
    w'.cancel = w.cancel ∧ w'.reg = w.reg ∧ w'.gas = w.gas ∧
    (w'.heap p).WF ∧ (w'.heap p).kind = k ∧ (w'.heap p).rows = r ∧ (w'.heap p).cols = c ∧
    ∀ i j, i < r → j < c → (w'.heap p).val i j = new i j

/-- The call panicked. -/
def Res.isPanic {α : Type} : Res T α → Bool
  | .panic _ => true
  | _ => false

/-- The call did not end within the gas. -/
def Res.isHang {α : Type} : Res T α → Bool
  | .hang _ => true
  | _ => false

/-- The object the call returned. -/
def Res.obj : Res T Ref → Option (Mat T)
  | .ok p w => some (w.heap p)
  | _ => none

/-- What the call left in the object `p`, when it returned. -/
def Res.left {α : Type} (p : Ref) : Res T α → Option (Mat T)
  | .ok _ w => some (w.heap p)
  | _ => none

/-- The value the call returned. -/
def Res.val {α : Type} : Res T α → Option α
  | .ok a _ => some a
  | _ => none

/-- Is the cell protected by the mask? -/
def Mask.bit (w : World T) : Mask → Nat → Nat → Bool
  | .ref p, i, j => GoNum.glt 0 ((w.heap p).val i j)
  | .given _ _ el, i, j => (el i j).getD false
  | _, _, _ => false

/-- The mask has the shape of `out` (a nil mask always does). -/
def Mask.Fits (w : World T) (out : Ref) : Mask → Prop
  | .nil => True
  | .empty r c => r = (w.heap out).rows ∧ c = (w.heap out).cols
  | .ref p => (w.heap p).rows = (w.heap out).rows ∧ (w.heap p).cols = (w.heap out).cols
  | .given r c _ => r = (w.heap out).rows ∧ c = (w.heap out).cols

/-- No mask, or an `EmptyMask`: these answer about any cell. -/
def Mask.Blank : Mask → Prop
  | .nil | .empty _ _ => True
  | _ => False

/-- `(i, j)` is a cell of the mask, unless it answers about any cell. -/
def Mask.Covers (w : World T) (i j : Nat) : Mask → Prop
  | .ref p => i < (w.heap p).rows ∧ j < (w.heap p).cols
  | .given r c _ => i < r ∧ j < c
  | _ => True

/-- The mask, if it is a matrix, is in a state a program can bring about; if it is something else, it answers about all
its cells. -/
def Mask.Sound (w : World T) : Mask → Prop
  | .ref p => (w.heap p).Inv
  | .given r c el => ∀ i j, i < r → j < c → ∃ b, el i j = some b
  | _ => True

/-- The cells `Enumerate` delivers: all of them for the dense formats, the non-zero ones for the
compressed formats. -/
def Mat.Visits (m : Mat T) (i j : Nat) : Prop :=
  m.kind = .dense ∨ m.kind = .dvec ∨ m.val i j ≠ 0

/-- `a` and `b` have the same shape. -/
def SameShape (a b : Mat T) : Prop := a.rows = b.rows ∧ a.cols = b.cols

/-- How many of `g 0 … g (n-1)` are non-zero. -/
def nonzeros (n : Nat) (g : Nat → T) : Nat := ((List.range n).filter (fun l => !isZero (g l))).length

/-- What `AtVec` of a sparse vector holding `g 0 … g (n-1)` returns: positions beyond the number of
non-zero values read as 0 (sparseVector.go:191). -/
def shortRead (n : Nat) (g : Nat → T) (l : Nat) : T := if l ≤ nonzeros n g then g l else 0

/-- Every non-zero position is at most the number of non-zero values: then `shortRead` is exact. -/
def Dense0 (n : Nat) (g : Nat → T) : Prop := ∀ l, l < n → isZero (g l) = false → l ≤ nonzeros n g

/-- What multiplication sees of row `i`. -/
def Mat.rowVal (m : Mat T) (i l : Nat) : T :=
  match m.kind with
  | .csr | .csc => shortRead m.cols (fun j => m.val i j) l
  | _ => m.val i l

/-- What multiplication sees of column `j`. -/
def Mat.colVal (m : Mat T) (j l : Nat) : T :=
  match m.kind with
  | .csr | .csc => shortRead m.rows (fun i => m.val i j) l
  | _ => m.val l j

/-- The inner product as the code adds it up: from the left, starting with 0. -/
def dotSum (n : Nat) (a b : Nat → T) : T := (List.range n).foldl (fun acc l => acc + a l * b l) 0

/-- The inner product as the code adds it up when `sum += a * b` is done by `step`. -/
def dotSumBy (step : Nat → T → T → T → T) (n : Nat) (a b : Nat → T) : T :=
  (List.range n).foldl (fun acc l => step l acc (a l) (b l)) 0

/-- What multiplication sees of a column of `m` that holds `g`. -/
def Mat.seeCol (m : Mat T) (g : Nat → T) (l : Nat) : T :=
  match m.kind with
  | .csr | .csc => shortRead m.rows g l
  | _ => g l

/-- Multiplication when the output is its own right operand: the table after `k` rows. Row `k` is
computed from columns whose first `k` entries are already results. `a` is what the left operand's rows
read as, `see` how a column of the output is read, `keep` what storing does to a value. -/
def mulInto (n : Nat) (a : Nat → Nat → T) (see : (Nat → T) → Nat → T) (bit : Nat → Nat → Bool) (keep : T → T)
    (old : Nat → Nat → T) : Nat → Nat → Nat → T
  | 0 => old
  | k + 1 => fun i j =>
    if i = k then
      if bit k j then old k j else keep (dotSum n (a k) (see (fun l => mulInto n a see bit keep old k l j)))
    else mulInto n a see bit keep old k i j

/-- The operator calls that take a mask and an output. -/
inductive OpCall (T : Type) where
  | mxm (s m : Ref) | mxv (s m : Ref) | vxm (s m : Ref)
  | add (s m : Ref) | subtract (s m : Ref)
  | eMulMatrix (s m : Ref) | eMulVector (s m : Ref) | eAddMatrix (s m : Ref) | eAddVector (s m : Ref)
  | apply (s : Ref) (u : T → T) | negative (s : Ref) | transpose (s : Ref)

/-- Perform the call. -/
def OpCall.run (mask : Mask) (out : Ref) : OpCall T → M T Unit
  | .mxm s m => Ops.matrixMatrixMultiply s m mask out
  | .mxv s m => Ops.matrixVectorMultiply s m mask out
  | .vxm s m => Ops.vectorMatrixMultiply s m mask out
  | .add s m => Ops.add s m mask out
  | .subtract s m => Ops.subtract s m mask out
  | .eMulMatrix s m => Ops.elementWiseMatrixMultiply s m mask out
  | .eMulVector s m => Ops.elementWiseVectorMultiply s m mask out
  | .eAddMatrix s m => Ops.elementWiseMatrixAdd s m mask out
  | .eAddVector s m => Ops.elementWiseVectorAdd s m mask out
  | .apply s u => Ops.apply s mask u out
  | .negative s => Ops.negative s mask out
  | .transpose s => Ops.transpose s mask out

end GB
