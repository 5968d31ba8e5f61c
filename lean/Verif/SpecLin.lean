import Mathlib.Algebra.Field.Defs
import Mathlib.Algebra.Module.Pi
import Mathlib.LinearAlgebra.Span.Basic
import Mathlib.Algebra.BigOperators.Group.Finset.Basic

/-!
# Specification vocabulary for elimination

Tables `t : Nat → Nat → K`, of which the cells `i < n`, `j < c` count.
-/

namespace GB

variable {K : Type} [Field K]

/-- Row `i` of the table, continued by zeros. -/
def tableRow (c : Nat) (t : Nat → Nat → K) (i : Nat) : Nat → K := fun j => if j < c then t i j else 0

/-- All linear combinations of the rows. -/
def rowSpace (n c : Nat) (t : Nat → Nat → K) : Submodule K (Nat → K) :=
  Submodule.span K {v | ∃ i, i < n ∧ v = tableRow c t i}

/-- The solutions of the homogeneous system with coefficients `t`. (The solutions of a system
with right-hand side `b` are the solutions of `[A | b]` that end in `-1`.) -/
def solutions (n c : Nat) (t : Nat → Nat → K) : Set (Nat → K) :=
  {x | ∀ i, i < n → ∑ j ∈ Finset.range c, t i j * x j = 0}

/-- Reduced row echelon form: the first `ρ` rows have a leading 1, at strictly increasing columns
`p 0 < p 1 < …`, that is the only non-zero of its column; the other rows are zero. -/
def IsRREF (n c : Nat) (t : Nat → Nat → K) : Prop :=
  ∃ (ρ : Nat) (p : Nat → Nat), ρ ≤ n ∧ (∀ k, k < ρ → p k < c) ∧ (∀ k l, k < l → l < ρ → p k < p l) ∧
    (∀ k, k < ρ → t k (p k) = 1 ∧ (∀ i, i < n → i ≠ k → t i (p k) = 0) ∧ ∀ j, j < p k → t k j = 0) ∧
    ∀ i, ρ ≤ i → i < n → ∀ j, j < c → t i j = 0

end GB
