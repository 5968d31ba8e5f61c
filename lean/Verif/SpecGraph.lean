import Mathlib.Data.Nat.Notation
import Mathlib.Algebra.BigOperators.Group.Finset.Basic
import Mathlib.Algebra.Ring.Defs

/-!
# Specification vocabulary for graphs: walks and distance
-/

namespace GB

/-- There is a walk of `k` edges from `s` to `v`. -/
inductive Walk (E : ℕ → ℕ → Prop) (s : ℕ) : ℕ → ℕ → Prop where
  | zero : Walk E s 0 s
  | succ {k u v : ℕ} : Walk E s k u → E u v → Walk E s (k + 1) v

/-- `v` is at distance `d` from `s`: a shortest walk from `s` to `v` has `d` edges. -/
def Dist (E : ℕ → ℕ → Prop) (s d v : ℕ) : Prop := Walk E s d v ∧ ∀ k, k < d → ¬ Walk E s k v

/-- The sum, over all walks of `k` edges from `s` to `v` through vertices below `n`, of the product of
the weights of their edges; `W u v` is the weight of the edge from `u` to `v`. -/
def walkSum {T : Type} [Semiring T] (W : ℕ → ℕ → T) (n s : ℕ) : ℕ → ℕ → T
  | 0, v => if v = s then 1 else 0
  | k + 1, v => ∑ u ∈ Finset.range n, W u v * walkSum W n s k u

end GB
