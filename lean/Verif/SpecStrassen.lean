import Verif.Model.Strassen

/-!
# Specification vocabulary for Strassen's multiplication
-/

namespace GB

/-- Halving `n` evenly some number of times brings it to at most `k`. -/
def Halves (k n : Nat) : Prop := ∃ m j, m ≤ k ∧ n = m * 2 ^ j

/-- The rows and columns of operands of order `n` that have a part in the result: all of them up to the
crossover point `k`; above it those of each half, a last odd one being dropped. -/
def kept (k n : Nat) : List Nat :=
  if n ≤ k then List.range n else kept k (n / 2) ++ (kept k (n / 2)).map (n / 2 + ·)
termination_by n
decreasing_by all_goals omega

namespace Strassen
variable {T : Type} [GoNum T]

/-- `c` is one of the calls going on in `c'`: the call itself or one made by its workers. -/
inductive Inside (c : Call T) : Call T → Prop
  | self : Inside c c
  | worker {kid m i} (k : Fin 7) : Inside c (kid k) → Inside c (.wait kid m i)

/-- Nothing more can happen: `c` has come to its end or all its goroutines are blocked. -/
def Halted (gas : Nat) (crossover : Int) (live : Bool) (c : Call T) : Prop :=
  ∀ c', ¬ Step gas crossover live c c'

/-- All executions from `c` are of bounded length, there is one, and each that goes on as far as it
can ends in a return of a matrix with property `P`. -/
structure AlwaysReturns (gas : Nat) (crossover : Int) (live : Bool) (c : Call T) (P : Mat T → Prop) : Prop where
  bounded : ∃ N, ∀ n c', Steps gas crossover live n c c' → n ≤ N
  reaches : ∃ n v, Steps gas crossover live n c (.ret v)
  ends : ∀ n c', Steps gas crossover live n c c' → Halted gas crossover live c' → ∃ v, c' = .ret v ∧ P v
  returned : ∀ n v, Steps gas crossover live n c (.ret v) → P v

theorem AlwaysReturns.mono {gas : Nat} {crossover : Int} {live : Bool} {c : Call T} {P Q : Mat T → Prop}
    (h : AlwaysReturns gas crossover live c P) (hq : ∀ v, P v → Q v) : AlwaysReturns gas crossover live c Q :=
  ⟨h.bounded, h.reaches, fun n c' hs hh => (h.ends n c' hs hh).imp fun v hv => ⟨hv.1, hq v hv.2⟩,
    fun n v hs => hq v (h.returned n v hs)⟩

end Strassen
end GB
