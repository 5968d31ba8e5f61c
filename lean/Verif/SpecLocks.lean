import Verif.Model.Locks
import Mathlib.Logic.Relation

/-!
# What the calls of goroutines lock, for C63
-/

namespace GB
namespace Locks

variable {n k : Nat}

/-- Somewhere in `p`, at any depth, a method that locks `y` is called. -/
inductive Calls (y : Fin k) : Prog k → Prop
  | here {w i r} : Calls y (.call w y i r)
  | inner {w x i r} : Calls y i → Calls y (.call w x i r)
  | rest {w x i r} : Calls y r → Calls y (.call w x i r)

/-- Somewhere in `p`, at any depth, a method that locks `y` for writing is called. -/
inductive CallsWrite (y : Fin k) : Prog k → Prop
  | here {i r} : CallsWrite y (.call true y i r)
  | inner {w x i r} : CallsWrite y i → CallsWrite y (.call w x i r)
  | rest {w x i r} : CallsWrite y r → CallsWrite y (.call w x i r)

/-- Somewhere in `p` a method that locks `y` is called from inside one that holds `x`. -/
inductive Nests (x y : Fin k) : Prog k → Prop
  | here {w i r} : Calls y i → Nests x y (.call w x i r)
  | inner {w z i r} : Nests x y i → Nests x y (.call w z i r)
  | rest {w z i r} : Nests x y r → Nests x y (.call w z i r)

/-- Somewhere in `p` a method that locks `x` is called from inside one that holds `x` for writing. -/
inductive SelfLock (x : Fin k) : Prog k → Prop
  | here {i r} : Calls x i → SelfLock x (.call true x i r)
  | inner {w z i r} : SelfLock x i → SelfLock x (.call w z i r)
  | rest {w z i r} : SelfLock x r → SelfLock x (.call w z i r)

/-- `x` and `y` are both locked for writing by some goroutine, and some goroutine locks `y` while it
holds `x`. -/
def Before (progs : Fin n → Prog k) (x y : Fin k) : Prop :=
  (∃ i, CallsWrite x (progs i)) ∧ (∃ i, CallsWrite y (progs i)) ∧ ∃ i, Nests x y (progs i)

/-- No sequence of locks comes before itself. -/
def Ordered (progs : Fin n → Prog k) : Prop := ∀ x, ¬ Relation.TransGen (Before progs) x x

/-- Goroutine `i` is inside a method of `x` that holds it for writing. -/
def Conf.Writing (c : Conf n k) (i : Fin n) (x : Fin k) : Prop := ∃ r, (true, x, r) ∈ (c.thr i).stack

/-- Goroutine `i` is inside a method of `x` that holds it for reading. -/
def Conf.Reading (c : Conf n k) (i : Fin n) (x : Fin k) : Prop := ∃ r, (false, x, r) ∈ (c.thr i).stack

/-- The number of calls, at all depths. -/
def Prog.size : Prog k → Nat
  | .nil => 0
  | .call _ _ i r => 1 + i.size + r.size

/-- An execution of a given number of steps. -/
inductive StepsN : Nat → Conf n k → Conf n k → Prop
  | refl {c} : StepsN 0 c c
  | tail {m c c' c''} : StepsN m c c' → Step c' c'' → StepsN (m + 1) c c''

end Locks
end GB
