import Verif.Model.Basic

/-!
# Specification vocabulary

Small definitions the property theorems are stated with. They do not mention the internals of any
storage format.
-/

namespace GB

variable {T : Type}

/-- Driving an iterator with `HasNext`/`Next` from state `it` delivers exactly the list, in order,
and then `HasNext` is false. -/
def Yields {ι α : Type} (hasNext : ι → Bool) (step : ι → Out (ι × α)) : ι → List α → Prop
  | it, [] => hasNext it = false
  | it, e :: rest => hasNext it = true ∧ ∃ it', step it = .ok (it', e) ∧ Yields hasNext step it' rest

/-- `es` is a faithful list of the non-zero cells (and possibly some zero cells) of an `r × c`
table `val`: in range, no coordinate twice, the right values, no non-zero cell missing. -/
structure Faithful [GoNum T] (r c : Nat) (val : Nat → Nat → T) (es : List (Nat × Nat × T)) : Prop where
  range : ∀ e ∈ es, e.1 < r ∧ e.2.1 < c
  distinct : es.Pairwise (fun a b => ¬ (a.1 = b.1 ∧ a.2.1 = b.2.1))
  value : ∀ e ∈ es, val e.1 e.2.1 = e.2.2
  complete : ∀ i j, i < r → j < c → val i j ≠ 0 → (i, j, val i j) ∈ es

/-- Row-major order. -/
def RowMajor (es : List (Nat × Nat × T)) : Prop :=
  es.Pairwise (fun a b => a.1 < b.1 ∨ (a.1 = b.1 ∧ a.2.1 < b.2.1))

/-- Column-major order. -/
def ColMajor (es : List (Nat × Nat × T)) : Prop :=
  es.Pairwise (fun a b => a.2.1 < b.2.1 ∨ (a.2.1 = b.2.1 ∧ a.1 < b.1))

end GB
