import Verif.Model.Signed
import Mathlib.Tactic.NormNum
import Mathlib.Data.Int.ModEq

/-!
# Wrapping `int` arithmetic in `Size()`
-/

namespace GB

set_option linter.unusedSectionVars false

variable {T : Type} [GoNum T]

/-- The numbers a Go `int` can hold. -/
def IsInt (x : Int) : Prop := -2 ^ 63 ≤ x ∧ x < 2 ^ 63

theorem goInt_isInt (x : Int) : IsInt (goInt x) := by
  unfold goInt
  constructor
  · have := Int.le_bmod (x := x) (m := 2 ^ 64) (by norm_num)
    norm_num at this ⊢; exact this
  · have := Int.bmod_lt (x := x) (m := 2 ^ 64) (by norm_num)
    norm_num at this ⊢; exact this

theorem goInt_congr (x : Int) : goInt x ≡ x [ZMOD 2 ^ 64] := by
  have h : goInt x % (2 ^ 64 : Nat) = x % (2 ^ 64 : Nat) := Int.bmod_emod
  exact_mod_cast h

theorem goInt_of_isInt {x : Int} (h : IsInt x) : goInt x = x := by
  obtain ⟨k, hk⟩ := (goInt_congr x).symm.dvd
  have h1 := goInt_isInt x
  unfold IsInt at h h1
  omega

theorem goInt_eq_iff (x : Int) : goInt x = x ↔ IsInt x :=
  ⟨fun h => by rw [← h]; exact goInt_isInt x, goInt_of_isInt⟩

theorem Mat.size_nonneg {m : Mat T} (h : m.rows * m.cols < 2 ^ 63) : 0 ≤ m.size := by
  have key : ∀ r c : Nat, r * c < 2 ^ 63 → 0 ≤ goInt (r * c) := by
    intro r c h
    have h1 : ((r * c : Nat) : Int) < 2 ^ 63 := by exact_mod_cast h
    rw [goInt_of_isInt]
    · exact_mod_cast Nat.zero_le _
    · push_cast at h1
      exact ⟨by have : (0 : Int) ≤ r * c := by positivity
                omega, h1⟩
  cases m with
  | csr s => exact key _ _ h
  | csc s => exact key _ _ h
  | dense s => exact key _ _ h
  | dvec s => exact Int.natCast_nonneg _
  | svec s => exact Int.natCast_nonneg _

end GB
