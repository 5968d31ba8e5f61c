import Verif.Lemmas.Mat
import Verif.Model.World

/-!
# Which type names the initial registry holds
-/

namespace GB

variable {T : Type} [GoNum T]

theorem name_toList (a g b : String) : a ++ g ++ "]" = b ↔ a.toList ++ (g.toList ++ "]".toList) = b.toList := by
  rw [← String.toList_inj, String.toList_append, String.toList_append, List.append_assoc]

theorem name_ne {a g b : String} (k : Nat) (hk : k ≤ a.toList.length)
    (h : a.toList.take k ≠ b.toList.take k) : a ++ g ++ "]" ≠ b := by
  intro he
  rw [name_toList] at he
  apply h
  rw [← he, List.take_append_of_le_length hk]

theorem name_eq {a g c b : String} (hb : a ++ c ++ "]" = b) : a ++ g ++ "]" = b ↔ g = c := by
  constructor
  · intro h
    rw [← hb] at h
    have := congrArg String.toList h
    simp only [String.toList_append, List.append_cancel_right_eq, List.append_cancel_left_eq] at this
    exact String.toList_inj.1 this
  · rintro rfl; exact hb

/-- The sparse kinds. -/
def Kind.sparse : Kind → Bool
  | .csr | .csc | .svec => true
  | _ => false

theorem or3_a {p q r e : Prop} (h0 : p ↔ e) (h1 : ¬ q) (h2 : ¬ r) : p ∨ q ∨ r ↔ true = true ∧ e := by tauto
theorem or3_b {p q r e : Prop} (h0 : ¬ p) (h1 : q ↔ e) (h2 : ¬ r) : p ∨ q ∨ r ↔ true = true ∧ e := by tauto
theorem or3_c {p q r e : Prop} (h0 : ¬ p) (h1 : ¬ q) (h2 : r ↔ e) : p ∨ q ∨ r ↔ true = true ∧ e := by tauto
theorem or3_n {p q r e : Prop} (h0 : ¬ p) (h1 : ¬ q) (h2 : ¬ r) : p ∨ q ∨ r ↔ false = true ∧ e := by
  simp [h0, h1, h2]

theorem mem3 {α : Type} {x a b c : α} : x ∈ [a, b, c] ↔ x = a ∨ x = b ∨ x = c := by simp

/-- The initial registry recognises exactly the sparse formats of `float64`. -/
theorem typeName_initReg (m : Mat T) :
    m.typeName ∈ initReg ↔ m.kind.sparse = true ∧ GoNum.gname T = "float64" := by
  refine mem3.trans ?_
  cases m with
  | csr s =>
    exact or3_a
      (name_eq (a := "CSRMatrix[") (g := GoNum.gname T) (c := "float64") (b := "CSRMatrix[float64]") (by decide +kernel))
      (name_ne (a := "CSRMatrix[") (g := GoNum.gname T) (b := "CSCMatrix[float64]") 3 (by decide +kernel) (by decide +kernel))
      (name_ne (a := "CSRMatrix[") (g := GoNum.gname T) (b := "SparseVector[float64]") 3 (by decide +kernel) (by decide +kernel))
  | csc s =>
    exact or3_b
      (name_ne (a := "CSCMatrix[") (g := GoNum.gname T) (b := "CSRMatrix[float64]") 3 (by decide +kernel) (by decide +kernel))
      (name_eq (a := "CSCMatrix[") (g := GoNum.gname T) (c := "float64") (b := "CSCMatrix[float64]") (by decide +kernel))
      (name_ne (a := "CSCMatrix[") (g := GoNum.gname T) (b := "SparseVector[float64]") 3 (by decide +kernel) (by decide +kernel))
  | dense s =>
    exact or3_n
      (name_ne (a := "DenseMatrixNumber[") (g := GoNum.gname T) (b := "CSRMatrix[float64]") 3 (by decide +kernel) (by decide +kernel))
      (name_ne (a := "DenseMatrixNumber[") (g := GoNum.gname T) (b := "CSCMatrix[float64]") 3 (by decide +kernel) (by decide +kernel))
      (name_ne (a := "DenseMatrixNumber[") (g := GoNum.gname T) (b := "SparseVector[float64]") 3 (by decide +kernel) (by decide +kernel))
  | dvec s =>
    exact or3_n
      (name_ne (a := "DenseVectorNumber[") (g := GoNum.gname T) (b := "CSRMatrix[float64]") 3 (by decide +kernel) (by decide +kernel))
      (name_ne (a := "DenseVectorNumber[") (g := GoNum.gname T) (b := "CSCMatrix[float64]") 3 (by decide +kernel) (by decide +kernel))
      (name_ne (a := "DenseVectorNumber[") (g := GoNum.gname T) (b := "SparseVector[float64]") 3 (by decide +kernel) (by decide +kernel))
  | svec s =>
    exact or3_c
      (name_ne (a := "SparseVector[") (g := GoNum.gname T) (b := "CSRMatrix[float64]") 3 (by decide +kernel) (by decide +kernel))
      (name_ne (a := "SparseVector[") (g := GoNum.gname T) (b := "CSCMatrix[float64]") 3 (by decide +kernel) (by decide +kernel))
      (name_eq (a := "SparseVector[") (g := GoNum.gname T) (c := "float64") (b := "SparseVector[float64]") (by decide +kernel))

end GB
