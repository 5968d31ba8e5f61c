import Verif.Lemmas.Rref
import Mathlib.LinearAlgebra.Matrix.NonsingularInverse
import Mathlib.Algebra.BigOperators.Fin

/-!
# Row spaces, solutions and inverses
-/

namespace GB

variable {K : Type} [Field K] {n c : Nat} {t t' : Nat → Nat → K}

/-- The solution that has 1 at `j` and is determined by the pivots `p` elsewhere. -/
def freeSol (ρ : Nat) (p : Nat → Nat) (t : Nat → Nat → K) (j : Nat) : Nat → K := fun l =>
  (if l = j then 1 else 0) - ∑ k ∈ Finset.range ρ, (if l = p k then 1 else 0) * t k j

theorem freeSol_sum {ρ : Nat} {p : Nat → Nat} (h2 : ∀ k, k < ρ → p k < c) {j : Nat} (hj : j < c) (f : Nat → K) :
    ∑ l ∈ Finset.range c, f l * freeSol ρ p t j l = f j - ∑ k ∈ Finset.range ρ, f (p k) * t k j := by
  unfold freeSol
  simp only [mul_sub, Finset.sum_sub_distrib, Finset.mul_sum]
  congr 1
  · simp [hj]
  · rw [Finset.sum_comm]
    refine Finset.sum_congr rfl (fun k hk => ?_)
    rw [Finset.sum_eq_single (p k)]
    · simp
    · intro b _ hb; simp [hb]
    · intro h; exact absurd (Finset.mem_range.2 (h2 k (Finset.mem_range.1 hk))) h

/-- A system whose solutions include those of a reduced one has only combinations of its rows. -/
theorem rowSpace_le_of_solutions (h : IsRREF n c t) (hs : solutions n c t ⊆ solutions n c t') :
    rowSpace n c t' ≤ rowSpace n c t := by
  obtain ⟨ρ, p, h1, h2, -, h4, h5⟩ := h
  refine rowSpace_le (fun i hi => ?_)
  have hx : ∀ j, j < c → freeSol ρ p t j ∈ solutions n c t := by
    intro j hj r hr
    rw [freeSol_sum h2 hj (t r)]
    by_cases hρ : r < ρ
    · rw [Finset.sum_eq_single r]
      · rw [(h4 r hρ).1]; ring
      · intro k hk hne
        rw [(h4 k (Finset.mem_range.1 hk)).2.1 r hr (Ne.symm hne), zero_mul]
      · intro h; exact absurd (Finset.mem_range.2 hρ) h
    · rw [h5 r (by omega) hr j hj, Finset.sum_eq_zero]
      · ring
      · intro k hk
        have hk := Finset.mem_range.1 hk
        rw [h5 r (by omega) hr _ (h2 k hk), zero_mul]
  have e : tableRow c t' i = ∑ k ∈ Finset.range ρ, t' i (p k) • tableRow c t k := by
    funext j
    rw [Finset.sum_apply]
    by_cases hj : j < c
    · have := hs (hx j hj) i hi
      rw [freeSol_sum h2 hj (t' i)] at this
      simp only [tableRow, Pi.smul_apply, smul_eq_mul, if_pos hj]
      exact sub_eq_zero.1 this
    · simp [tableRow, hj]
  rw [e]
  exact Submodule.sum_mem _ (fun k hk => Submodule.smul_mem _ _
    (row_mem (Nat.lt_of_lt_of_le (Finset.mem_range.1 hk) h1)))

/-- A table whose rows are combinations of the rows of another one. -/
theorem rowSpace_le_mul {P : Nat → Nat → K}
    (e : ∀ i j, i < n → j < c → t' i j = ∑ k ∈ Finset.range n, P i k * t k j) :
    rowSpace n c t' ≤ rowSpace n c t := by
  refine rowSpace_le (fun i hi => ?_)
  have : tableRow c t' i = ∑ k ∈ Finset.range n, P i k • tableRow c t k := by
    funext j
    rw [Finset.sum_apply]
    by_cases hj : j < c
    · simp only [tableRow, Pi.smul_apply, smul_eq_mul, if_pos hj]
      exact e i j hi hj
    · simp [tableRow, hj]
  rw [this]
  exact Submodule.sum_mem _ (fun k hk => Submodule.smul_mem _ _ (row_mem (Finset.mem_range.1 hk)))

/-- A vector of the row space is a combination of the rows. -/
theorem rowSpace_combination {v : Nat → K} (hv : v ∈ rowSpace n c t) :
    ∃ a : Nat → K, ∀ j, j < c → v j = ∑ k ∈ Finset.range n, a k * t k j := by
  unfold rowSpace at hv
  induction hv using Submodule.span_induction with
  | mem v hv =>
    obtain ⟨i, hi, rfl⟩ := hv
    refine ⟨fun k => if k = i then 1 else 0, fun j hj => ?_⟩
    simp [tableRow, hj, hi]
  | zero => exact ⟨fun _ => 0, fun j _ => by simp⟩
  | add a b _ _ ha hb =>
    obtain ⟨x, hx⟩ := ha
    obtain ⟨y, hy⟩ := hb
    exact ⟨fun k => x k + y k, fun j hj => by
      simp only [Pi.add_apply, add_mul, Finset.sum_add_distrib, hx j hj, hy j hj]⟩
  | smul a v _ hv =>
    obtain ⟨x, hx⟩ := hv
    exact ⟨fun k => a * x k, fun j hj => by
      simp only [Pi.smul_apply, smul_eq_mul, mul_assoc, ← Finset.mul_sum, hx j hj]⟩

/-- The identity followed by anything is reduced. -/
theorem rref_identity {k : Nat} (h : ∀ i j, i < n → j < n → t i j = if i = j then 1 else 0) : IsRREF n (n + k) t := by
  refine ⟨n, id, le_refl _, fun l hl => Nat.lt_of_lt_of_le hl (Nat.le_add_right _ _), fun _ _ h _ => h,
    fun l hl => ?_, fun i hi hn => by omega⟩
  have hj : ∀ j, j < l → t l j = 0 := fun j hj => by rw [h l j hl (by omega), if_neg (by omega)]
  exact ⟨by rw [id, h l l hl hl, if_pos rfl], fun i hi hne => by rw [id, h i l hi hl, if_neg hne], hj⟩

/-- Invertible row operations keep the row space. -/
theorem rowSpace_mul {P Q : Matrix (Fin n) (Fin n) K} (hQ : Q * P = 1)
    (e : ∀ (i : Fin n) j, j < c → t' i j = ∑ k : Fin n, P i k * t k j) :
    rowSpace n c t' = rowSpace n c t := by
  apply le_antisymm
  · refine rowSpace_le_mul (P := fun i k => if h : i < n ∧ k < n then P ⟨i, h.1⟩ ⟨k, h.2⟩ else 0) (fun i j hi hj => ?_)
    rw [e ⟨i, hi⟩ j hj, Finset.sum_range]
    exact Finset.sum_congr rfl (fun k _ => by rw [dif_pos ⟨hi, k.2⟩])
  · refine rowSpace_le_mul (P := fun i k => if h : i < n ∧ k < n then Q ⟨i, h.1⟩ ⟨k, h.2⟩ else 0) (fun i j hi hj => ?_)
    rw [Finset.sum_range]
    have : ∀ k : Fin n, (if h : i < n ∧ (k : Nat) < n then Q ⟨i, h.1⟩ ⟨k, h.2⟩ else 0) * t' k j =
        ∑ l : Fin n, Q ⟨i, hi⟩ k * P k l * t l j := by
      intro k
      rw [dif_pos ⟨hi, k.2⟩, e k j hj, Finset.mul_sum]
      exact Finset.sum_congr rfl (fun l _ => by ring)
    simp only [this]
    rw [Finset.sum_comm]
    simp only [← Finset.sum_mul, ← Matrix.mul_apply, hQ, Matrix.one_apply]
    simp

end GB
