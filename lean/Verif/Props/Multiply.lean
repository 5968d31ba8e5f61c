import Verif.Props.AddSub
import Mathlib.Algebra.BigOperators.Intervals

/-!
# Multiplication: C20, C21
-/

namespace GB

set_option linter.unusedSectionVars false
set_option linter.unusedSimpArgs false

open M Meth

/-- Every row of `m` is read back exactly by multiplication: always for dense storage; for a
compressed matrix when in each row no non-zero position exceeds the number of non-zero values. -/
def Mat.RowsFit {T : Type} [GoNum T] (m : Mat T) : Prop :=
  m.kind = .csr ∨ m.kind = .csc → ∀ i, i < m.rows → Dense0 m.cols (fun j => m.val i j)

/-- The same for columns. -/
def Mat.ColsFit {T : Type} [GoNum T] (m : Mat T) : Prop :=
  m.kind = .csr ∨ m.kind = .csc → ∀ j, j < m.cols → Dense0 m.rows (fun i => m.val i j)

section num
variable {T : Type} [GoNum T] [GoStore T]

/-- Dense storage needs no condition. -/
theorem Mat.fit_dense {m : Mat T} (h : m.kind ≠ .csr ∧ m.kind ≠ .csc) : m.RowsFit ∧ m.ColsFit :=
  ⟨fun h' => absurd h' (by tauto), fun h' => absurd h' (by tauto)⟩

theorem mulOut_ok (s m : Mat T) (hk : s.kind ≠ .svec ∧ s.kind ≠ .dvec) : (mulOut s m).WF ∧
    (mulOut s m).kind = s.kind ∧ (mulOut s m).rows = s.rows ∧ (mulOut s m).cols = m.cols := by
  cases s with
  | csr s => exact ⟨⟨_, CSR.rep_new _ _⟩, rfl, rfl, rfl⟩
  | csc s => exact ⟨⟨_, CSC.rep_new _ _⟩, rfl, rfl, rfl⟩
  | dense s => exact ⟨Dense.wf_new _ _, rfl, rfl, rfl⟩
  | dvec s => exact absurd rfl hk.2
  | svec s => exact absurd rfl hk.1

end num

section ring
variable {T : Type} [GoRing T] [GoLawful T]

theorem dotSum_eq (n : Nat) (a b : Nat → T) : dotSum n a b = ∑ l ∈ Finset.range n, a l * b l := by
  induction n with
  | zero => rfl
  | succ n ih => rw [Ops.dotSum_succ, ih, Finset.sum_range_succ]

theorem shortRead_exact {n : Nat} {g : Nat → T} (h : Dense0 n g) {l : Nat} (hl : l < n) :
    shortRead n g l = g l := by
  unfold shortRead
  split
  · rfl
  · rename_i h'
    by_contra hc
    exact h' (h l hl (by
      rw [Bool.eq_false_iff]; intro hz; exact hc ((isZero_iff _).1 hz).symm))

theorem rowVal_exact {m : Mat T} (h : m.RowsFit) {i l : Nat} (hi : i < m.rows) (hl : l < m.cols) :
    m.rowVal i l = m.val i l := by
  unfold Mat.rowVal
  cases hk : m.kind <;> simp only
  · exact shortRead_exact (h (Or.inl hk) i hi) hl
  · exact shortRead_exact (h (Or.inr hk) i hi) hl

theorem colVal_exact {m : Mat T} (h : m.ColsFit) {j l : Nat} (hj : j < m.cols) (hl : l < m.rows) :
    m.colVal j l = m.val l j := by
  unfold Mat.colVal
  cases hk : m.kind <;> simp only
  · exact shortRead_exact (h (Or.inl hk) j hj) hl
  · exact shortRead_exact (h (Or.inr hk) j hj) hl

/-- C20, the part that holds: `MatrixMatrixMultiply(A, B, mask, out)` puts `∑ A(r,l)·B(l,c)` in every
cell of `out` the mask does not protect and leaves the others, when `out` is not `B` and the
compressed operands fit (dense operands always do); `out` may be `A`. Under cancellation every cell
holds its old or its new value.

Missing: a compressed operand with a gap before its last value in some row (of `A`) or column (of
`B`): the product is then wrong (`C20_refuted`). -/
theorem C20_multiply_partial {w : World T} {s m out : Ref} {mask : Mask}
    (hs : (w.heap s).WF) (hm : (w.heap m).WF) (hout : (w.heap out).WF) (hk : (w.heap out).kind ≠ .svec)
    (h1 : (w.heap m).rows = (w.heap s).cols) (h2 : (w.heap out).rows = (w.heap s).rows)
    (h3 : (w.heap out).cols = (w.heap m).cols) (hF : mask.Fits w out) (hS : mask.Sound w) (hne : m ≠ out)
    (hr : (w.heap s).RowsFit) (hc : (w.heap m).ColsFit) :
    Writes w out (fun i j => if mask.bit w i j then (w.heap out).val i j else
        ∑ l ∈ Finset.range (w.heap s).cols, (w.heap s).val i l * (w.heap m).val l j)
      (Ops.matrixMatrixMultiply s m mask out w) := by
  refine (Ops.multiply_writes hs hm hout hk h1 h2 h3 hF hS hne).congr ?_
  intro i j hi hj
  simp only [Mat.keep_lawful, dotSum_eq]
  congr 1
  apply Finset.sum_congr rfl
  intro l hl
  have hl : l < (w.heap s).cols := Finset.mem_range.1 hl
  rw [rowVal_exact hr (by rw [← h2]; exact hi) hl, colVal_exact hc (by rw [← h3]; exact hj) (by rw [h1]; exact hl)]

/-- C20 for dense operands and any output: no condition on the contents. -/
theorem C20_multiply_dense_partial {w : World T} {s m out : Ref} {mask : Mask}
    (hs : (w.heap s).WF) (hm : (w.heap m).WF) (hout : (w.heap out).WF) (hk : (w.heap out).kind ≠ .svec)
    (hds : (w.heap s).kind = .dense ∨ (w.heap s).kind = .dvec)
    (hdm : (w.heap m).kind = .dense ∨ (w.heap m).kind = .dvec)
    (h1 : (w.heap m).rows = (w.heap s).cols) (h2 : (w.heap out).rows = (w.heap s).rows)
    (h3 : (w.heap out).cols = (w.heap m).cols) (hF : mask.Fits w out) (hS : mask.Sound w) (hne : m ≠ out) :
    Writes w out (fun i j => if mask.bit w i j then (w.heap out).val i j else
        ∑ l ∈ Finset.range (w.heap s).cols, (w.heap s).val i l * (w.heap m).val l j)
      (Ops.matrixMatrixMultiply s m mask out w) :=
  C20_multiply_partial hs hm hout hk h1 h2 h3 hF hS hne
    (Mat.fit_dense (by rcases hds with h | h <;> rw [h] <;> simp)).1
    (Mat.fit_dense (by rcases hdm with h | h <;> rw [h] <;> simp)).2

/-- C20, the part that holds of `A.Multiply(B)` for a matrix receiver: a new matrix in the format of
`A` holding the product. Missing: as above, and a vector receiver (`C20_refuted_vector`). -/
theorem C20_method_partial {w : World T} {s m : Ref} (hsn : s < w.next) (hmn : m < w.next)
    (hs : (w.heap s).WF) (hm : (w.heap m).WF) (hk : (w.heap s).kind ≠ .svec ∧ (w.heap s).kind ≠ .dvec)
    (h1 : (w.heap m).rows = (w.heap s).cols) (hr : (w.heap s).RowsFit) (hc : (w.heap m).ColsFit) :
    Returns w (w.heap s).kind (w.heap s).rows (w.heap m).cols
      (fun i j => ∑ l ∈ Finset.range (w.heap s).cols, (w.heap s).val i l * (w.heap m).val l j)
      (Meth.multiply s m w) := by
  obtain ⟨o1, o2, o3, o4⟩ := mulOut_ok (w.heap s) (w.heap m) hk
  have es := fresh_ne w (mulOut (w.heap s) (w.heap m)) hsn
  have em := fresh_ne w (mulOut (w.heap s) (w.heap m)) hmn
  have := C20_multiply_partial (w := fresh w (mulOut (w.heap s) (w.heap m))) (s := s) (m := m) (out := w.next)
    (mask := .nil) (by rw [es]; exact hs) (by rw [em]; exact hm) (by rw [fresh_next]; exact o1)
    (by rw [fresh_next, o2]; exact hk.1) (by rw [es, em]; exact h1) (by rw [es, fresh_next]; exact o3)
    (by rw [em, fresh_next]; exact o4) trivial trivial (Nat.ne_of_lt hmn) (by rw [es]; exact hr) (by rw [em]; exact hc)
  refine (returns_of_writes (m := mulOut (w.heap s) (w.heap m)) (x := do
    let out ← fun w => alloc (mulOut (w.heap s) (w.heap m)) w
    Ops.matrixMatrixMultiply s m .nil out
    pure out) rfl this o2 o3 o4).congr ?_
  intro i j hi hj
  simp [es, em, Mask.bit]

/-! ## C21 -/

/-- C21. `MatrixVectorMultiply(A, v)` for a dense matrix and a dense vector writes `A·v` into the
output vector (which may not be `v`). -/
theorem C21_mxv {w : World T} {a v out : Ref} {mask : Mask}
    (ha : (w.heap a).WF) (hv : (w.heap v).WF) (hout : (w.heap out).WF)
    (hka : (w.heap a).kind = .dense) (hkv : (w.heap v).kind = .dvec) (hko : (w.heap out).kind = .dvec)
    (h1 : (w.heap v).rows = (w.heap a).cols) (h2 : (w.heap out).rows = (w.heap a).rows)
    (hF : mask.Fits w out) (hS : mask.Sound w) (hne : v ≠ out) :
    Writes w out (fun i j => if mask.bit w i j then (w.heap out).val i j else
        ∑ l ∈ Finset.range (w.heap a).cols, (w.heap a).val i l * (w.heap v).val l 0)
      (Ops.matrixVectorMultiply a v mask out w) := by
  have c1 : (w.heap v).cols = 1 := by cases hm : w.heap v <;> simp [hm, Mat.kind] at hkv; rfl
  have c2 : (w.heap out).cols = 1 := by cases hm : w.heap out <;> simp [hm, Mat.kind] at hko; rfl
  refine (C20_multiply_dense_partial ha hv hout (by rw [hko]; simp) (Or.inl hka) (Or.inr hkv) h1 h2
    (by rw [c1, c2]) hF hS hne).congr ?_
  intro i j _ hj
  obtain rfl : j = 0 := by omega
  rfl

/-- C21, what `VectorMatrixMultiply(v, A)` computes for dense operands: `A·v`, not `v·A`; the two
agree when `A` is symmetric, and then the output is the row-vector product `∑ v(l)·A(l,i)`.

Missing: `v·A` for a matrix that is not symmetric (`C21_refuted`). -/
theorem C21_vxm_partial {w : World T} {a v out : Ref} {mask : Mask}
    (ha : (w.heap a).WF) (hv : (w.heap v).WF) (hout : (w.heap out).WF)
    (hka : (w.heap a).kind = .dense) (hkv : (w.heap v).kind = .dvec) (hko : (w.heap out).kind = .dvec)
    (h1 : (w.heap v).rows = (w.heap a).cols) (h2 : (w.heap out).rows = (w.heap a).rows)
    (hF : mask.Fits w out) (hS : mask.Sound w) (hne : v ≠ out)
    (hsym : ∀ i l, i < (w.heap a).rows → l < (w.heap a).cols → (w.heap a).val i l = (w.heap a).val l i) :
    Writes w out (fun i j => if mask.bit w i j then (w.heap out).val i j else
        ∑ l ∈ Finset.range (w.heap a).cols, (w.heap v).val l 0 * (w.heap a).val l i)
      (Ops.vectorMatrixMultiply v a mask out w) := by
  refine (C21_mxv ha hv hout hka hkv hko h1 h2 hF hS hne).congr ?_
  intro i j hi _
  congr 1
  apply Finset.sum_congr rfl
  intro l hl
  rw [hsym i l (by rw [← h2]; exact hi) (Finset.mem_range.1 hl), mul_comm]

end ring

section general
variable {T : Type} [GoNum T] [GoStore T]

/-- C20, C48. Incompatible inner dimensions, or a mask of another shape than the output: a panic,
before anything is written. -/
theorem C20_multiply_mismatch {w : World T} {s m out : Ref} {mask : Mask}
    (h : ¬ ((w.heap m).rows = (w.heap s).cols ∧ mask.Fits w out)) :
    Ops.matrixMatrixMultiply s m mask out w = .panic w := Ops.multiply_panic h

end general

/-! ## Refutations -/

/-- C20 in full, for the method. -/
def MulCorrect (T : Type) [GoRing T] : Prop :=
  ∀ (w : World T) (s m : Ref), s < w.next → m < w.next → (w.heap s).WF → (w.heap m).WF →
    (w.heap m).rows = (w.heap s).cols → (w.heap s).nvalues ≤ w.gas → (w.heap m).nvalues ≤ w.gas →
    ∃ k, Returns w k (w.heap s).rows (w.heap m).cols
      (fun i j => ∑ l ∈ Finset.range (w.heap s).cols, (w.heap s).val i l * (w.heap m).val l j)
      (Meth.multiply s m w)

/-- `[0 0 1]` as a CSR matrix. -/
def csr001 : Mat ℤ := .csr { r := 1, c := 3, values := [1], cols := [2], rowStart := [0, 1] }
/-- The column `0 0 1` as a dense matrix. -/
def col001 : Mat ℤ := .dense { r := 3, c := 1, data := [[0], [0], [1]] }

theorem csr001_reach : Reach csr001 :=
  Reach.arrCSR (data := [[0, 0, 1]]) (c := 3) (by intro row hr; simp at hr; subst hr; rfl) (by kernel_rfl)
theorem col001_reach : Reach col001 :=
  Reach.arrDense (data := [[0], [0], [1]]) (c := 1) (by intro row hr; simp at hr; rcases hr with rfl | rfl <;> rfl) (by kernel_rfl)

/-- C20, full statement: false. The CSR row `[0 0 1]` times the column `0 0 1` is 0. -/
theorem C20_refuted : ¬ MulCorrect ℤ := by
  intro h
  obtain ⟨k, this⟩ := h (World.of 9 [csr001, col001]) 0 1 (by decide) (by decide) (csr001_reach.wf (by decide))
    (col001_reach.wf (by decide)) rfl (by decide) (by decide)
  have hc := this.cell (o := .csr { r := 1, c := 1, values := [], cols := [], rowStart := [0, 0] })
    (by kernel_rfl) (i := 0) (j := 0) (by decide) (by decide)
  rw [← dotSum_eq] at hc
  exact absurd hc (by decide +kernel)

/-- C20, full statement: false for vector receivers, the output is allocated with the wrong shape: a
2×1 vector times a 1×1 matrix panics. -/
theorem C20_refuted_vector : (Meth.multiply 0 1 (World.of (T := ℤ) 9
    [.dvec { l := 2, values := [1, 1] }, .dense { r := 1, c := 1, data := [[1]] }])).isPanic = true := by
  kernel_rfl

/-- C21 in full, for `VectorMatrixMultiply` on dense operands. -/
def VxmCorrect (T : Type) [GoRing T] : Prop :=
  ∀ (w : World T) (v a out : Ref), (w.heap a).WF → (w.heap v).WF → (w.heap out).WF →
    (w.heap a).kind = .dense → (w.heap v).kind = .dvec → (w.heap out).kind = .dvec →
    (w.heap v).rows = (w.heap a).rows → (w.heap out).rows = (w.heap a).cols → v ≠ out →
    Writes w out (fun j _ => ∑ l ∈ Finset.range (w.heap a).rows, (w.heap v).val l 0 * (w.heap a).val l j)
      (Ops.vectorMatrixMultiply v a .nil out w)

/-- C21, full statement for `VectorMatrixMultiply`: false. With `A = [[0 1] [0 0]]` and `v = (1 0)` the
product `v·A` is `(0 1)`; the code delivers `(0 0)`. -/
theorem C21_refuted : ¬ VxmCorrect ℤ := by
  intro h
  have := h (World.of 9 [.dvec { l := 2, values := [1, 0] }, .dense { r := 2, c := 2, data := [[0, 1], [0, 0]] },
    .dvec { l := 2, values := [0, 0] }]) 0 1 2 ⟨rfl, by decide⟩ rfl rfl rfl rfl rfl rfl rfl (by decide)
  have hc := this.cell (o := .dvec { l := 2, values := [0, 0] }) rfl (by kernel_rfl) (i := 1) (j := 0)
    (by decide) (by decide)
  rw [← dotSum_eq] at hc
  exact absurd hc (by decide +kernel)

/-- A non-trivial product meeting the hypotheses of `C20_method_partial`: CSR times CSC. -/
example : (Meth.multiply 0 1 (World.of (T := ℤ) 9
    [.csr { r := 2, c := 2, values := [1, 2, 3], cols := [0, 1, 1], rowStart := [0, 2, 3] },
     .csc { r := 2, c := 1, values := [5, 7], rows := [0, 1], colStart := [0, 2] }])).obj =
    some (.csr { r := 2, c := 1, values := [19, 21], cols := [0, 0], rowStart := [0, 1, 2] }) := by kernel_rfl

end GB
