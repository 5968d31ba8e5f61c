import Verif.Lemmas.Meth
import Mathlib.Algebra.GroupWithZero.Defs

/-!
# Transpose, Negative, Scalar, Add, Subtract: C15 – C19
-/

namespace GB

set_option linter.unusedSectionVars false
set_option linter.unusedSimpArgs false

section general
variable {T : Type} [GoNum T] [GoStore T]
open M Meth

/-! ## C15 -/

/-- The format `Transpose()` returns: the receiver's for matrices, a dense matrix for vectors. -/
def transKind : Kind → Kind
  | .csr => .csr
  | .csc => .csc
  | _ => .dense

/-- C15. `Transpose()` of a matrix of any format returns a new `Columns() × Rows()` matrix whose
`At(j, i)` is the operand's `At(i, j)`; everything that existed before is unchanged. -/
theorem C15_transpose {w : World T} {s : Ref} (hs : (w.heap s).WF) (hlt : s < w.next)
    (hgas : (w.heap s).nvalues ≤ w.gas) :
    Returns w (transKind (w.heap s).kind) (w.heap s).cols (w.heap s).rows
      (fun j i => (w.heap s).val i j) (Meth.transpose s w) := by
  obtain ⟨o1, o2, o3, o4, o5⟩ := transOut_ok (w.heap s)
  obtain ⟨new, h1, h2⟩ := transpose_returns hs hlt hgas o1 o2 o3 o4 o5
  have hk : (transOut (w.heap s)).kind = transKind (w.heap s).kind := by cases w.heap s <;> rfl
  refine (returns_of_writes (m := transOut (w.heap s)) rfl h1 hk o2 o3).congr ?_
  intro j i hj hi
  rw [h2 j i (by rw [o2]; exact hj) (by rw [o3]; exact hi)]
  by_cases hv : (w.heap s).Visits i j
  · have hst := Mat.visits_storable hs hi hj hv
    cases hm : w.heap s with
    | csr a => rw [hm] at hst; exact Mat.storable_keep (m := .csr (CSR.new a.c a.r)) hst
    | csc a => rw [hm] at hst; exact Mat.storable_keep (m := .csc (CSC.new a.c a.r)) hst
    | dense a => rfl
    | dvec a => rfl
    | svec a => rfl
  · rw [Mat.not_visits hv]
    unfold Mat.keep; split <;> simp [norm]

/-- C15. `TransposeToCSR` of a matrix of any format: a new CSR matrix with the transposed cells (up
to a negative float zero, which a compressed format reads back as zero). -/
theorem C15_transposeToCSR {w : World T} {s : Ref} (hs : (w.heap s).WF) (hlt : s < w.next)
    (hgas : (w.heap s).nvalues ≤ w.gas) (hcan : w.cancel = none) :
    Returns w .csr (w.heap s).cols (w.heap s).rows
      (fun j i => norm ((w.heap s).val i j)) (Ops.transposeToCSR s w) := by
  obtain ⟨new, h1, h2⟩ := transpose_returns (out := .csr (CSR.new (w.heap s).cols (w.heap s).rows)) hs hlt hgas
    ⟨_, CSR.rep_new _ _⟩ rfl rfl (by simp [Mat.kind]) (fun i j hi hj => Mat.csr_new_val _ _ hi hj)
  refine (returns_of_writes' (m := .csr (CSR.new (w.heap s).cols (w.heap s).rows))
    (x := Ops.transposeToCSR s) hcan ?_ h1 rfl rfl rfl).congr (fun j i hj hi => h2 j i hj hi)
  obtain ⟨a, b, c', d, e⟩ := w; simp only at hcan; subst hcan; rfl

/-- C15. `TransposeToCSC`. -/
theorem C15_transposeToCSC {w : World T} {s : Ref} (hs : (w.heap s).WF) (hlt : s < w.next)
    (hgas : (w.heap s).nvalues ≤ w.gas) (hcan : w.cancel = none) :
    Returns w .csc (w.heap s).cols (w.heap s).rows
      (fun j i => norm ((w.heap s).val i j)) (Ops.transposeToCSC s w) := by
  obtain ⟨new, h1, h2⟩ := transpose_returns (out := .csc (CSC.new (w.heap s).cols (w.heap s).rows)) hs hlt hgas
    ⟨_, CSC.rep_new _ _⟩ rfl rfl (by simp [Mat.kind]) (fun i j hi hj => Mat.csc_new_val _ _ hi hj)
  refine (returns_of_writes' (m := .csc (CSC.new (w.heap s).cols (w.heap s).rows))
    (x := Ops.transposeToCSC s) hcan ?_ h1 rfl rfl rfl).congr (fun j i hj hi => h2 j i hj hi)
  obtain ⟨a, b, c', d, e⟩ := w; simp only at hcan; subst hcan; rfl

/-- C15. Transposing twice: two new objects; the second has the shape and the cells of the operand,
and for the matrix formats it is field by field the operand. The gas must cover the intermediate
object (a dense one when the operand is a sparse vector). -/
theorem C15_transpose_twice {w : World T} {s : Ref} (hs : (w.heap s).WF) (hlt : s < w.next)
    (hgas : (w.heap s).nvalues ≤ w.gas) :
    ∃ p w1, Meth.transpose s w = .ok p w1 ∧ ((w1.heap p).nvalues ≤ w.gas →
      ∃ q w2, Meth.transpose p w1 = .ok q w2 ∧
        (w2.heap q).rows = (w.heap s).rows ∧ (w2.heap q).cols = (w.heap s).cols ∧
        (∀ i j, i < (w.heap s).rows → j < (w.heap s).cols → (w2.heap q).val i j = (w.heap s).val i j) ∧
        ((w.heap s).kind ≠ .dvec → (w.heap s).kind ≠ .svec → w2.heap q = w.heap s) ∧
        ∀ r, r < w.next → w2.heap r = w.heap r) := by
  obtain ⟨p, w1, h1, h2, h3, h4, h5, h6, h7, h8, h9, h10, h11, h12⟩ := C15_transpose hs hlt hgas
  refine ⟨p, w1, h1, fun hg => ?_⟩
  obtain ⟨q, w2, k1, k2, k3, k4, k5, k6, k7, k8, k9, k10, k11, k12⟩ :=
    C15_transpose (w := w1) (s := p) h8 h3 (by rw [h7]; exact hg)
  rw [h10, h11] at *
  have hv : ∀ i j, i < (w.heap s).rows → j < (w.heap s).cols → (w2.heap q).val i j = (w.heap s).val i j := by
    intro i j hi hj
    exact (k12 i j hi hj).trans (h12 j i hj hi)
  refine ⟨q, w2, k1, k10, k11, hv, ?_, ?_⟩
  · intro hd hsv
    refine Mat.ext' k8 hs ⟨?_, k10, k11⟩ (by rw [k10, k11]; exact hv)
    rw [k9, h9]
    cases hk : (w.heap s).kind <;> simp_all [transKind]
  · intro r hr
    rw [k4 r (Nat.lt_of_lt_of_le hr (Nat.le_of_lt (Nat.lt_of_le_of_lt h2 h3))), h4 r hr]

/-- The hypotheses are met by a 2×3 CSR matrix; the result is its transpose. -/
example : let w : World ℤ := World.of 9 [.csr { r := 2, c := 3, values := [5, 7], cols := [2, 0], rowStart := [0, 1, 2] }]
    (Meth.transpose 0 w).obj =
    some (.csr { r := 3, c := 2, values := [7, 5], cols := [1, 0], rowStart := [0, 1, 1, 2] }) := by intro w; kernel_rfl

end general

/-! ## C16 -/

section ring
variable {T : Type} [GoRing T] [GoLawful T]
open M Meth

theorem Mat.storable_of_ne {k : Kind} {v : T} (h : v ≠ 0) : Mat.Storable k v := by
  have : isZero v = false := by
    rw [Bool.eq_false_iff]; intro h'; exact h ((isZero_iff v).1 h')
  unfold Mat.Storable; split <;> trivial

theorem Mat.storable_ne {k : Kind} {v : T} (h : Mat.Storable k v) : k = .dense ∨ k = .dvec ∨ v ≠ 0 := by
  cases k <;> simp only [Mat.Storable] at h
  all_goals first
    | (right; right; rintro rfl; rw [isZero_zero] at h; simp at h)
    | simp

/-- C16. `Negative()` on every format returns a new matrix of the same format and shape with every
cell negated; everything that existed before is unchanged. -/
theorem C16_negative {w : World T} {s : Ref} (hs : (w.heap s).WF) (hgas : (w.heap s).nvalues ≤ w.gas) :
    Returns w (w.heap s).kind (w.heap s).rows (w.heap s).cols
      (fun i j => -((w.heap s).val i j)) (Meth.negative s w) := by
  have := Ops.negative_writes (w := fresh w (w.heap s)) (s := s) (out := w.next) (mask := .nil)
    (by rw [fresh_next]; exact hs) trivial trivial (by rw [fresh_next]; exact hgas) (by
      rw [fresh_next]
      intro i j hi hj hv _
      rcases hv with h | h | h
      · rw [h]; trivial
      · rw [h]; trivial
      · exact Mat.storable_of_ne (by simpa using h))
  refine (returns_of_writes (m := w.heap s) (x := do
    let matrix ← copy s
    Ops.negative s .nil matrix
    pure matrix) (by rw [bind_ok (copy_apply hs)]) this rfl rfl rfl).congr ?_
  intro i j hi hj
  rw [fresh_next]
  by_cases hv : (w.heap s).Visits i j
  · simp [hv, Mask.bit]
  · simp [hv, Mat.not_visits hv]

example : let w : World (SInt 8) := World.of 9 [.csc { r := 1, c := 2, values := [(0x80#8 : BitVec 8), (0x05#8 : BitVec 8)], rows := [0, 0], colStart := [0, 1, 2] }]
    (Meth.negative 0 w).obj =
    some (.csc { r := 1, c := 2, values := [(0x80#8 : BitVec 8), (0xfb#8 : BitVec 8)], rows := [0, 0], colStart := [0, 1, 2] }) := by intro w; kernel_rfl

/-! ## C17 -/

/-- C17, the part that holds: if `alpha` times a non-zero cell is never zero, or the storage is dense,
`Scalar(alpha)` returns a new matrix of the same format and shape with every cell multiplied.

Missing: for a compressed format and an `alpha` that annihilates a stored value the statement is
false (`C17_refuted`, `C17_refuted_wrap`). -/
theorem C17_scalar_partial {w : World T} {s : Ref} (alpha : T) (hs : (w.heap s).WF)
    (hgas : (w.heap s).nvalues ≤ w.gas)
    (hne : (w.heap s).kind = .dense ∨ (w.heap s).kind = .dvec ∨
      ∀ i j, i < (w.heap s).rows → j < (w.heap s).cols → (w.heap s).val i j ≠ 0 → alpha * (w.heap s).val i j ≠ 0) :
    Returns w (w.heap s).kind (w.heap s).rows (w.heap s).cols
      (fun i j => alpha * (w.heap s).val i j) (Meth.scalar s alpha w) := by
  have := Ops.mapwise (w := fresh w (w.heap s)) (out := w.next) (oc := false)
    (F := fun i j => alpha * (w.heap s).val i j) (f := fun _ _ v => pure (alpha * v))
    (by rw [fresh_next]; exact hs) (by rw [fresh_next]; exact hgas) (fun _ => rfl) (by
      rw [fresh_next]
      intro i j hi hj hv hst
      rcases hne with h | h | h
      · rw [h]; trivial
      · rw [h]; trivial
      · rcases Mat.storable_ne hst with h' | h' | h'
        · rw [h']; trivial
        · rw [h']; trivial
        · exact Mat.storable_of_ne (h i j hi hj h')) (by
      intro i j hi hj m' c h1 h2 h3
      rw [fresh_next]; rfl)
  refine (returns_of_writes (m := w.heap s) (x := Ops.scalar s alpha) (y := do
    let _ ← forMap w.next false (fun _ _ v => pure (alpha * v))
    pure ()) (by
      unfold Ops.scalar
      rw [bind_ok (copy_apply hs)]
      simp only [bind_apply]
      cases forMap w.next false (fun _ _ v => pure (alpha * v)) (fresh w (w.heap s)) <;> rfl) this rfl rfl rfl).congr ?_
  intro i j hi hj
  rw [fresh_next]
  by_cases hv : (w.heap s).Visits i j
  · simp [hv]
  · simp [hv, Mat.not_visits hv]

/-- C17 for a non-zero factor over an integral domain (in particular exact arithmetic): all formats. -/
theorem C17_scalar_nonzero_partial {w : World T} [NoZeroDivisors T] {s : Ref} {alpha : T} (ha : alpha ≠ 0)
    (hs : (w.heap s).WF) (hgas : (w.heap s).nvalues ≤ w.gas) :
    Returns w (w.heap s).kind (w.heap s).rows (w.heap s).cols
      (fun i j => alpha * (w.heap s).val i j) (Meth.scalar s alpha w) :=
  C17_scalar_partial alpha hs hgas (Or.inr (Or.inr (fun _ _ _ _ h => mul_ne_zero ha h)))

end ring

open Meth

/-- C17, full statement: false. `Scalar(0)` on the CSR matrix `[1 2]` panics, whatever the gas. -/
theorem C17_refuted : ∃ s : CSR ℤ, Reach (.csr s) ∧ ∀ gas, 2 ≤ gas → 
    (Meth.scalar 0 0 (World.of gas [.csr s])).isPanic = true := by
  refine ⟨{ r := 1, c := 2, values := [1, 2], cols := [0, 1], rowStart := [0, 2] },
    Reach.arrCSR (data := [[1, 2]]) (c := 2) (by intro row hr; simp at hr; subst hr; rfl) (by kernel_rfl), ?_⟩
  intro gas hg
  obtain ⟨n, rfl⟩ : ∃ k, gas = k + 2 := ⟨gas - 2, by omega⟩
  kernel_rfl

/-- C17, full statement: false also for a non-zero factor, by wrap-around: `Scalar(64)` on the `int8`
CSR matrix `[4 1]` panics. -/
theorem C17_refuted_wrap : ∃ s : CSR (SInt 8), Reach (.csr s) ∧ ∀ gas, 2 ≤ gas → 
    (Meth.scalar 0 (64 : SInt 8) (World.of gas [.csr s])).isPanic = true := by
  refine ⟨{ r := 1, c := 2, values := [4, 1], cols := [0, 1], rowStart := [0, 2] },
    Reach.arrCSR (data := [[4, 1]]) (c := 2) (by intro row hr; simp at hr; subst hr; rfl) (by kernel_rfl), ?_⟩
  intro gas hg
  obtain ⟨n, rfl⟩ : ∃ k, gas = k + 2 := ⟨gas - 2, by omega⟩
  kernel_rfl

example : let w : World ℤ := World.of 9 [.csr { r := 1, c := 3, values := [5, 7], cols := [0, 2], rowStart := [0, 2] }]
    (Meth.scalar 0 (-2) w).obj =
    some (.csr { r := 1, c := 3, values := [-10, -14], cols := [0, 2], rowStart := [0, 2] }) := by intro w; kernel_rfl

end GB
