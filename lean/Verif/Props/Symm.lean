import Verif.Props.EWise
import Verif.Props.Arith
import Verif.Model.MathPkg

/-!
# Symmetric and SkewSymmetric: C37, C38
-/

namespace GB

set_option linter.unusedSectionVars false

open M

/-- A matrix is symmetric. -/
def Mat.IsSymm {T : Type} [GoNum T] (m : Mat T) : Prop :=
  m.rows = m.cols ∧ ∀ i j, i < m.rows → j < m.cols → m.val i j = m.val j i

/-- A matrix is skew-symmetric. -/
def Mat.IsSkew {T : Type} [GoNum T] (m : Mat T) : Prop :=
  m.rows = m.cols ∧ ∀ i j, i < m.rows → j < m.cols → m.val i j = -(m.val j i)

/-- C37 in full: `Symmetric` returns, and returns true exactly for symmetric matrices. -/
def SymmetricCorrect (T : Type) [GoNum T] : Prop := ∀ (w : World T) (s : Ref), w.reg = initReg → (w.heap s).WF → s < w.next →
  (w.heap s).rows * (w.heap s).cols ≤ w.gas →
  ∃ b w', MathPkg.symmetric s w = .ok b w' ∧ (b = true ↔ (w.heap s).IsSymm)

/-- C38 in full. -/
def SkewSymmetricCorrect (T : Type) [GoNum T] : Prop := ∀ (w : World T) (s : Ref), w.reg = initReg → (w.heap s).WF → s < w.next →
  (w.heap s).rows * (w.heap s).cols ≤ w.gas →
  ∃ b w', MathPkg.skewSymmetric s w = .ok b w' ∧ (b = true ↔ (w.heap s).IsSkew)

section
variable {T : Type} [GoRing T] [GoLawful T]

theorem Mat.nvalues_le {T : Type} [GoNum T] [GoStore T] {m : Mat T} (h : m.WF) : m.nvalues ≤ m.rows * m.cols := by
  obtain ⟨es, -, hf, hl, -⟩ := Mat.entries_ok h
  have hs : (es.map (fun e => (e.1, e.2.1))) ⊆ cells m.rows m.cols := by
    intro p hp
    obtain ⟨e, he, rfl⟩ := List.mem_map.1 hp
    exact mem_cells.2 (hf.range e he)
  have := (List.subperm_of_subset hf.coords_nodup hs).length_le
  rw [cells_length, List.length_map, hl] at this
  exact this

/-- The storage class of the transpose of a matrix (not of a sparse vector) is its own. -/
theorem transKind_sparse {k : Kind} (h : k ≠ .svec) : (transKind k).sparse = k.sparse := by
  cases k <;> first | rfl | exact absurd rfl h

/-- C37, the part that holds: for every matrix, compressed or dense, and every dense vector, `Symmetric` returns true exactly
when the matrix is square and `A(i,j) = A(j,i)`; nothing that existed is changed.
Missing: sparse vectors (`C37_refuted`). -/
theorem C37_symmetric_partial {w : World T} {s : Ref} (hreg : w.reg = initReg) (hs : (w.heap s).WF) (hlt : s < w.next)
    (hg : (w.heap s).rows * (w.heap s).cols ≤ w.gas) (hk : (w.heap s).kind ≠ .svec) :
    ∃ b w', MathPkg.symmetric s w = .ok b w' ∧ (b = true ↔ (w.heap s).IsSymm) ∧ ∀ q, q < w.next → w'.heap q = w.heap q := by
  unfold MathPkg.symmetric
  rw [bind_ok (show rowsOf s w = .ok (w.heap s).rows w from rfl), bind_ok (show colsOf s w = .ok (w.heap s).cols w from rfl)]
  by_cases hsq : (w.heap s).rows = (w.heap s).cols
  swap
  · rw [if_pos hsq]
    exact ⟨false, w, rfl, by simp [Mat.IsSymm, hsq], fun _ _ => rfl⟩
  rw [if_neg (not_not.2 hsq)]
  obtain ⟨p, w', h1, h2, h3, h4, h5, h6, h7, h8, h9, h10, h11, h12⟩ :=
    C15_transpose hs hlt (Nat.le_trans (Mat.nvalues_le hs) hg)
  rw [bind_ok h1]
  have es : w'.heap s = w.heap s := h4 s hlt
  obtain ⟨b, g1, -, g2⟩ := C27_equal_partial (w := w') (s := p) (m := s) (by rw [h6]; exact hreg) h8 (by rw [es]; exact hs)
    (by
      refine Nat.le_trans (Mat.nvalues_le h8) ?_
      rw [h10, h11, h7, Nat.mul_comm]; exact hg)
    (by rw [es, h7]; exact Nat.le_trans (Mat.nvalues_le hs) hg)
    (by rw [h9, es]; exact transKind_sparse hk)
  refine ⟨b, w', g1, ?_, h4⟩
  rw [g2]
  unfold Mat.IsSymm SameShape
  rw [h10, h11, es]
  constructor
  · rintro ⟨-, hv⟩
    refine ⟨hsq, fun i j hi hj => ?_⟩
    have := hv i j (by omega) (by omega)
    rw [h12 i j (by omega) (by omega)] at this
    exact this.symm
  · rintro ⟨-, hv⟩
    refine ⟨⟨hsq.symm, hsq⟩, fun i j hi hj => ?_⟩
    rw [h12 i j hi hj]
    exact hv j i (by omega) (by omega)

/-- C38, the part that holds: for every matrix, compressed or dense, and every dense vector, `SkewSymmetric` returns true
exactly when the matrix is square and `A(i,j) = -A(j,i)`. Missing: sparse vectors (`C38_refuted`). -/
theorem C38_skewSymmetric_partial {w : World T} {s : Ref} (hreg : w.reg = initReg) (hs : (w.heap s).WF) (hlt : s < w.next)
    (hg : (w.heap s).rows * (w.heap s).cols ≤ w.gas) (hk : (w.heap s).kind ≠ .svec) :
    ∃ b w', MathPkg.skewSymmetric s w = .ok b w' ∧ (b = true ↔ (w.heap s).IsSkew) ∧ ∀ q, q < w.next → w'.heap q = w.heap q := by
  unfold MathPkg.skewSymmetric
  rw [bind_ok (show rowsOf s w = .ok (w.heap s).rows w from rfl), bind_ok (show colsOf s w = .ok (w.heap s).cols w from rfl)]
  by_cases hsq : (w.heap s).rows = (w.heap s).cols
  swap
  · rw [if_pos hsq]
    exact ⟨false, w, rfl, by simp [Mat.IsSkew, hsq], fun _ _ => rfl⟩
  rw [if_neg (not_not.2 hsq)]
  obtain ⟨n, v, n1, n2, n3, n4, n5, n6, n7, n8, n9, n10, n11, n12⟩ :=
    C16_negative hs (Nat.le_trans (Mat.nvalues_le hs) hg)
  rw [bind_ok n1]
  have hg' : (v.heap n).rows * (v.heap n).cols ≤ v.gas := by rw [n10, n11, n7]; exact hg
  obtain ⟨p, w', h1, h2, h3, h4, h5, h6, h7, h8, h9, h10, h11, h12⟩ :=
    C15_transpose n8 n3 (Nat.le_trans (Mat.nvalues_le n8) hg')
  rw [bind_ok h1]
  have hnext : w.next ≤ v.next := Nat.le_of_lt (Nat.lt_of_le_of_lt n2 n3)
  have old : ∀ q, q < w.next → w'.heap q = w.heap q := fun q hq => by
    rw [h4 q (Nat.lt_of_lt_of_le hq hnext), n4 q hq]
  have es : w'.heap s = w.heap s := old s hlt
  obtain ⟨b, g1, -, g2⟩ := C27_equal_partial (w := w') (s := p) (m := s) (by rw [h6, n6]; exact hreg) h8 (by rw [es]; exact hs)
    (by
      refine Nat.le_trans (Mat.nvalues_le h8) ?_
      rw [h10, h11, h7, Nat.mul_comm]; exact hg')
    (by rw [es, h7, n7]; exact Nat.le_trans (Mat.nvalues_le hs) hg)
    (by rw [h9, es, n9]; exact transKind_sparse hk)
  refine ⟨b, w', g1, ?_, old⟩
  rw [g2]
  unfold Mat.IsSkew SameShape
  rw [h10, h11, es, n10, n11]
  rw [n10, n11] at h12
  dsimp only at h12 n12
  constructor
  · rintro ⟨-, hv⟩
    refine ⟨hsq, fun i j hi hj => ?_⟩
    have := hv i j (by omega) (by omega)
    rw [h12 i j (by omega) (by omega), n12 j i (by omega) (by omega)] at this
    exact this.symm
  · rintro ⟨-, hv⟩
    refine ⟨⟨hsq.symm, hsq⟩, fun i j hi hj => ?_⟩
    rw [h12 i j hi hj, n12 j i (by omega) (by omega)]
    exact (hv i j (by omega) (by omega)).symm

end

/-- C37, full statement: false. The sparse vector `(0)` of integers is a 1×1 matrix; `Symmetric` says no. -/
theorem C37_refuted : ¬ SymmetricCorrect ℤ := by
  intro h
  obtain ⟨b, w', h1, h2⟩ := h (World.of (T := ℤ) 9 [.svec { l := 1, values := [], indices := [] }]) 0 rfl
    ⟨[], SVec.rep_new 1, by simp [SVec.Packed]⟩ (by decide) (by decide)
  have e : (MathPkg.symmetric 0 (World.of (T := ℤ) 9 [.svec { l := 1, values := [], indices := [] }])).val = some false := by
    kernel_rfl
  rw [h1] at e
  have e : b = false := Option.some.inj e
  rw [e] at h2
  refine absurd (h2.2 ⟨rfl, ?_⟩) (by decide)
  intro i j hi hj
  have hi : i < 1 := hi
  have hj : j < 1 := hj
  obtain rfl : i = 0 := by omega
  obtain rfl : j = 0 := by omega
  rfl

/-- C38, full statement: false, for the same vector. -/
theorem C38_refuted : ¬ SkewSymmetricCorrect ℤ := by
  intro h
  obtain ⟨b, w', h1, h2⟩ := h (World.of (T := ℤ) 9 [.svec { l := 1, values := [], indices := [] }]) 0 rfl
    ⟨[], SVec.rep_new 1, by simp [SVec.Packed]⟩ (by decide) (by decide)
  have e : (MathPkg.skewSymmetric 0 (World.of (T := ℤ) 9 [.svec { l := 1, values := [], indices := [] }])).val = some false := by
    kernel_rfl
  rw [h1] at e
  have e : b = false := Option.some.inj e
  rw [e] at h2
  refine absurd (h2.2 ⟨rfl, ?_⟩) (by decide)
  intro i j hi hj
  have hi : i < 1 := hi
  have hj : j < 1 := hj
  obtain rfl : i = 0 := by omega
  obtain rfl : j = 0 := by omega
  decide +kernel

/-- `C37_symmetric_partial` on a compressed matrix, symmetric and not. -/
example : (MathPkg.symmetric 0 (World.of (T := ℤ) 9
      [.csr { r := 2, c := 2, values := [5, 5], cols := [1, 0], rowStart := [0, 1, 2] }])).val = some true ∧
    (MathPkg.symmetric 0 (World.of (T := ℤ) 9
      [.csr { r := 2, c := 2, values := [5, 6], cols := [1, 0], rowStart := [0, 1, 2] }])).val = some false := by
  decide +kernel

/-- `C38_skewSymmetric_partial` on a compressed matrix, skew-symmetric and not. -/
example : (MathPkg.skewSymmetric 0 (World.of (T := ℤ) 9
      [.csc { r := 2, c := 2, values := [5, -5], rows := [1, 0], colStart := [0, 1, 2] }])).val = some true ∧
    (MathPkg.skewSymmetric 0 (World.of (T := ℤ) 9
      [.csc { r := 2, c := 2, values := [5, 5], rows := [1, 0], colStart := [0, 1, 2] }])).val = some false := by
  decide +kernel

end GB
