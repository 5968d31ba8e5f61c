import Verif.Props.Symm
import Verif.Props.Exact

/-!
# Symmetric and SkewSymmetric of sparse vectors: C37, C38
-/

namespace GB

set_option linter.unusedSectionVars false

open M

section
variable {T : Type} [GoRing T] [GoLawful T]

/-- C37 for sparse vectors, exactly: yes for a vector of length 1 of type `float64` or with a non-zero element,
otherwise no. -/
theorem C37_sparse_vector {w : World T} {s : Ref} (hreg : w.reg = initReg) (hs : (w.heap s).WF) (hlt : s < w.next)
    (hg : (w.heap s).rows * (w.heap s).cols ≤ w.gas) (hk : (w.heap s).kind = .svec) :
    ∃ b w', MathPkg.symmetric s w = .ok b w' ∧
      (b = true ↔ (w.heap s).rows = 1 ∧ (GoNum.gname T = "float64" ∨ (w.heap s).val 0 0 ≠ 0)) ∧
      ∀ q, q < w.next → w'.heap q = w.heap q := by
  have hcol : (w.heap s).cols = 1 := by
    cases hm : w.heap s <;> simp [hm, Mat.kind] at hk
    rfl
  unfold MathPkg.symmetric
  rw [bind_ok (show rowsOf s w = .ok (w.heap s).rows w from rfl), bind_ok (show colsOf s w = .ok (w.heap s).cols w from rfl)]
  by_cases hsq : (w.heap s).rows = (w.heap s).cols
  swap
  · rw [if_pos hsq]
    exact ⟨false, w, rfl, by simp [← hcol, hsq], fun _ _ => rfl⟩
  rw [if_neg (not_not.2 hsq)]
  obtain ⟨p, w', h1, h2, h3, h4, h5, h6, h7, h8, h9, h10, h11, h12⟩ :=
    C15_transpose hs hlt (Nat.le_trans (Mat.nvalues_le hs) hg)
  rw [bind_ok h1]
  have es : w'.heap s = w.heap s := h4 s hlt
  have hone : (w.heap s).rows = 1 := by rw [hsq, hcol]
  obtain ⟨b, g1, -, g2, g3⟩ := C27_mixed_exact (w := w') (s := p) (m := s) (c := s) (d := p) (by rw [h6]; exact hreg) h8
    (by rw [es]; exact hs)
    (by
      refine Nat.le_trans (Mat.nvalues_le h8) ?_
      rw [h10, h11, h7, Nat.mul_comm]; exact hg)
    (by rw [es, h7]; exact Nat.le_trans (Mat.nvalues_le hs) hg) (Or.inr ⟨rfl, rfl⟩)
    (by rw [es, hk]; rfl) (by rw [h9, hk]; rfl)
  refine ⟨b, w', g1, ?_, h4⟩
  have hsh : SameShape (w'.heap p) (w'.heap s) := ⟨by rw [h10, es, hsq], by rw [h11, es, hsq]⟩
  have h00 : (w'.heap p).val 0 0 = (w.heap s).val 0 0 := h12 0 0 (by omega) (by omega)
  have zero : ∀ i j, i < (w'.heap p).rows → j < (w'.heap p).cols → i = 0 ∧ j = 0 := by
    intro i j hi hj
    rw [h10, hcol] at hi
    rw [h11, hone] at hj
    omega
  by_cases hf : GoNum.gname T = "float64"
  · rw [g2 hf]
    refine ⟨fun _ => ⟨hone, Or.inl hf⟩, fun _ => ⟨hsh, fun i j hi hj _ => ?_⟩⟩
    obtain ⟨rfl, rfl⟩ := zero i j hi hj
    rw [h00, es]
  · rw [g3 hf]
    constructor
    · rintro ⟨-, h⟩
      refine ⟨hone, Or.inr ?_⟩
      rw [← h00]
      exact (h 0 0 (by rw [h10, hcol]; exact Nat.one_pos) (by rw [h11, hone]; exact Nat.one_pos)).2
    · rintro ⟨-, h⟩
      refine ⟨hsh, fun i j hi hj => ?_⟩
      obtain ⟨rfl, rfl⟩ := zero i j hi hj
      rw [h00, es]
      exact ⟨rfl, h.resolve_left hf⟩

/-- C37, exactly: `Symmetric` is right on every matrix and dense vector, and on a sparse vector unless it has length
1, holds 0, and its element type is not `float64`. -/
theorem C37_iff {w : World T} {s : Ref} (hreg : w.reg = initReg) (hs : (w.heap s).WF) (hlt : s < w.next)
    (hg : (w.heap s).rows * (w.heap s).cols ≤ w.gas) :
    ∃ b w', MathPkg.symmetric s w = .ok b w' ∧
      ((b = true ↔ (w.heap s).IsSymm) ↔ ¬ ((w.heap s).kind = .svec ∧ (w.heap s).rows = 1 ∧ (w.heap s).val 0 0 = 0 ∧
        GoNum.gname T ≠ "float64")) := by
  by_cases hk : (w.heap s).kind = .svec
  · have hcol : (w.heap s).cols = 1 := by
      cases hm : w.heap s <;> simp [hm, Mat.kind] at hk
      rfl
    obtain ⟨b, w', h1, h2, -⟩ := C37_sparse_vector hreg hs hlt hg hk
    refine ⟨b, w', h1, ?_⟩
    have hsym : (w.heap s).IsSymm ↔ (w.heap s).rows = 1 := by
      unfold Mat.IsSymm
      rw [hcol]
      refine ⟨fun h => h.1, fun h => ⟨h, fun i j hi hj => ?_⟩⟩
      obtain rfl : i = 0 := by omega
      obtain rfl : j = 0 := by omega
      rfl
    rw [h2, hsym]
    by_cases h1 : (w.heap s).rows = 1 <;> by_cases h2 : GoNum.gname T = "float64" <;>
      by_cases h3 : (w.heap s).val 0 0 = 0 <;> simp [h1, h2, h3, hk]
  · obtain ⟨b, w', h1, h2, -⟩ := C37_symmetric_partial hreg hs hlt hg hk
    exact ⟨b, w', h1, by simp [h2, hk]⟩

/-- C38 for sparse vectors, exactly. -/
theorem C38_sparse_vector {w : World T} {s : Ref} (hreg : w.reg = initReg) (hs : (w.heap s).WF) (hlt : s < w.next)
    (hg : (w.heap s).rows * (w.heap s).cols ≤ w.gas) (hk : (w.heap s).kind = .svec) :
    ∃ b w', MathPkg.skewSymmetric s w = .ok b w' ∧
      (b = true ↔ (w.heap s).rows = 1 ∧ (w.heap s).val 0 0 = -(w.heap s).val 0 0 ∧
        (GoNum.gname T = "float64" ∨ (w.heap s).val 0 0 ≠ 0)) ∧
      ∀ q, q < w.next → w'.heap q = w.heap q := by
  have hcol : (w.heap s).cols = 1 := by
    cases hm : w.heap s <;> simp [hm, Mat.kind] at hk
    rfl
  unfold MathPkg.skewSymmetric
  rw [bind_ok (show rowsOf s w = .ok (w.heap s).rows w from rfl), bind_ok (show colsOf s w = .ok (w.heap s).cols w from rfl)]
  by_cases hsq : (w.heap s).rows = (w.heap s).cols
  swap
  · rw [if_pos hsq]
    exact ⟨false, w, rfl, by simp [← hcol, hsq], fun _ _ => rfl⟩
  rw [if_neg (not_not.2 hsq)]
  have hone : (w.heap s).rows = 1 := by rw [hsq, hcol]
  obtain ⟨n, v, n1, n2, n3, n4, n5, n6, n7, n8, n9, n10, n11, n12⟩ :=
    C16_negative hs (Nat.le_trans (Mat.nvalues_le hs) hg)
  rw [bind_ok n1]
  have hg' : (v.heap n).rows * (v.heap n).cols ≤ v.gas := by rw [n10, n11, n7]; exact hg
  obtain ⟨p, w', h1, h2, h3, h4, h5, h6, h7, h8, h9, h10, h11, h12⟩ :=
    C15_transpose n8 n3 (Nat.le_trans (Mat.nvalues_le n8) hg')
  rw [bind_ok h1]
  have hnext : w.next ≤ v.next := Nat.le_of_lt (Nat.lt_of_le_of_lt n2 n3)
  have old : ∀ q, q < w.next → w'.heap q = w.heap q := fun q hq => by
    rw [h4 q (Nat.lt_of_lt_of_le hq hnext), n4 q hq]
  have es : w'.heap s = w.heap s := old s hlt
  obtain ⟨b, g1, -, g2, g3⟩ := C27_mixed_exact (w := w') (s := p) (m := s) (c := s) (d := p) (by rw [h6, n6]; exact hreg) h8
    (by rw [es]; exact hs)
    (by
      refine Nat.le_trans (Mat.nvalues_le h8) ?_
      rw [h10, h11, h7, Nat.mul_comm]; exact hg')
    (by rw [es, h7, n7]; exact Nat.le_trans (Mat.nvalues_le hs) hg) (Or.inr ⟨rfl, rfl⟩)
    (by rw [es, hk]; rfl) (by rw [h9, n9, hk]; rfl)
  refine ⟨b, w', g1, ?_, old⟩
  have hr : (w'.heap p).rows = 1 := by rw [h10, n11, hcol]
  have hc : (w'.heap p).cols = 1 := by rw [h11, n10, hone]
  have hsh : SameShape (w'.heap p) (w'.heap s) := ⟨by rw [hr, es, hone], by rw [hc, es, hcol]⟩
  have h00 : (w'.heap p).val 0 0 = -(w.heap s).val 0 0 := by
    rw [h12 0 0 (by rw [n11, hcol]; exact Nat.one_pos) (by rw [n10, hone]; exact Nat.one_pos)]
    exact n12 0 0 (by rw [hone]; exact Nat.one_pos) (by rw [hcol]; exact Nat.one_pos)
  have zero : ∀ i j, i < (w'.heap p).rows → j < (w'.heap p).cols → i = 0 ∧ j = 0 := by
    intro i j hi hj
    rw [hr] at hi
    rw [hc] at hj
    omega
  by_cases hf : GoNum.gname T = "float64"
  · rw [g2 hf]
    constructor
    · rintro ⟨-, h⟩
      refine ⟨hone, ?_, Or.inl hf⟩
      by_cases hz : (w.heap s).val 0 0 = 0
      · rw [hz, neg_zero]
      · have := h 0 0 (by omega) (by omega) (by rw [es]; exact hz)
        rw [h00, es] at this
        exact this.symm
    · rintro ⟨-, h, -⟩
      refine ⟨hsh, fun i j hi hj _ => ?_⟩
      obtain ⟨rfl, rfl⟩ := zero i j hi hj
      rw [h00, es, ← h]
  · rw [g3 hf]
    constructor
    · rintro ⟨-, h⟩
      have := h 0 0 (by omega) (by omega)
      rw [h00, es] at this
      refine ⟨hone, this.1.symm, Or.inr ?_⟩
      rw [← this.1]; exact this.2
    · rintro ⟨-, h, h'⟩
      refine ⟨hsh, fun i j hi hj => ?_⟩
      obtain ⟨rfl, rfl⟩ := zero i j hi hj
      rw [h00, es, ← h]
      exact ⟨rfl, h'.resolve_left hf⟩

/-- C38, exactly: right unless the argument is a sparse vector of length 1 that holds 0 and whose element type is not
`float64`. -/
theorem C38_iff {w : World T} {s : Ref} (hreg : w.reg = initReg) (hs : (w.heap s).WF) (hlt : s < w.next)
    (hg : (w.heap s).rows * (w.heap s).cols ≤ w.gas) :
    ∃ b w', MathPkg.skewSymmetric s w = .ok b w' ∧
      ((b = true ↔ (w.heap s).IsSkew) ↔ ¬ ((w.heap s).kind = .svec ∧ (w.heap s).rows = 1 ∧ (w.heap s).val 0 0 = 0 ∧
        GoNum.gname T ≠ "float64")) := by
  by_cases hk : (w.heap s).kind = .svec
  · have hcol : (w.heap s).cols = 1 := by
      cases hm : w.heap s <;> simp [hm, Mat.kind] at hk
      rfl
    obtain ⟨b, w', h1, h2, -⟩ := C38_sparse_vector hreg hs hlt hg hk
    refine ⟨b, w', h1, ?_⟩
    have hsym : (w.heap s).IsSkew ↔ (w.heap s).rows = 1 ∧ (w.heap s).val 0 0 = -(w.heap s).val 0 0 := by
      unfold Mat.IsSkew
      rw [hcol]
      refine ⟨fun h => ⟨h.1, h.2 0 0 (by omega) Nat.one_pos⟩, fun h => ⟨h.1, fun i j hi hj => ?_⟩⟩
      obtain rfl : i = 0 := by omega
      obtain rfl : j = 0 := by omega
      exact h.2
    rw [h2, hsym]
    by_cases h1 : (w.heap s).rows = 1 <;> by_cases h2 : GoNum.gname T = "float64" <;>
      by_cases h3 : (w.heap s).val 0 0 = 0 <;> simp [h1, h2, h3, hk]
  · obtain ⟨b, w', h1, h2, -⟩ := C38_skewSymmetric_partial hreg hs hlt hg hk
    exact ⟨b, w', h1, by simp [h2, hk]⟩

end

/-- A sparse vector of length 1 with a non-zero element, of 8-bit integers: -128 is its own negative. -/
def svecMin : World (SInt 8) := World.of 9 [.svec { l := 1, values := [BitVec.ofInt 8 (-128)], indices := [0] }]
example : (MathPkg.symmetric 0 svecMin).val = some true ∧ (MathPkg.skewSymmetric 0 svecMin).val = some true := by
  decide +kernel
/-- … and 5 is not; the length 2 is not square. -/
example : (MathPkg.symmetric 0 (World.of (T := ℤ) 9 [.svec { l := 1, values := [5], indices := [0] }])).val = some true ∧
    (MathPkg.skewSymmetric 0 (World.of (T := ℤ) 9 [.svec { l := 1, values := [5], indices := [0] }])).val = some false ∧
    (MathPkg.symmetric 0 (World.of (T := ℤ) 9 [.svec { l := 2, values := [5], indices := [0] }])).val = some false ∧
    (MathPkg.symmetric 0 (World.of (T := ℚ) 9 [.svec { l := 1, values := [], indices := [] }])).val = some true := by
  decide +kernel

end GB
