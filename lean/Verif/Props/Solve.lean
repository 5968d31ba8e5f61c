import Verif.Lemmas.Solve
import Verif.Props.Reduced
import Verif.Props.Symm
import Verif.Props.Local

/-!
# Reduced as a decision procedure and as a solver: C70
-/

namespace GB

set_option linter.unusedSectionVars false

open M

/-- `Reduced(a).Equal(Reduced(b))`, with the methods of the library. -/
def sameReduced {K : Type} [GoField K] [GoLawful K] (gas : Nat) (a b : Ref) : M K Bool := do
  let p ← Reduced.reduced gas a
  let q ← Reduced.reduced gas b
  Meth.equal p q

/-- The first `n` columns of an `n`-row matrix, read through `At`. -/
def leftBlock {K : Type} [GoNum K] (n : Nat) (m : Mat K) : Matrix (Fin n) (Fin n) K :=
  Matrix.of fun i j => m.val i j

/-- The `k` columns after the first `n`, read through `At`. -/
def rightBlock {K : Type} [GoNum K] (n k : Nat) (m : Mat K) : Matrix (Fin n) (Fin k) K :=
  Matrix.of fun i j => m.val i (n + j)

section
variable {K : Type} [GoField K] [GoLawful K]

/-- C70, row equivalence: for two matrices of the same shape, both compressed or both dense, over a
field, `Reduced(a).Equal(Reduced(b))` answers true exactly when the rows of `a` and the rows of `b`
have the same linear combinations, and exactly when the two homogeneous systems have the same
solutions. -/
theorem C70_decides {w : World K} {a b : Ref} {gas : Nat} (hr : w.reg = initReg)
    (ha : (w.heap a).WF) (hb : (w.heap b).WF) (lb : b < w.next)
    (ka : (w.heap a).kind ≠ .svec) (kb : (w.heap b).kind ≠ .svec)
    (hk : (w.heap a).kind.sparse = (w.heap b).kind.sparse)
    (hrow : (w.heap b).rows = (w.heap a).rows) (hcol : (w.heap b).cols = (w.heap a).cols)
    (hg : (w.heap a).cols * (w.heap a).rows ≤ gas) (hw : (w.heap a).rows * (w.heap a).cols ≤ w.gas) :
    ∃ res w', sameReduced gas a b w = .ok res w' ∧ (∀ q, q < w.next → w'.heap q = w.heap q) ∧
      (res = true ↔ rowSpace (w.heap a).rows (w.heap a).cols (w.heap a).val =
        rowSpace (w.heap a).rows (w.heap a).cols (w.heap b).val) ∧
      (res = true ↔ solutions (w.heap a).rows (w.heap a).cols (w.heap a).val =
        solutions (w.heap a).rows (w.heap a).cols (w.heap b).val) := by
  obtain ⟨t, ⟨p, w1, h1, h2, h3, h4, h5, h6, h7, h8, h9, h10, h11, h12⟩, hR, hS, hL, -⟩ :=
    C39_reduced_partial (w := w) (s := a) (gas := gas) ha ka hg
  have eb : w1.heap b = w.heap b := h4 b lb
  obtain ⟨u, ⟨q, w2, g1, g2, g3, g4, g5, g6, g7, g8, g9, g10, g11, g12⟩, gR, gS, gL, -⟩ :=
    C39_reduced_partial (w := w1) (s := b) (gas := gas) (by rw [eb]; exact hb) (by rw [eb]; exact kb)
      (by rw [eb, hrow, hcol]; exact hg)
  rw [eb] at g9 g10 g11 g12 gR gS gL
  rw [hrow] at g10 g12 gR gS gL
  rw [hcol] at g11 g12 gR gS gL
  have ep : w2.heap p = w1.heap p := g4 p h3
  obtain ⟨res, k1, -, k2⟩ := C27_equal_partial (w := w2) (s := p) (m := q) (g6.trans (h6.trans hr))
    (by rw [ep]; exact h8) g8
    (Nat.le_trans (Mat.nvalues_le (by rw [ep]; exact h8)) (by rw [ep, h10, h11, g7, h7]; exact hw))
    (Nat.le_trans (Mat.nvalues_le g8) (by rw [g10, g11, g7, h7]; exact hw))
    (by rw [ep, h9, g9]; exact hk)
  have key : res = true ↔ ∀ i j, i < (w.heap a).rows → j < (w.heap a).cols → t i j = u i j := by
    rw [k2, ep, h10, h11]
    constructor
    · rintro ⟨-, hv⟩ i j hi hj
      rw [← h12 i j hi hj, ← g12 i j hi hj]
      exact hv i j hi hj
    · intro hv
      refine ⟨⟨h10.trans g10.symm, h11.trans g11.symm⟩, fun i j hi hj => ?_⟩
      rw [h12 i j hi hj, g12 i j hi hj]
      exact hv i j hi hj
  have hrs : res = true ↔ rowSpace (w.heap a).rows (w.heap a).cols (w.heap a).val =
        rowSpace (w.heap a).rows (w.heap a).cols (w.heap b).val := by
    rw [key, ← hS, ← gS]
    exact ⟨rowSpace_congr, fun e => rref_unique hR gR e⟩
  refine ⟨res, w2, ?_, fun k hk' => (g4 k (Nat.lt_of_lt_of_le hk' (Nat.le_trans h2 (Nat.le_of_lt h3)))).trans (h4 k hk'), hrs, ?_⟩
  · show (Reduced.reduced gas a >>= fun p => Reduced.reduced gas b >>= fun q => Meth.equal p q) w = _
    rw [bind_ok h1, bind_ok g1, k1]
  · rw [hrs]
    refine ⟨solutions_of_rowSpace, fun e => ?_⟩
    rw [← hL, ← gL] at e
    rw [← hS, ← gS]
    exact le_antisymm (rowSpace_le_of_solutions gR e.ge) (rowSpace_le_of_solutions hR e.le)

/-- C70, a matrix already in reduced row echelon form is returned unchanged; so reducing twice is
reducing once. -/
theorem C70_idempotent {w : World K} {s : Ref} {gas : Nat} (hs : (w.heap s).WF) (hk : (w.heap s).kind ≠ .svec)
    (hg : (w.heap s).cols * (w.heap s).rows ≤ gas) :
    (IsRREF (w.heap s).rows (w.heap s).cols (w.heap s).val ↔
      Returns w (w.heap s).kind (w.heap s).rows (w.heap s).cols (w.heap s).val (Reduced.reduced gas s w)) ∧
    ∃ p w' q w'', Reduced.reduced gas s w = .ok p w' ∧ Reduced.reduced gas p w' = .ok q w'' ∧
      (w''.heap p).kind = (w''.heap q).kind ∧ SameShape (w''.heap p) (w''.heap q) ∧
      ∀ i j, i < (w''.heap p).rows → j < (w''.heap p).cols → (w''.heap p).val i j = (w''.heap q).val i j := by
  obtain ⟨t, h, hR, hS, -, hU⟩ := C39_reduced_partial (w := w) (s := s) (gas := gas) hs hk hg
  have h' := h
  obtain ⟨p, w1, h1, h2, h3, h4, h5, h6, h7, h8, h9, h10, h11, h12⟩ := h'
  refine ⟨⟨fun hr => ?_, fun hr => ?_⟩, ?_⟩
  · refine ⟨p, w1, h1, h2, h3, h4, h5, h6, h7, h8, h9, h10, h11, fun i j hi hj => ?_⟩
    rw [h12 i j hi hj]
    exact hU _ hr rfl i j hi hj
  · obtain ⟨p', w1', g1, -, -, -, -, -, -, -, -, -, -, g12⟩ := hr
    rw [h1] at g1
    cases g1
    exact hR.congr (fun i j hi hj => (h12 i j hi hj).symm.trans (g12 i j hi hj))
  · obtain ⟨u, ⟨q, w2, g1, g2, g3, g4, g5, g6, g7, g8, g9, g10, g11, g12⟩, -, -, -, gU⟩ :=
      C39_reduced_partial (w := w1) (s := p) (gas := gas) h8 (by rw [h9]; exact hk) (by rw [h10, h11]; exact hg)
    have ep : w2.heap p = w1.heap p := g4 p h3
    refine ⟨p, w1, q, w2, h1, g1, by rw [ep, g9], ⟨by rw [ep, g10], by rw [ep, g11]⟩, fun i j hi hj => ?_⟩
    rw [ep] at hi hj ⊢
    rw [g12 i j hi hj]
    have hR' : IsRREF (w1.heap p).rows (w1.heap p).cols (w1.heap p).val := by
      rw [h10, h11]
      exact hR.congr (fun i j hi hj => (h12 i j hi hj).symm)
    exact (gU _ hR' rfl i j hi hj).symm

/-- C70, solving: for an `n × (n + k)` matrix `[A | B]` over a field, the first `n` columns of
`Reduced` are the identity exactly when `A` is invertible, and then the other columns are `A⁻¹ B`:
the solutions of the `k` systems `A x = b` for the columns `b` of `B`, and the inverse of `A` when
`B` is the identity. -/
theorem C70_solve {w : World K} {s : Ref} {n k gas : Nat} (hs : (w.heap s).WF) (hk : (w.heap s).kind ≠ .svec)
    (hrow : (w.heap s).rows = n) (hcol : (w.heap s).cols = n + k) (hg : (n + k) * n ≤ gas) :
    ∃ p w', Reduced.reduced gas s w = .ok p w' ∧ (∀ q, q < w.next → w'.heap q = w.heap q) ∧
      (w'.heap p).rows = n ∧ (w'.heap p).cols = n + k ∧
      (leftBlock n (w'.heap p) = 1 ↔ IsUnit (leftBlock n (w.heap s)).det) ∧
      (IsUnit (leftBlock n (w.heap s)).det →
        rightBlock n k (w'.heap p) = (leftBlock n (w.heap s))⁻¹ * rightBlock n k (w.heap s)) := by
  obtain ⟨t, ⟨p, w', h1, h2, h3, h4, h5, h6, h7, h8, h9, h10, h11, h12⟩, hR, hS, -, hU⟩ :=
    C39_reduced_partial (w := w) (s := s) (gas := gas) hs hk (by rw [hrow, hcol]; exact hg)
  rw [hrow] at h10 h12 hR hS hU
  rw [hcol] at h11 h12 hR hS hU
  -- the cells of the result when `A` is invertible
  have main : IsUnit (leftBlock n (w.heap s)).det → leftBlock n (w'.heap p) = 1 ∧
      rightBlock n k (w'.heap p) = (leftBlock n (w.heap s))⁻¹ * rightBlock n k (w.heap s) := by
    intro hA
    let P := (leftBlock n (w.heap s))⁻¹
    let t' : Nat → Nat → K := fun i j => if h : i < n then ∑ l : Fin n, P ⟨i, h⟩ l * (w.heap s).val l j else 0
    have e' : ∀ (i : Fin n) j, t' i j = ∑ l : Fin n, P i l * (w.heap s).val l j := fun i j => dif_pos i.2
    have hl : ∀ i j : Fin n, t' i j = (1 : Matrix (Fin n) (Fin n) K) i j := by
      intro i j
      rw [e', ← Matrix.nonsing_inv_mul _ hA, Matrix.mul_apply]
      rfl
    have hR' : IsRREF n (n + k) t' := rref_identity (fun i j hi hj => by
      have := hl ⟨i, hi⟩ ⟨j, hj⟩
      rw [Matrix.one_apply] at this
      simpa using this)
    have hS' : rowSpace n (n + k) t' = rowSpace n (n + k) (w.heap s).val :=
      rowSpace_mul (P := P) (Q := leftBlock n (w.heap s)) (Matrix.mul_nonsing_inv _ hA) (fun i j _ => e' i j)
    have ht := hU t' hR' hS'
    constructor
    · ext i j
      rw [← hl i j]
      exact (h12 i j i.2 (by omega)).trans (ht i j i.2 (by omega))
    · ext i j
      rw [Matrix.mul_apply]
      exact ((h12 i (n + j) i.2 (by omega)).trans (ht i (n + j) i.2 (by omega))).trans (e' i (n + j))
  refine ⟨p, w', h1, h4, h10, h11, ⟨fun h => ?_, fun h => (main h).1⟩, fun h => (main h).2⟩
  -- conversely the rows of the identity are combinations of the rows of `A`
  have hc : ∀ i : Fin n, ∃ a : Nat → K, ∀ j, j < n + k → t i j = ∑ l ∈ Finset.range n, a l * (w.heap s).val l j := by
    intro i
    obtain ⟨a, ha⟩ := rowSpace_combination (v := tableRow (n + k) t i) (hS ▸ row_mem (t := t) (c := n + k) i.2)
    exact ⟨a, fun j hj => by rw [← ha j hj, tableRow, if_pos hj]⟩
  choose a ha using hc
  have hone : (Matrix.of fun i j : Fin n => a i j) * leftBlock n (w.heap s) = 1 := by
    rw [← h]
    ext i j
    rw [Matrix.mul_apply]
    have := ha i j (by omega)
    rw [Finset.sum_range] at this
    exact this.symm.trans (h12 i j i.2 (by omega)).symm
  exact Matrix.isUnit_det_of_left_inverse hone

end

/-! ## Cases -/

/-- `[[2, 1 | 1, 0], [1, 1 | 0, 1]]` -/
def solveA : Mat ℚ := .dense ⟨2, 4, [[2, 1, 1, 0], [1, 1, 0, 1]]⟩

theorem solveA_wf : solveA.WF := ⟨rfl, by simp⟩

/-- `C70_solve` applies to it … -/
example : ∃ p w', Reduced.reduced 8 0 (World.of (T := ℚ) 10 [solveA]) = .ok p w' ∧ leftBlock 2 (w'.heap p) = 1 ∧
    rightBlock 2 2 (w'.heap p) = (leftBlock 2 solveA)⁻¹ * rightBlock 2 2 solveA := by
  obtain ⟨p, w', h1, -, -, -, h2, h3⟩ := C70_solve (w := World.of (T := ℚ) 10 [solveA]) (s := 0) (n := 2) (k := 2)
    (gas := 8) solveA_wf (by decide) rfl rfl (by decide)
  have hu : IsUnit (leftBlock 2 ((World.of (T := ℚ) 10 [solveA]).heap 0)).det := by
    rw [Matrix.det_fin_two]
    have : (leftBlock 2 ((World.of (T := ℚ) 10 [solveA]).heap 0)) 0 0 * leftBlock 2 ((World.of (T := ℚ) 10 [solveA]).heap 0) 1 1
      - leftBlock 2 ((World.of (T := ℚ) 10 [solveA]).heap 0) 0 1 * leftBlock 2 ((World.of (T := ℚ) 10 [solveA]).heap 0) 1 0 = (1 : ℚ) := by
      kernel_rfl
    rw [this]
    exact isUnit_one
  exact ⟨p, w', h1, h2.2 hu, h3 hu⟩

/-- … and the outcome is `[[1, 0 | 1, -1], [0, 1 | -1, 2]]`. -/
example : ((Reduced.reduced 8 0 (World.of (T := ℚ) 10 [solveA])).obj.bind
    fun m => match m with | .dense d => some d.data | _ => none) = some [[1, 0, 1, -1], [0, 1, -1, 2]] := by
  kernel_rfl

/-- Row-equivalent matrices of different storage: CSR `[[1, 2], [3, 4]]` and CSC `[[0, 1], [1, 0]]`. -/
def equivWorld : World ℚ := World.of (T := ℚ) 10
  [.csr ⟨2, 2, [1, 2, 3, 4], [0, 1, 0, 1], [0, 2, 4]⟩, .csc ⟨2, 2, [1, 1], [1, 0], [0, 1, 2]⟩,
   .csr ⟨2, 2, [1, 2, 2, 4], [0, 1, 0, 1], [0, 2, 4]⟩]

theorem equivWorld_a : (equivWorld.heap 0).WF :=
  Reach.wf (Reach.arrCSR (data := [[1, 2], [3, 4]]) (c := 2) (by unfold Rect; simp) (by kernel_rfl)) (by decide)

theorem equivWorld_b : (equivWorld.heap 1).WF :=
  Reach.wf (Reach.arrCSC (data := [[0, 1], [1, 0]]) (c := 2) (by unfold Rect; simp) (by kernel_rfl)) (by decide)

example : (sameReduced 4 0 1 equivWorld).val = some true := by kernel_rfl

example : (sameReduced 4 0 2 equivWorld).val = some false := by kernel_rfl

/-- So the rows of the first span the plane … -/
example : rowSpace 2 2 (equivWorld.heap 0).val = rowSpace 2 2 (equivWorld.heap 1).val := by
  obtain ⟨res, w', h1, -, h2, -⟩ := C70_decides (w := equivWorld) (a := 0) (b := 1) (gas := 4) rfl
    equivWorld_a equivWorld_b (by decide) (by decide) (by decide) rfl rfl rfl (by decide) (by decide)
  have : (sameReduced 4 0 1 equivWorld).val = some true := by kernel_rfl
  rw [h1] at this
  exact h2.1 (Option.some.inj this)

end GB
