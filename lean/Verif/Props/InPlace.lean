import Verif.Lemmas.InPlace
import Verif.Props.AliasIff
import Verif.KernelRfl

/-!
# C77: `Transpose` of a square matrix into itself

`Transpose(ctx, s, nil, s)` reads each cell after the cells enumerated before it have been written, so one triangle
overwrites the other.
-/

namespace GB

set_option linter.unusedSectionVars false

open M

variable {T : Type} [GoNum T] [GoStore T]

/-- The claim for one matrix: the call returns, and each cell has the value its mirror cell had before. -/
def TransposedInPlace (w : World T) (s : Ref) : Prop :=
  ∃ o, (Ops.transpose s .nil s w).left s = some o ∧ SameShape o (w.heap s) ∧
    ∀ i j, i < (w.heap s).rows → j < (w.heap s).rows → o.val j i = (w.heap s).val i j

/-- C77, what the call does. In the formats enumerated by rows the part above the diagonal stays and is copied below;
in CSC the part below the diagonal stays and is copied above. This holds for the dense formats and for every matrix
whose zeros are in symmetric positions; when the context is cancelled part of the way, each cell has its old or its
final value. -/
theorem C77_result {w : World T} {s : Ref} (hs : (w.heap s).WF) (hsq : (w.heap s).rows = (w.heap s).cols)
    (hgas : (w.heap s).nvalues ≤ w.gas)
    (hz : (w.heap s).kind = .dense ∨ (w.heap s).kind = .dvec ∨ ∀ i j, i < (w.heap s).rows → j < (w.heap s).rows →
      isZero ((w.heap s).val i j) = isZero ((w.heap s).val j i)) :
    Writes w s (fun i j => if (w.heap s).kind = .csc then (w.heap s).val (max i j) (min i j)
      else (w.heap s).val (min i j) (max i j)) (Ops.transpose s .nil s w) := by
  refine (Ops.transpose_inplace_writes (mask := .nil) hs hsq trivial trivial (by simp) hgas hz).congr ?_
  intro i j hi hj
  have hb : ∀ a b, (Mask.nil).bit w a b = false := fun _ _ => rfl
  unfold mirrored
  simp only [hb, Bool.false_eq_true, if_false]
  have e1 : (w.heap s).kind = .csc → Ops.firstOf (w.heap s).kind = fun i j => decide (j < i) := by
    intro h; rw [h]; rfl
  have e2 : (w.heap s).kind ≠ .csc → Ops.firstOf (w.heap s).kind = fun i j => decide (i < j) := by
    intro h; cases hk : (w.heap s).kind <;> first | rfl | exact absurd hk h
  by_cases hk : (w.heap s).kind = .csc
  · rw [e1 hk, if_pos hk]
    rcases Nat.lt_trichotomy i j with h | rfl | h
    · rw [max_eq_right h.le, min_eq_left h.le, if_neg (by omega), if_neg (by simp; omega)]
    · simp
    · rw [max_eq_left h.le, min_eq_right h.le, if_neg (by omega), if_pos (by simp; omega)]
  · rw [e2 hk, if_neg hk]
    rcases Nat.lt_trichotomy i j with h | rfl | h
    · rw [max_eq_right h.le, min_eq_left h.le, if_neg (by omega), if_pos (by simp; omega)]
    · simp
    · rw [max_eq_left h.le, min_eq_right h.le, if_neg (by omega), if_neg (by simp; omega)]

/-- C77 with a mask (any but the matrix itself), for the formats enumerated by rows: below the diagonal a cell is copied
from above unless the mask protects the cell above; above the diagonal a cell is replaced by what the copy left below,
unless the mask protects the cell below. -/
theorem C77_masked {w : World T} {s : Ref} {mask : Mask} (hs : (w.heap s).WF) (hk : (w.heap s).kind ≠ .csc)
    (hsq : (w.heap s).rows = (w.heap s).cols) (hF : mask.Fits w s) (hS : mask.Sound w) (hmo : mask ≠ .ref s)
    (hgas : (w.heap s).nvalues ≤ w.gas)
    (hz : (w.heap s).kind = .dense ∨ (w.heap s).kind = .dvec ∨ ∀ i j, i < (w.heap s).rows → j < (w.heap s).rows →
      isZero ((w.heap s).val i j) = isZero ((w.heap s).val j i)) :
    Writes w s (fun i j =>
      if j < i ∧ mask.bit w j i = false then (w.heap s).val j i
      else if i < j ∧ mask.bit w j i = false ∧ mask.bit w i j = true then (w.heap s).val j i
      else (w.heap s).val i j) (Ops.transpose s mask s w) := by
  refine (Ops.transpose_inplace_writes hs hsq hF hS hmo hgas hz).congr ?_
  intro i j hi hj
  have e2 : Ops.firstOf (w.heap s).kind = fun i j => decide (i < j) := by
    cases hk' : (w.heap s).kind <;> first | rfl | exact absurd hk' hk
  unfold mirrored
  rw [e2]
  rcases Nat.lt_trichotomy i j with h | rfl | h
  · have h1 : ¬ (i = j) := by omega
    have h2 : ¬ (j < i) := by omega
    simp only [h1, h2, h, if_false, decide_true, if_true, false_and, true_and]
    cases mask.bit w j i <;> cases mask.bit w i j <;> simp
  · simp
  · have h1 : ¬ (i = j) := by omega
    have h2 : ¬ (i < j) := by omega
    simp only [h1, h2, h, if_false, decide_false, true_and, false_and, Bool.false_eq_true]
    cases mask.bit w j i <;> simp

/-- A square matrix of one of the formats with a single column has one cell. -/
theorem vec_zeroSym {w : World T} {s : Ref} (hk : (w.heap s).kind = .svec) (hsq : (w.heap s).rows = (w.heap s).cols) :
    ∀ i j, i < (w.heap s).rows → j < (w.heap s).rows →
      isZero ((w.heap s).val i j) = isZero ((w.heap s).val j i) := by
  have : (w.heap s).cols = 1 := by
    cases hm : w.heap s <;> simp [hm, Mat.kind] at hk; rfl
  intro i j hi hj
  obtain rfl : i = j := by omega
  rfl

theorem transposed_zeroSym {w : World T} {s : Ref} (hs : (w.heap s).WF) (hsq : (w.heap s).rows = (w.heap s).cols)
    (h : TransposedInPlace w s) :
    (w.heap s).kind = .dense ∨ (w.heap s).kind = .dvec ∨ ∀ i j, i < (w.heap s).rows → j < (w.heap s).rows →
      isZero ((w.heap s).val i j) = isZero ((w.heap s).val j i) := by
  by_cases hk : (w.heap s).kind = .csr ∨ (w.heap s).kind = .csc
  · refine Or.inr (Or.inr ?_)
    obtain ⟨o, h1, h2, h3⟩ := h
    rw [Ops.transpose_nil, bind_apply, forEach_eq] at h1
    cases hrun : loopIter s (some ()) (fun r c v => M.set s c r v >>= fun _ => pure none) w.gas (w.heap s).iter w with
    | panic w' => rw [hrun] at h1; simp [Res.left] at h1
    | hang w' => rw [hrun] at h1; simp [Res.left] at h1
    | ok x w' =>
      rw [hrun] at h1
      rw [← World.upd_self w s] at hrun
      obtain ⟨m', cn', p1, p2, p3⟩ := Ops.live_grows (w := w) (out := s) _ _ _ _ _ _ hs hk hrun
      have e : o = m' := by
        have : (pure () : M T Unit) w' = .ok () w' := rfl
        simp only [this, Res.left, Option.some.injEq] at h1
        rw [← h1, p1]; simp
      subst e
      have key : ∀ i j, i < (w.heap s).rows → j < (w.heap s).rows → isZero ((w.heap s).val i j) = false →
          isZero ((w.heap s).val j i) = false := by
        intro i j hi hj hz
        have := p3 i j (by simpa using hi) (by rw [← hsq]; simpa using hj) (by simpa using hz)
        rw [h3 j i hj hi] at this
        exact this
      intro i j hi hj
      cases h1 : isZero ((w.heap s).val i j) with
      | false => rw [key i j hi hj h1]
      | true =>
        cases h2 : isZero ((w.heap s).val j i) with
        | true => rfl
        | false => rw [key j i hj hi h2] at h1; exact h1.symm
  · cases hk' : (w.heap s).kind with
    | csr => exact absurd (Or.inl hk') hk
    | csc => exact absurd (Or.inr hk') hk
    | dense => exact Or.inl rfl
    | dvec => exact Or.inr (Or.inl rfl)
    | svec => exact Or.inr (Or.inr (vec_zeroSym hk' hsq))

/-- C77, exactly when, for every format: transposing a square matrix into itself is right if and only if the matrix is
symmetric (and then it changes nothing). -/
theorem C77_iff {w : World T} {s : Ref} (hc : w.cancel = none) (hs : (w.heap s).WF)
    (hsq : (w.heap s).rows = (w.heap s).cols) (hgas : (w.heap s).nvalues ≤ w.gas) :
    TransposedInPlace w s ↔ ∀ i j, i < (w.heap s).rows → j < (w.heap s).rows →
      (w.heap s).val i j = (w.heap s).val j i := by
  constructor
  · intro h
    have hz := transposed_zeroSym hs hsq h
    obtain ⟨o, h1, h2, h3⟩ := h
    obtain ⟨m', c, g1, -, g3, g4, -⟩ := C77_result hs hsq hgas hz
    rw [g1] at h1
    simp only [Res.left, World.upd_out, Option.some.injEq] at h1
    subst h1
    have hval := (g4 hc).2
    intro i j hi hj
    have := h3 i j hi hj
    have t := hval j i (by rw [g3.2.1]; exact hj) (by rw [g3.2.2, ← hsq]; exact hi)
    have t' := hval i j (by rw [g3.2.1]; exact hi) (by rw [g3.2.2, ← hsq]; exact hj)
    have this' := h3 j i hj hi
    rw [← this, ← this', t, t']
    simp only [max_comm j i, min_comm j i]
  · intro hsym
    obtain ⟨m', c, g1, -, g3, g4, -⟩ := C77_result hs hsq hgas
      (Or.inr (Or.inr (fun i j hi hj => by rw [hsym i j hi hj])))
    refine ⟨m', by rw [g1]; simp [Res.left], ⟨g3.2.1, g3.2.2⟩, ?_⟩
    intro i j hi hj
    rw [(g4 hc).2 j i (by rw [g3.2.1]; exact hj) (by rw [g3.2.2, ← hsq]; exact hi)]
    simp only
    rcases Nat.le_total i j with h | h
    · rw [max_eq_left h, min_eq_right h]
      split
      · exact (hsym i j hi hj).symm
      · rfl
    · rw [max_eq_right h, min_eq_left h]
      split
      · rfl
      · exact (hsym i j hi hj).symm

/-- C77 in full: every square matrix can be transposed into itself. -/
def InPlaceRight (T : Type) [GoNum T] [GoStore T] : Prop :=
  ∀ (w : World T) (s : Ref), w.cancel = none → (w.heap s).WF → (w.heap s).rows = (w.heap s).cols →
    (w.heap s).nvalues ≤ w.gas → TransposedInPlace w s

/-- C77 holds for symmetric matrices of every format.

Missing: every other matrix (`C77_iff`, `C77_refuted`). -/
theorem C77_partial {w : World T} {s : Ref} (hc : w.cancel = none) (hs : (w.heap s).WF)
    (hsq : (w.heap s).rows = (w.heap s).cols) (hgas : (w.heap s).nvalues ≤ w.gas)
    (hsym : ∀ i j, i < (w.heap s).rows → j < (w.heap s).rows → (w.heap s).val i j = (w.heap s).val j i) :
    TransposedInPlace w s := (C77_iff hc hs hsq hgas).2 hsym

/-- C77, full statement: false. -/
theorem C77_refuted : ¬ InPlaceRight ℤ := by
  intro h
  have := (C77_iff rfl (w := World.of (T := ℤ) 9 [.dense { r := 2, c := 2, data := [[1, 2], [3, 4]] }]) (s := 0)
    ⟨rfl, by decide⟩ rfl (by decide)).1 (h _ 0 rfl ⟨rfl, by decide⟩ rfl (by decide)) 0 1 (by decide) (by decide)
  exact absurd this (by decide +kernel)

/-- The dense witness: `[[1, 2], [3, 4]]` becomes `[[1, 2], [2, 4]]`. -/
example : (Ops.transpose 0 .nil 0 (World.of (T := ℤ) 9 [.dense { r := 2, c := 2, data := [[1, 2], [3, 4]] }])).left 0 =
    some (.dense { r := 2, c := 2, data := [[1, 2], [2, 4]] }) := by kernel_rfl

/-- CSC keeps the lower triangle: `[[0, 2], [3, 0]]` becomes `[[0, 3], [3, 0]]`. -/
example : (Ops.transpose 0 .nil 0 (World.of (T := ℤ) 9
      [.csc { r := 2, c := 2, values := [3, 2], rows := [1, 0], colStart := [0, 1, 2] }])).left 0 =
    some (.csc { r := 2, c := 2, values := [3, 3], rows := [1, 0], colStart := [0, 1, 2] }) := by kernel_rfl

/-- CSR with a zero opposite an entry: the entry is copied, and the original stays. -/
example : (Ops.transpose 0 .nil 0 (World.of (T := ℤ) 9
      [.csr { r := 2, c := 2, values := [5], cols := [1], rowStart := [0, 1, 1] }])).left 0 =
    some (.csr { r := 2, c := 2, values := [5, 5], cols := [1, 0], rowStart := [0, 1, 2] }) := by kernel_rfl

/-- The same on a CSR matrix of any size and any pattern: an entry is never removed, so a matrix with a zero opposite
an entry does not come out transposed. -/
theorem C77_compressed_never {w : World T} {s : Ref} (hs : (w.heap s).WF) (hsq : (w.heap s).rows = (w.heap s).cols)
    (hk : (w.heap s).kind = .csr ∨ (w.heap s).kind = .csc) {i j : Nat} (hi : i < (w.heap s).rows) (hj : j < (w.heap s).rows)
    (h1 : isZero ((w.heap s).val i j) = true) (h2 : isZero ((w.heap s).val j i) = false) :
    ¬ TransposedInPlace w s := by
  intro h
  rcases transposed_zeroSym hs hsq h with hd | hd | hz
  · rw [hd] at hk; simp at hk
  · rw [hd] at hk; simp at hk
  · rw [hz i j hi hj, h2] at h1
    simp at h1

/-- C77, cancellation: a cancelled in-place `Transpose` leaves each cell as it was or as the uncancelled call
leaves it. -/
theorem C77_cancel {w : World T} {s : Ref} (hs : (w.heap s).WF) (hsq : (w.heap s).rows = (w.heap s).cols)
    (hgas : (w.heap s).nvalues ≤ w.gas)
    (hz : (w.heap s).kind = .dense ∨ (w.heap s).kind = .dvec ∨ ∀ i j, i < (w.heap s).rows → j < (w.heap s).rows →
      isZero ((w.heap s).val i j) = isZero ((w.heap s).val j i)) :
    CancelSafe w s (Ops.transpose s .nil s) :=
  CancelSafe.of_writes (C77_result hs hsq hgas hz) (C77_result (w := { w with cancel := none }) hs hsq hgas hz)

/-- A dense matrix or vector that is not square: transposing it into itself panics. -/
theorem C77_not_square {w : World T} {s : Ref} (hc : w.cancel = none) (hs : (w.heap s).WF)
    (hk : (w.heap s).kind = .dense ∨ (w.heap s).kind = .dvec) (hsq : (w.heap s).rows ≠ (w.heap s).cols)
    (h0 : 0 < (w.heap s).rows ∧ 0 < (w.heap s).cols) (hgas : (w.heap s).nvalues ≤ w.gas) :
    (Ops.transpose s .nil s w).isPanic = true := by
  obtain ⟨es, h1, h2, h3, h4, -⟩ := Mat.visits hs
  have hbad : ∃ e ∈ es, ¬ (e.2.1 < (w.heap s).rows ∧ e.1 < (w.heap s).cols) := by
    have hv : ∀ i j, (w.heap s).Visits i j := by
      intro i j
      rcases hk with hk | hk
      · exact Or.inl hk
      · exact Or.inr (Or.inl hk)
    rcases Nat.lt_or_gt_of_ne hsq with h | h
    · obtain ⟨e, he, hce⟩ := (h4 0 (w.heap s).rows h0.1 h).2 (hv _ _)
      refine ⟨e, he, ?_⟩
      have : e.2.1 = (w.heap s).rows := by simpa [coord] using congrArg Prod.snd hce
      omega
    · obtain ⟨e, he, hce⟩ := (h4 (w.heap s).cols 0 h h0.2).2 (hv _ _)
      refine ⟨e, he, ?_⟩
      have : e.1 = (w.heap s).cols := by simpa [coord] using congrArg Prod.fst hce
      omega
  obtain ⟨m', hm'⟩ := Ops.live_panics (w := w) (out := s) w.gas (w.heap s) (w.heap s).iter es (by omega) h1 hk hbad
  have e : w.upd s (w.heap s) none = w := by rw [← hc]; exact World.upd_self w s
  rw [e] at hm'
  rw [Ops.transpose_nil, bind_panic (by rw [forEach_eq]; exact hm')]
  rfl

example : (Ops.transpose 0 .nil 0 (World.of (T := ℤ) 9 [.dense { r := 1, c := 2, data := [[1, 2]] }])).isPanic = true := by
  kernel_rfl

/-- C77, matrices that are not square: the full statement. -/
def NotSquareRejected (T : Type) [GoNum T] [GoStore T] : Prop :=
  ∀ (w : World T) (s : Ref), w.cancel = none → (w.heap s).WF → (w.heap s).rows ≠ (w.heap s).cols →
    (w.heap s).nvalues ≤ w.gas → (Ops.transpose s .nil s w).isPanic = true

/-- C77: a compressed matrix that is not square is not always rejected. The CSR matrix `[[0, 7, 0], [0, 0, 8]]` becomes
`[[0, 7, 0], [7, 0, 8]]`: the entry written into the second row is met before the 8, whose place in the transpose does not
exist. -/
theorem C77_refuted_not_square : ¬ NotSquareRejected ℤ ∧
    (Ops.transpose 0 .nil 0 (World.of (T := ℤ) 9 [.csr { r := 2, c := 3, values := [7, 8], cols := [1, 2], rowStart := [0, 1, 2] }])).left 0 =
      some (.csr { r := 2, c := 3, values := [7, 7, 8], cols := [1, 0, 2], rowStart := [0, 1, 3] }) := by
  refine ⟨fun h => ?_, by kernel_rfl⟩
  have := h (World.of (T := ℤ) 9 [.csr { r := 2, c := 3, values := [7, 8], cols := [1, 2], rowStart := [0, 1, 2] }]) 0 rfl
    ⟨[[(1, 7)], [(2, 8)]], rfl, rfl, rfl, rfl, by simp [RowSorted], by simp, by simp; decide⟩ (by decide) (by decide)
  exact absurd this (by decide +kernel)

/-- A case that meets the hypotheses of `C77_partial`: a symmetric CSR matrix. -/
example : TransposedInPlace (World.of (T := ℤ) 9
    [.csr { r := 2, c := 2, values := [7, 7], cols := [1, 0], rowStart := [0, 1, 2] }]) 0 :=
  ⟨.csr { r := 2, c := 2, values := [7, 7], cols := [1, 0], rowStart := [0, 1, 2] }, by kernel_rfl, ⟨rfl, rfl⟩, by
    intro i j hi hj
    have hi : i < 2 := hi
    have hj : j < 2 := hj
    match i, j, hi, hj with
    | 0, 0, _, _ | 0, 1, _, _ | 1, 0, _, _ | 1, 1, _, _ => decide +kernel⟩

/-- A case that meets the hypotheses of `C77_masked`: the mask protects the cell above the diagonal, so the cell below
moves up and stays below as well. -/
example : (Ops.transpose 0 (.ref 1) 0 (World.of (T := ℤ) 9 [.dense { r := 2, c := 2, data := [[1, 2], [3, 4]] },
      .dense { r := 2, c := 2, data := [[0, 1], [0, 0]] }])).left 0 =
    some (.dense { r := 2, c := 2, data := [[1, 3], [3, 4]] }) := by kernel_rfl

end GB
