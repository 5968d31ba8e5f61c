import Verif.Lemmas.InPlaceEnds
import Verif.Props.Effects

/-!
# Operating in place on a compressed matrix when results are zero (C99)

C46 compares an operator whose output is one of its operands with the same operator on a separate
output, and assumes for compressed outputs that no result is zero. A zero result removes the entry
under the iterator. This file says what happens then.
-/

namespace GB

set_option linter.unusedSectionVars false

open M

section general

variable {T : Type} [GoRing T] [GoLawful T]

/-- The claim of C99 about one call: it returns, and the stored cells that `act` selects hold the value
`f` gives for them — they are gone if it is zero —, all others are as before. -/
def ErasesRight (w : World T) (out : Ref) (act : Nat → Nat → Prop) (f : Nat → Nat → T) (run : M T Unit) : Prop :=
  ∃ o, (run w).left out = some o ∧ SameShape o (w.heap out) ∧ o.WF ∧
    ∀ i j, i < (w.heap out).rows → j < (w.heap out).cols →
      ((w.heap out).val i j ≠ 0 → act i j → o.val i j = f i j) ∧
      ((w.heap out).val i j = 0 ∨ ¬ act i j → o.val i j = (w.heap out).val i j)

/-- Among the stored cells that `act` selects, those with result zero are each the last non-zero cell
of their row (CSR) or column (CSC). -/
def ZerosLast (m : Mat T) (act : Nat → Nat → Prop) (f : Nat → Nat → T) : Prop :=
  ∀ i j, i < m.rows → j < m.cols → m.val i j ≠ 0 → act i j → f i j = 0 →
    (m.kind = .csr ∧ ∀ j', j < j' → j' < m.cols → m.val i j' = 0) ∨
    (m.kind = .csc ∧ ∀ i', i < i' → i' < m.rows → m.val i' j = 0)

theorem nonzero_or {v : T} {P : Prop} (h : v = 0 → P) : isZero v = false ∨ P := by
  by_cases hv : v = 0
  · exact Or.inr (h hv)
  · left; rw [Bool.eq_false_iff, ne_eq, isZero_iff]; exact hv

theorem ErasesRight.of_writes {w : World T} {out : Ref} {act : Nat → Nat → Prop} {f new : Nat → Nat → T}
    {run : M T Unit} (hc : w.cancel = none) (h : Writes w out new (run w))
    (hn : ∀ i j, i < (w.heap out).rows → j < (w.heap out).cols →
      ((w.heap out).val i j ≠ 0 → act i j → new i j = f i j) ∧
      ((w.heap out).val i j = 0 ∨ ¬ act i j → new i j = (w.heap out).val i j)) : ErasesRight w out act f run := by
  obtain ⟨o, c, h1, h2, h3, h4, -⟩ := h
  refine ⟨o, by rw [h1]; simp [Res.left, World.upd], ⟨h3.2.1, h3.2.2⟩, h2, ?_⟩
  intro i j hi hj
  rw [(h4 hc).2 i j (by rw [h3.2.1]; exact hi) (by rw [h3.2.2]; exact hj)]
  exact hn i j hi hj

theorem left_of_panic {w : World T} {p : Ref} {run : M T Unit} (h : (run w).isPanic = true) :
    (run w).left p = none := by
  cases hr : run w <;> rw [hr] at h <;> first | rfl | cases h

/-- C99 for `Add` whose output is the operand it enumerates (the left one if that has a registered
sparse type, otherwise the right one), the part that holds: zero sums only at the ends of rows (CSR) or
columns (CSC).

Missing: zero sums elsewhere, where it is false: `C99_refuted_panic`, `C99_refuted_wrong`,
`C99_refuted_hang`. -/
theorem C99_add_partial {w : World T} {s m out : Ref} {mask : Mask} (hc : w.cancel = none)
    (ho : (w.heap s).typeName ∈ w.reg ∧ out = s ∨ (w.heap s).typeName ∉ w.reg ∧ out = m)
    (hs : (w.heap s).WF) (hm : (w.heap m).WF) (hk : (w.heap out).kind = .csr ∨ (w.heap out).kind = .csc)
    (h1 : SameShape (w.heap s) (w.heap m)) (hF : mask.Fits w out) (hS : mask.Sound w)
    (hgas : (w.heap out).nvalues ≤ w.gas)
    (hz : ZerosLast (w.heap out) (fun i j => mask.bit w i j = false)
      (fun i j => (w.heap s).val i j + (w.heap m).val i j)) :
    ErasesRight w out (fun i j => mask.bit w i j = false) (fun i j => (w.heap s).val i j + (w.heap m).val i j)
      (Ops.add s m mask out) := by
  classical
  have e1 : Ops.addOver w s m = out := by
    unfold Ops.addOver
    rcases ho with ⟨h, rfl⟩ | ⟨h, rfl⟩
    · rw [if_pos h]
    · rw [if_neg h]
  have e2 : ∀ i j, (w.heap (Ops.addSource w s m)).val i j + (w.heap out).val i j =
      (w.heap s).val i j + (w.heap m).val i j := by
    intro i j
    unfold Ops.addSource
    rcases ho with ⟨h, rfl⟩ | ⟨h, rfl⟩
    · rw [if_pos h, add_comm]
    · rw [if_neg h]
  refine ErasesRight.of_writes hc (Ops.add_ends hs hm hk h1 e1 hF hS hgas ?_) ?_
  · intro i j hi hj hv hb
    rw [e2]
    exact nonzero_or (hz i j hi hj hv hb)
  · intro i j hi hj
    rw [e2, norm_lawful]
    exact ⟨fun hv hb => if_pos ⟨hv, hb⟩, fun h => if_neg (fun h' => by tauto)⟩

/-- C99 for `Add` on a one-row CSR or one-column CSC matrix, exactly: the sum is right if the zero sums are
at the end, otherwise the call panics. -/
theorem C99_add_iff {w : World T} {s m out : Ref} {mask : Mask} (hc : w.cancel = none)
    (ho : (w.heap s).typeName ∈ w.reg ∧ out = s ∨ (w.heap s).typeName ∉ w.reg ∧ out = m)
    (hs : (w.heap s).WF) (hm : (w.heap m).WF)
    (hl : (w.heap out).kind = .csr ∧ (w.heap out).rows = 1 ∨ (w.heap out).kind = .csc ∧ (w.heap out).cols = 1)
    (h1 : SameShape (w.heap s) (w.heap m)) (hF : mask.Fits w out) (hS : mask.Sound w)
    (hgas : (w.heap out).nvalues ≤ w.gas) :
    (ErasesRight w out (fun i j => mask.bit w i j = false) (fun i j => (w.heap s).val i j + (w.heap m).val i j)
      (Ops.add s m mask out) ↔
     ZerosLast (w.heap out) (fun i j => mask.bit w i j = false)
      (fun i j => (w.heap s).val i j + (w.heap m).val i j)) ∧
    (¬ ZerosLast (w.heap out) (fun i j => mask.bit w i j = false)
      (fun i j => (w.heap s).val i j + (w.heap m).val i j) → (Ops.add s m mask out w).isPanic = true) := by
  have hk : (w.heap out).kind = .csr ∨ (w.heap out).kind = .csc := by tauto
  have e1 : Ops.addOver w s m = out := by
    unfold Ops.addOver
    rcases ho with ⟨h, rfl⟩ | ⟨h, rfl⟩
    · rw [if_pos h]
    · rw [if_neg h]
  have e2 : ∀ i j, (w.heap (Ops.addSource w s m)).val i j + (w.heap out).val i j =
      (w.heap s).val i j + (w.heap m).val i j := by
    intro i j
    unfold Ops.addSource
    rcases ho with ⟨h, rfl⟩ | ⟨h, rfl⟩
    · rw [if_pos h, add_comm]
    · rw [if_neg h]
  have hp : ¬ ZerosLast (w.heap out) (fun i j => mask.bit w i j = false)
      (fun i j => (w.heap s).val i j + (w.heap m).val i j) → (Ops.add s m mask out w).isPanic = true := by
    intro hz
    unfold ZerosLast at hz
    push Not at hz
    obtain ⟨i, j, hi, hj, hv, hb, hf, hn⟩ := hz
    refine Ops.add_one_panics hc hs hm hl h1 e1 hF hS hgas hi hj hv hb ((isZero_iff _).2 (by rw [e2]; exact hf)) ?_
    rintro (h | h)
    · obtain ⟨j', k1, k2, k3⟩ := hn.1 h.1
      exact k3 (h.2 j' k1 k2)
    · obtain ⟨j', k1, k2, k3⟩ := hn.2 h.1
      exact k3 (h.2 j' k1 k2)
  refine ⟨⟨?_, C99_add_partial hc ho hs hm hk h1 hF hS hgas⟩, hp⟩
  rintro ⟨o, h, -⟩
  by_contra hz
  rw [left_of_panic (hp hz)] at h
  cases h

/-- C99 for `Subtract` whose output is its left operand. The loop subtracts the output's own cell
(not the right operand's), so every unmasked stored cell becomes zero; this is what happens
when no row (CSR) or column (CSC) has an unmasked stored cell before its last one. -/
theorem C99_subtract_partial {w : World T} {m out : Ref} {mask : Mask} (hc : w.cancel = none)
    (hs : (w.heap out).WF) (hk : (w.heap out).kind = .csr ∨ (w.heap out).kind = .csc)
    (h1 : SameShape (w.heap out) (w.heap m)) (hF : mask.Fits w out) (hS : mask.Sound w)
    (hgas : (w.heap out).nvalues ≤ w.gas)
    (hz : ZerosLast (w.heap out) (fun i j => mask.bit w i j = false) (fun _ _ => 0)) :
    ErasesRight w out (fun i j => mask.bit w i j = false) (fun _ _ => 0) (Ops.subtract out m mask out) := by
  classical
  refine ErasesRight.of_writes hc (Ops.subtract_ends hs hk h1 hF hS hgas ?_) ?_
  · intro i j hi hj hv hb
    exact Or.inr (hz i j hi hj hv hb rfl)
  · intro i j hi hj
    rw [norm_lawful, sub_self]
    exact ⟨fun hv hb => if_pos ⟨hv, hb⟩, fun h => if_neg (fun h' => by tauto)⟩

/-- … and on a one-row CSR or one-column CSC matrix, exactly. -/
theorem C99_subtract_iff {w : World T} {m out : Ref} {mask : Mask} (hc : w.cancel = none)
    (hs : (w.heap out).WF)
    (hl : (w.heap out).kind = .csr ∧ (w.heap out).rows = 1 ∨ (w.heap out).kind = .csc ∧ (w.heap out).cols = 1)
    (h1 : SameShape (w.heap out) (w.heap m)) (hF : mask.Fits w out) (hS : mask.Sound w)
    (hgas : (w.heap out).nvalues ≤ w.gas) :
    (ErasesRight w out (fun i j => mask.bit w i j = false) (fun _ _ => 0) (Ops.subtract out m mask out) ↔
     ZerosLast (w.heap out) (fun i j => mask.bit w i j = false) (fun _ _ => 0)) ∧
    (¬ ZerosLast (w.heap out) (fun i j => mask.bit w i j = false) (fun _ _ => 0) →
      (Ops.subtract out m mask out w).isPanic = true) := by
  have hk : (w.heap out).kind = .csr ∨ (w.heap out).kind = .csc := by tauto
  have hp : ¬ ZerosLast (w.heap out) (fun i j => mask.bit w i j = false) (fun _ _ => 0) →
      (Ops.subtract out m mask out w).isPanic = true := by
    intro hz
    unfold ZerosLast at hz
    push Not at hz
    obtain ⟨i, j, hi, hj, hv, hb, hf, hn⟩ := hz
    refine Ops.subtract_one_panics hc hs hl h1 hF hS hgas hi hj hv hb ((isZero_iff _).2 (sub_self _)) ?_
    rintro (h | h)
    · obtain ⟨j', k1, k2, k3⟩ := hn.1 h.1
      exact k3 (h.2 j' k1 k2)
    · obtain ⟨j', k1, k2, k3⟩ := hn.2 h.1
      exact k3 (h.2 j' k1 k2)
  refine ⟨⟨?_, C99_subtract_partial hc hs hk h1 hF hS hgas⟩, hp⟩
  rintro ⟨o, h, -⟩
  by_contra hz
  rw [left_of_panic (hp hz)] at h
  cases h

/-- C99 for `Apply` in place (which acts on the cells where the mask is set, C26): the operator may give
zero at the ends of rows (CSR) or columns (CSC). -/
theorem C99_apply_partial {w : World T} {out : Ref} {mask : Mask} {u : T → T} (hc : w.cancel = none)
    (hs : (w.heap out).WF) (hk : (w.heap out).kind = .csr ∨ (w.heap out).kind = .csc)
    (hF : mask.Fits w out) (hS : mask.Sound w) (hgas : (w.heap out).nvalues ≤ w.gas)
    (hz : ZerosLast (w.heap out) (fun i j => mask.bit w i j = true) (fun i j => u ((w.heap out).val i j))) :
    ErasesRight w out (fun i j => mask.bit w i j = true) (fun i j => u ((w.heap out).val i j))
      (Ops.apply out mask u out) := by
  classical
  refine ErasesRight.of_writes hc (Ops.apply_ends hs hk hF hS hgas ?_) ?_
  · intro i j hi hj hv hb
    exact nonzero_or (hz i j hi hj hv hb)
  · intro i j hi hj
    rw [norm_lawful]
    refine ⟨fun hv hb => by rw [if_pos hv, if_pos hb], fun h => ?_⟩
    by_cases hv : (w.heap out).val i j = 0
    · rw [if_neg (fun h' => h' hv)]
    · rw [if_pos hv, if_neg (fun hb => by tauto)]

end general

/-! ## Refutations and examples -/

/-- C99, full statement: false. `[1 1] + [-1 0]` in place panics: the second entry moves to where the
iterator has already been. -/
theorem C99_refuted_panic : ∃ w : World ℚ, w.cancel = none ∧ (w.heap 0).WF ∧ (w.heap 1).WF ∧
    ∀ gas, 2 ≤ gas → (Ops.add 0 1 .nil 0 { w with gas := gas }).isPanic = true := by
  refine ⟨World.of 9 [.csr { r := 1, c := 2, values := [1, 1], cols := [0, 1], rowStart := [0, 2] },
    .csr { r := 1, c := 2, values := [-1], cols := [0], rowStart := [0, 1] }], rfl, ?_, ?_, ?_⟩
  · exact (Reach.arrCSR (data := [[1, 1]]) (c := 2) (by intro row hr; simp at hr; subst hr; rfl) (by kernel_rfl)).wf (by decide)
  · exact (Reach.arrCSR (data := [[-1, 0]]) (c := 2) (by intro row hr; simp at hr; subst hr; rfl) (by kernel_rfl)).wf (by decide)
  · intro gas hg
    obtain ⟨g, rfl⟩ : ∃ g, gas = g + 2 := ⟨gas - 2, by omega⟩
    kernel_rfl

/-- … or the call returns with wrong cells: `[[1 2] [0 1]] + [[-1 0] [0 0]]` in place leaves
`[[0 1] [0 1]]`; the iterator takes the entry of the second row for one of the first. -/
theorem C99_refuted_wrong : ∃ w : World ℚ, w.cancel = none ∧ (w.heap 0).WF ∧ (w.heap 1).WF ∧
    (w.heap 0).val 0 1 + (w.heap 1).val 0 1 = 2 ∧
    ∀ gas, 3 ≤ gas → ∃ o, (Ops.add 0 1 .nil 0 { w with gas := gas }).left 0 = some o ∧ o.val 0 1 = 1 := by
  refine ⟨World.of 9 [.csr { r := 2, c := 2, values := [1, 2, 1], cols := [0, 1, 1], rowStart := [0, 2, 3] },
    .csr { r := 2, c := 2, values := [-1], cols := [0], rowStart := [0, 1, 1] }], rfl, ?_, ?_, ?_, ?_⟩
  · exact (Reach.arrCSR (data := [[1, 2], [0, 1]]) (c := 2) (by intro row hr; simp at hr; rcases hr with rfl | rfl <;> rfl)
      (by kernel_rfl)).wf (by decide)
  · exact (Reach.arrCSR (data := [[-1, 0], [0, 0]]) (c := 2) (by intro row hr; simp at hr; rcases hr with rfl | rfl <;> rfl)
      (by kernel_rfl)).wf (by decide)
  · decide +kernel
  · intro gas hg
    obtain ⟨g, rfl⟩ : ∃ g, gas = g + 3 := ⟨gas - 3, by omega⟩
    exact ⟨.csr { r := 2, c := 2, values := [1, 1], cols := [1, 1], rowStart := [0, 1, 2] },
      by cases g <;> kernel_rfl, by decide +kernel⟩

/-- … or the call never returns: `[[1 1] [1 0]] + [[-1 0] [0 0]]` in place. -/
theorem C99_refuted_hang : ∃ w : World ℚ, w.cancel = none ∧ (w.heap 0).WF ∧ (w.heap 1).WF ∧
    ∀ gas, (Ops.add 0 1 .nil 0 { w with gas := gas }).isHang = true := by
  refine ⟨World.of 9 [.csr { r := 2, c := 2, values := [1, 1, 1], cols := [0, 1, 0], rowStart := [0, 2, 3] },
    .csr { r := 2, c := 2, values := [-1], cols := [0], rowStart := [0, 1, 1] }], rfl, ?_, ?_, ?_⟩
  · exact (Reach.arrCSR (data := [[1, 1], [1, 0]]) (c := 2) (by intro row hr; simp at hr; rcases hr with rfl | rfl <;> rfl)
      (by kernel_rfl)).wf (by decide)
  · exact (Reach.arrCSR (data := [[-1, 0], [0, 0]]) (c := 2) (by intro row hr; simp at hr; rcases hr with rfl | rfl <;> rfl)
      (by kernel_rfl)).wf (by decide)
  · intro gas
    rcases gas with _ | _ | g <;> kernel_rfl

/-- … and `Apply` in place panics when the operator gives zero at the first of two entries of a row. -/
theorem C99_refuted_apply : ∃ w : World ℚ, w.cancel = none ∧ (w.heap 0).WF ∧ (w.heap 1).WF ∧
    ∀ gas, 2 ≤ gas → (Ops.apply 0 (.ref 1) (fun v => v - 1) 0 { w with gas := gas }).isPanic = true := by
  refine ⟨World.of 9 [.csr { r := 1, c := 2, values := [1, 2], cols := [0, 1], rowStart := [0, 2] },
    .csr { r := 1, c := 2, values := [1, 1], cols := [0, 1], rowStart := [0, 2] }], rfl, ?_, ?_, ?_⟩
  · exact (Reach.arrCSR (data := [[1, 2]]) (c := 2) (by intro row hr; simp at hr; subst hr; rfl) (by kernel_rfl)).wf (by decide)
  · exact (Reach.arrCSR (data := [[1, 1]]) (c := 2) (by intro row hr; simp at hr; subst hr; rfl) (by kernel_rfl)).wf (by decide)
  · intro gas hg
    obtain ⟨g, rfl⟩ : ∃ g, gas = g + 2 := ⟨gas - 2, by omega⟩
    kernel_rfl

/-- `Apply` in place with a zero at the end of the row, as in `C99_apply_partial`. -/
example : (Ops.apply 0 (.ref 1) (fun v => v - 2) 0 (World.of (T := ℚ) 9
      [.csr { r := 1, c := 2, values := [1, 2], cols := [0, 1], rowStart := [0, 2] },
       .csr { r := 1, c := 2, values := [1, 1], cols := [0, 1], rowStart := [0, 2] }])).left 0 =
    some (.csr { r := 1, c := 2, values := [-1], cols := [0], rowStart := [0, 1] }) := by kernel_rfl

/-- Zero sums at the ends of rows, as in `C99_add_partial`: `[[1 2] [3 4]] + [[5 -2] [0 -4]]`. -/
example : (Ops.add 0 1 .nil 0 (World.of (T := ℚ) 9
      [.csr { r := 2, c := 2, values := [1, 2, 3, 4], cols := [0, 1, 0, 1], rowStart := [0, 2, 4] },
       .csr { r := 2, c := 2, values := [5, -2, -4], cols := [0, 1, 1], rowStart := [0, 2, 3] }])).left 0 =
    some (.csr { r := 2, c := 2, values := [6, 3], cols := [0, 0], rowStart := [0, 1, 2] }) := by kernel_rfl

/-- In columns: `[[1 2] [3 4]] + [[5 0] [-3 -4]]`, CSC. -/
example : (Ops.add 0 1 .nil 0 (World.of (T := ℚ) 9
      [.csc { r := 2, c := 2, values := [1, 3, 2, 4], rows := [0, 1, 0, 1], colStart := [0, 2, 4] },
       .csc { r := 2, c := 2, values := [5, -3, -4], rows := [0, 1, 1], colStart := [0, 2, 3] }])).left 0 =
    some (.csc { r := 2, c := 2, values := [6, 2], rows := [0, 0], colStart := [0, 1, 2] }) := by kernel_rfl

/-- Zeros elsewhere sometimes do no harm: `[[1 1] [0 1]] + [[-1 0] [0 0]]`. The condition of
`C99_add_partial` is sufficient, and necessary only on one line (`C99_add_iff`). -/
example : (Ops.add 0 1 .nil 0 (World.of (T := ℚ) 9
      [.csr { r := 2, c := 2, values := [1, 1, 1], cols := [0, 1, 1], rowStart := [0, 2, 3] },
       .csr { r := 2, c := 2, values := [-1], cols := [0], rowStart := [0, 1, 1] }])).left 0 =
    some (.csr { r := 2, c := 2, values := [1, 1], cols := [1, 1], rowStart := [0, 1, 2] }) := by kernel_rfl

/-- A one-row matrix with its zero sum at the end, and `Subtract` on the only entry of each row. -/
example : (Ops.add 0 1 .nil 0 (World.of (T := ℚ) 9
      [.csr { r := 1, c := 3, values := [1, 2], cols := [0, 2], rowStart := [0, 2] },
       .csr { r := 1, c := 3, values := [7, -2], cols := [0, 2], rowStart := [0, 2] }])).left 0 =
    some (.csr { r := 1, c := 3, values := [8], cols := [0], rowStart := [0, 1] }) := by kernel_rfl

example : (Ops.subtract 0 1 .nil 0 (World.of (T := ℚ) 9
      [.csr { r := 2, c := 2, values := [1, 2], cols := [1, 0], rowStart := [0, 1, 2] },
       .csr { r := 2, c := 2, values := [5], cols := [0], rowStart := [0, 1, 1] }])).left 0 =
    some (.csr { r := 2, c := 2, values := [], cols := [], rowStart := [0, 0, 0] }) := by kernel_rfl

end GB
