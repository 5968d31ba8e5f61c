import Verif.Props.Arith
import Verif.Lemmas.Registry

/-!
# Add and Subtract: C18, C19
-/

namespace GB

set_option linter.unusedSectionVars false
set_option linter.unusedSimpArgs false

open M Meth

/-! ## The full statements -/

/-- C18 in full: the cell-wise sum, in the receiver's format, for all operands of one shape. -/
def AddCorrect (T : Type) [GoNum T] : Prop :=
  ∀ (w : World T) (s m : Ref), s < w.next → m < w.next → (w.heap s).WF → (w.heap m).WF →
    SameShape (w.heap s) (w.heap m) → (w.heap s).nvalues ≤ w.gas → (w.heap m).nvalues ≤ w.gas →
    Returns w (w.heap s).kind (w.heap s).rows (w.heap s).cols
      (fun i j => (w.heap s).val i j + (w.heap m).val i j) (Meth.add s m w)

/-- C19 in full: the cell-wise difference, in the format of either operand. -/
def SubCorrect (T : Type) [GoNum T] : Prop :=
  ∀ (w : World T) (s m : Ref), s < w.next → m < w.next → (w.heap s).WF → (w.heap m).WF →
    SameShape (w.heap s) (w.heap m) → (w.heap s).nvalues ≤ w.gas → (w.heap m).nvalues ≤ w.gas →
    ∃ k, Returns w k (w.heap s).rows (w.heap s).cols
      (fun i j => (w.heap s).val i j - (w.heap m).val i j) (Meth.subtract s m w)

/-- A counterexample to a claim about a returned object: the object it returns has another cell. -/
theorem Returns.cell {T : Type} [GoNum T] {w : World T} {k : Kind} {r c : Nat} {new : Nat → Nat → T}
    {res : Res T Ref} (h : Returns w k r c new res) {o : Mat T} (ho : res.obj = some o) {i j : Nat}
    (hi : i < r) (hj : j < c) : o.val i j = new i j := by
  obtain ⟨p, w', h1, -, -, -, -, -, -, -, -, -, -, h12⟩ := h
  rw [h1] at ho
  simp only [Res.obj, Option.some.injEq] at ho
  rw [← ho]
  exact h12 i j hi hj

/-- A counterexample to a claim about an output object. -/
theorem Writes.cell {T : Type} [GoNum T] {w : World T} {out : Ref} {new : Nat → Nat → T}
    {res : Res T Unit} (h : Writes w out new res) {o : Mat T} (hc : w.cancel = none)
    (ho : res.left out = some o) {i j : Nat}
    (hi : i < o.rows) (hj : j < o.cols) : o.val i j = new i j := by
  obtain ⟨m', c, h1, -, -, h4, -⟩ := h
  rw [h1] at ho
  simp only [Res.left, World.upd, Function.update_self, Option.some.injEq] at ho
  subst ho
  exact (h4 hc).2 i j hi hj

section general
variable {T : Type} [GoNum T] [GoStore T]

/-! ## Shape mismatch -/

/-- C18. Operands of different shapes: `Add` panics, and everything that existed is unchanged. -/
theorem C18_add_mismatch {w : World T} {s m : Ref} (hs : (w.heap s).WF)
    (hm : m < w.next) (hsn : s < w.next) (h : ¬ SameShape (w.heap s) (w.heap m)) :
    ∃ w', Meth.add s m w = .panic w' ∧ ∀ q, q < w.next → w'.heap q = w.heap q := by
  have hp : Ops.add s m .nil w.next (fresh w (w.heap s)) = .panic (fresh w (w.heap s)) :=
    Ops.add_panic (by rw [fresh_ne _ _ hsn, fresh_ne _ _ hm]; exact fun h' => h h'.1)
  refine ⟨{ fresh w (w.heap s) with cancel := w.cancel }, ?_, fun q hq => fresh_ne _ _ hq⟩
  unfold Meth.add background
  rw [bind_ok (copy_apply hs), bind_panic hp]

/-- C19. Operands of different shapes: `Subtract` panics. -/
theorem C19_subtract_mismatch {w : World T} {s m : Ref} (hs : (w.heap s).WF) (hmw : (w.heap m).WF)
    (hm : m < w.next) (hsn : s < w.next) (h : ¬ SameShape (w.heap s) (w.heap m)) :
    ∃ w', Meth.subtract s m w = .panic w' ∧ ∀ q, q < w.next → w'.heap q = w.heap q := by
  have hp : ∀ o : Mat T, Ops.subtract s m .nil w.next (fresh w o) = .panic (fresh w o) := fun o =>
    Ops.subtract_panic (by rw [fresh_ne _ _ hsn, fresh_ne _ _ hm]; exact fun h' => h h'.1)
  have key : ∃ o : Mat T, (fun w : World T => match w.heap s with
      | .svec _ => copy s w
      | _ => copy m w) { w with cancel := none } = .ok w.next (fresh w o) := by
    by_cases hk : ∃ v, w.heap s = .svec v
    · obtain ⟨v, hv⟩ := hk
      exact ⟨w.heap s, by simp only [hv]; rw [← hv]; exact copy_apply hs⟩
    · refine ⟨w.heap m, ?_⟩
      cases hv : w.heap s with
      | svec v => exact absurd ⟨v, hv⟩ hk
      | _ => simp only [hv]; exact copy_apply hmw
  obtain ⟨o, ho⟩ := key
  refine ⟨{ fresh w o with cancel := w.cancel }, ?_, fun q hq => fresh_ne _ _ hq⟩
  exact background_panic ((bind_ok ho).trans (bind_panic (hp o)))

end general

/-! ## C18 -/

section ring
variable {T : Type} [GoRing T] [GoLawful T]

/-- C18, the part that holds: `A.Add(B)` is the cell-wise sum in the format of `A` when `A` is not of
a registered sparse type (dense, or compressed with another element type than `float64`), or when `A`
has a value wherever `B` has one.

Missing: for a registered sparse receiver only the receiver's stored cells are summed, the cells
stored in `B` alone are lost (`C18_refuted`); a sparse-vector receiver is left out because its `Set`
is unreliable (C04). -/
theorem C18_add_partial {w : World T} {s m : Ref} (hsn : s < w.next) (hmn : m < w.next)
    (hs : (w.heap s).WF) (hm : (w.heap m).WF) (hk : (w.heap s).kind ≠ .svec)
    (hsh : SameShape (w.heap s) (w.heap m)) (hgs : (w.heap s).nvalues ≤ w.gas) (hgm : (w.heap m).nvalues ≤ w.gas)
    (hsup : (w.heap s).typeName ∉ w.reg ∨ ∀ i j, i < (w.heap s).rows → j < (w.heap s).cols →
      (w.heap m).val i j ≠ 0 → (w.heap s).val i j ≠ 0) :
    Returns w (w.heap s).kind (w.heap s).rows (w.heap s).cols
      (fun i j => (w.heap s).val i j + (w.heap m).val i j) (Meth.add s m w) := by
  have es := fresh_ne w (w.heap s) hsn
  have em := fresh_ne w (w.heap s) hmn
  have hneS : s ≠ w.next := Nat.ne_of_lt hsn
  have hneM : m ≠ w.next := Nat.ne_of_lt hmn
  have hover : Ops.addOver (fresh w (w.heap s)) s m ≠ w.next := by
    unfold Ops.addOver; split <;> assumption
  have := Ops.add_writes (w := fresh w (w.heap s)) (s := s) (m := m) (out := w.next) (mask := .nil)
    (by rw [es]; exact hs) (by rw [em]; exact hm) (by rw [fresh_next]; exact hs)
    (by rw [fresh_next]; exact hk) (by rw [es, em]; exact hsh) (by rw [es, fresh_next]; exact ⟨rfl, rfl⟩)
    trivial trivial (by unfold Ops.addOver; split <;> simp only [es, em, fresh_gas] <;> assumption)
    (fun h => absurd h hover)
  refine (returns_of_writes (m := w.heap s) (x := do
    let matrix ← copy s
    Ops.add s m .nil matrix
    pure matrix) (by rw [bind_ok (copy_apply hs)]) this rfl rfl rfl).congr ?_
  intro i j hi hj
  by_cases hreg : (w.heap s).typeName ∈ w.reg
  · have e1 : Ops.addOver (fresh w (w.heap s)) s m = s := if_pos (by rw [es]; exact hreg)
    have e2 : Ops.addSource (fresh w (w.heap s)) s m = m := if_pos (by rw [es]; exact hreg)
    by_cases hv : (w.heap s).Visits i j
    · rw [if_pos ⟨by rw [e1, es]; exact hv, rfl⟩, Mat.keep_lawful, e1, e2, es, em, add_comm]
    · rw [if_neg (fun h => hv (by rw [e1, es] at h; exact h.1)), fresh_next]
      have h0 := Mat.not_visits hv
      rcases hsup with h | h
      · exact absurd hreg h
      · have : (w.heap m).val i j = 0 := by
          by_contra h'; exact h i j hi hj h' h0
        rw [this, add_zero]
  · have e1 : Ops.addOver (fresh w (w.heap s)) s m = m := if_neg (by rw [es]; exact hreg)
    have e2 : Ops.addSource (fresh w (w.heap s)) s m = s := if_neg (by rw [es]; exact hreg)
    by_cases hv : (w.heap m).Visits i j
    · rw [if_pos ⟨by rw [e1, em]; exact hv, rfl⟩, Mat.keep_lawful, e1, e2, es, em]
    · rw [if_neg (fun h => hv (by rw [e1, em] at h; exact h.1)), fresh_next, Mat.not_visits hv, add_zero]

/-- C18 for every receiver that is not of a registered sparse type: in a program that registers
nothing further, every dense receiver and every compressed receiver of another element type than
`float64`. No condition on the contents. -/
theorem C18_add_unregistered_partial {w : World T} {s m : Ref} (hsn : s < w.next) (hmn : m < w.next)
    (hs : (w.heap s).WF) (hm : (w.heap m).WF) (hk : (w.heap s).kind ≠ .svec)
    (hsh : SameShape (w.heap s) (w.heap m)) (hgs : (w.heap s).nvalues ≤ w.gas) (hgm : (w.heap m).nvalues ≤ w.gas)
    (hreg : w.reg = initReg) (ht : GoNum.gname T ≠ "float64" ∨ (w.heap s).kind = .dense ∨ (w.heap s).kind = .dvec) :
    Returns w (w.heap s).kind (w.heap s).rows (w.heap s).cols
      (fun i j => (w.heap s).val i j + (w.heap m).val i j) (Meth.add s m w) := by
  refine C18_add_partial hsn hmn hs hm hk hsh hgs hgm (Or.inl ?_)
  rw [hreg]
  rw [typeName_initReg]
  rintro ⟨h1, h2⟩
  rcases ht with h | h | h
  · exact h h2
  · rw [h] at h1; simp [Kind.sparse] at h1
  · rw [h] at h1; simp [Kind.sparse] at h1

/-! ## C19 -/

/-- C19, the part that holds: `A.Subtract(B)` is the cell-wise difference in the format of `B` when
`A` is dense, or when `A` has a value wherever `B` has one.

Missing: the cells where a compressed `A` is 0 keep `B`'s value instead of its negation
(`C19_refuted`); a sparse-vector receiver subtracts from itself (`C19_refuted_svec`). -/
theorem C19_subtract_partial {w : World T} {s m : Ref} (hsn : s < w.next) (hmn : m < w.next)
    (hs : (w.heap s).WF) (hm : (w.heap m).WF) (hks : (w.heap s).kind ≠ .svec) (hk : (w.heap m).kind ≠ .svec)
    (hsh : SameShape (w.heap s) (w.heap m)) (hgs : (w.heap s).nvalues ≤ w.gas)
    (hsup : (w.heap s).kind = .dense ∨ (w.heap s).kind = .dvec ∨
      ∀ i j, i < (w.heap s).rows → j < (w.heap s).cols → (w.heap m).val i j ≠ 0 → (w.heap s).val i j ≠ 0) :
    Returns w (w.heap m).kind (w.heap s).rows (w.heap s).cols
      (fun i j => (w.heap s).val i j - (w.heap m).val i j) (Meth.subtract s m w) := by
  have es := fresh_ne w (w.heap m) hsn
  have em := fresh_ne w (w.heap m) hmn
  have hneS : s ≠ w.next := Nat.ne_of_lt hsn
  have := Ops.subtract_writes (w := fresh w (w.heap m)) (s := s) (m := m) (out := w.next) (mask := .nil)
    (by rw [es]; exact hs) (by rw [fresh_next]; exact hm)
    (by rw [fresh_next]; exact hk) (by rw [es, em]; exact hsh) (by rw [es, fresh_next]; exact hsh)
    trivial trivial (by rw [es]; exact hgs) (fun h => absurd h hneS)
  have hcopy : (fun w : World T => match w.heap s with
      | .svec _ => copy s w
      | _ => copy m w) { w with cancel := none } = .ok w.next (fresh w (w.heap m)) := by
    cases hv : w.heap s with
    | svec v => exact absurd (by rw [hv]; rfl) hks
    | _ => simp only [hv]; exact copy_apply hm
  refine (returns_of_writes (m := w.heap m) (x := do
    let matrix ← fun w => match w.heap s with
      | .svec _ => copy s w
      | _ => copy m w
    Ops.subtract s m .nil matrix
    pure matrix) (bind_ok hcopy) this rfl hsh.1.symm hsh.2.symm).congr ?_
  intro i j hi hj
  by_cases hv : (w.heap s).Visits i j
  · rw [if_pos ⟨by rw [es]; exact hv, rfl⟩, Mat.keep_lawful, es, fresh_next]
  · rw [if_neg (fun h => hv (by rw [es] at h; exact h.1)), fresh_next]
    have h0 := Mat.not_visits hv
    rcases hsup with h | h | h
    · exact absurd (Or.inl h) hv
    · exact absurd (Or.inr (Or.inl h)) hv
    · have : (w.heap m).val i j = 0 := by
        by_contra h'; exact h i j hi hj h' h0
      rw [this, h0, sub_zero]

/-- C19 with nothing required of the contents: any dense receiver. -/
theorem C19_subtract_dense_partial {w : World T} {s m : Ref} (hsn : s < w.next) (hmn : m < w.next)
    (hs : (w.heap s).WF) (hm : (w.heap m).WF) (hk : (w.heap m).kind ≠ .svec)
    (hd : (w.heap s).kind = .dense ∨ (w.heap s).kind = .dvec)
    (hsh : SameShape (w.heap s) (w.heap m)) (hgs : (w.heap s).nvalues ≤ w.gas) :
    Returns w (w.heap m).kind (w.heap s).rows (w.heap s).cols
      (fun i j => (w.heap s).val i j - (w.heap m).val i j) (Meth.subtract s m w) :=
  C19_subtract_partial hsn hmn hs hm (by rcases hd with h | h <;> rw [h] <;> simp) hk hsh hgs (by tauto)

end ring

/-! ## Refutations -/

/-- `[1 0]` as a CSR matrix. -/
def csr10 (T : Type) [GoNum T] : Mat T := .csr { r := 1, c := 2, values := [1], cols := [0], rowStart := [0, 1] }
/-- `[0 1]` as a CSR matrix. -/
def csr01 (T : Type) [GoNum T] : Mat T := .csr { r := 1, c := 2, values := [1], cols := [1], rowStart := [0, 1] }

theorem csr10_reach : Reach (csr10 ℚ) ∧ Reach (csr10 ℤ) :=
  ⟨Reach.arrCSR (data := [[1, 0]]) (c := 2) (by intro row hr; simp at hr; subst hr; rfl) (by kernel_rfl),
    Reach.arrCSR (data := [[1, 0]]) (c := 2) (by intro row hr; simp at hr; subst hr; rfl) (by kernel_rfl)⟩

theorem csr01_reach : Reach (csr01 ℚ) ∧ Reach (csr01 ℤ) :=
  ⟨Reach.arrCSR (data := [[0, 1]]) (c := 2) (by intro row hr; simp at hr; subst hr; rfl) (by kernel_rfl),
    Reach.arrCSR (data := [[0, 1]]) (c := 2) (by intro row hr; simp at hr; subst hr; rfl) (by kernel_rfl)⟩

/-- C18, full statement: false. With `float64` elements `[1 0] + [0 1]` is `[1 0]`. -/
theorem C18_refuted : ¬ AddCorrect ℚ := by
  intro h
  have := h (World.of 9 [csr10 ℚ, csr01 ℚ]) 0 1 (by decide) (by decide) (csr10_reach.1.wf (by decide))
    (csr01_reach.1.wf (by decide)) ⟨rfl, rfl⟩ (by decide) (by decide)
  have hc := this.cell (o := csr10 ℚ) (by kernel_rfl) (i := 0) (j := 1) (by decide) (by decide)
  exact absurd hc (by decide +kernel)

/-- The same contents with another element type are added correctly: the result depends on the
element type. -/
example : (Meth.add 0 1 (World.of 9 [csr10 ℤ, csr01 ℤ])).obj =
    some (.csr { r := 1, c := 2, values := [1, 1], cols := [0, 1], rowStart := [0, 2] }) := by kernel_rfl

/-- C19, full statement: false. `[1 0] - [0 1]` is `[1 1]`, for every element type tried. -/
theorem C19_refuted : ¬ SubCorrect ℤ := by
  intro h
  obtain ⟨k, this⟩ := h (World.of 9 [csr10 ℤ, csr01 ℤ]) 0 1 (by decide) (by decide) (csr10_reach.2.wf (by decide))
    (csr01_reach.2.wf (by decide)) ⟨rfl, rfl⟩ (by decide) (by decide)
  have hc := this.cell (o := .csr { r := 1, c := 2, values := [1, 1], cols := [0, 1], rowStart := [0, 2] })
    (by kernel_rfl) (i := 0) (j := 1) (by decide) (by decide)
  exact absurd hc (by decide +kernel)

/-- C19, full statement: false for a sparse-vector receiver whatever the argument: `(3) - (1)` is 0,
because the receiver is subtracted from a copy of itself. -/
theorem C19_refuted_svec : ∃ a b : Mat ℤ, Reach a ∧ Reach b ∧ a.WF ∧ b.WF ∧ a.val 0 0 = 3 ∧ b.val 0 0 = 1 ∧
    ∃ o, (Meth.subtract 0 1 (World.of 9 [a, b])).obj = some o ∧ o.val 0 0 = 0 := by
  refine ⟨.svec { l := 1, values := [3], indices := [0] }, .svec { l := 1, values := [1], indices := [0] },
    Reach.arrSVec (data := [3]) (by kernel_rfl), Reach.arrSVec (data := [1]) (by kernel_rfl),
    ⟨[(0, 3)], ?_, ?_⟩, ⟨[(0, 1)], ?_, ?_⟩, by kernel_rfl, by kernel_rfl,
    .svec { l := 1, values := [], indices := [] }, by kernel_rfl, by kernel_rfl⟩
  all_goals first
    | (intro e he; simp at he; subst he; simp)
    | exact ⟨rfl, rfl, by simp [RowSorted], by simp, by simp; decide +kernel⟩

/-- The hypotheses of the partial theorems are met by mixed formats. -/
example : (Meth.subtract 0 1 (World.of 9 [.dense ({ r := 1, c := 2, data := [[5, 0]] } : Dense ℤ), csr01 ℤ])).obj =
    some (.csr { r := 1, c := 2, values := [5, -1], cols := [0, 1], rowStart := [0, 2] }) := by kernel_rfl

end GB
