import Verif.Props.Local
import Verif.Props.Symm
import Verif.Props.Amid

/-!
# C103. Masks of any type

The mask of an operator is an interface that does not mention the element type: a matrix of another element
type, or a type of the caller, serves as well.
-/

namespace GB

set_option linter.unusedSectionVars false
set_option linter.unnecessarySimpa false

/-- A matrix or vector of any element type, given as the mask of an operator on objects of another element
type. -/
def Mask.of {U : Type} [GoNum U] [GoStore U] (m : Mat U) : Mask :=
  .given m.rows m.cols (fun i j => match m.element i j with
    | .ok (b, _) => some b
    | _ => none)

/-- A mask of the caller: `Element(i, j)` is `P i j`. -/
def Mask.own (r c : Nat) (P : Nat → Nat → Bool) : Mask := .given r c (fun i j => some (P i j))

section any
variable {U : Type} [GoNum U] [GoStore U] {T : Type} [GoNum T] [GoStore T] {w : World T} {out : Ref}

/-- C103: `Element` of a reachable object of any type answers about each of its cells, with "the value is
positive", and asking changes nothing — so that the answers are the same whenever an operator asks. -/
theorem C103_element {m : Mat U} (hm : Reach m) {i j : Nat} (hi : i < m.rows) (hj : j < m.cols) :
    m.element i j = .ok (GoNum.glt 0 (m.val i j), m) ∧ (Mask.of m).bit w i j = GoNum.glt 0 (m.val i j) := by
  have h := hm.inv.element_ok hi hj
  refine ⟨h, ?_⟩
  simp [Mask.of, Mask.bit, h]

/-- Such an object is a mask that the theorems about operators speak of. -/
theorem C103_sound {m : Mat U} (hm : Reach m) : (Mask.of m).Sound w ∧ (Mask.of m).Reached w := by
  have : ∀ i j, i < m.rows → j < m.cols → ∃ b, (match m.element (i : Nat) (j : Nat) with
      | .ok (b, _) => some b
      | _ => none) = some b := fun i j hi hj => ⟨_, by rw [hm.inv.element_ok hi hj]⟩
  exact ⟨this, this⟩

private theorem element_returns {m : Mat U} (hm : m.Inv) (i j : Nat) : m.element i j ≠ .hang := by
  by_cases hv : i < m.rows ∧ j < m.cols
  · rw [hm.element_ok hv.1 hv.2]; simp
  · cases m with
    | csr s => rw [Mat.element_out (.inl rfl) hv]; simp
    | csc s => rw [Mat.element_out (.inr (.inl rfl)) hv]; simp
    | dense s => rw [Mat.element_out (.inr (.inr rfl)) hv]; simp
    | dvec s =>
      have e : (Mat.dvec s).element i j = (Mat.dvec s).element i (0 : Nat) := rfl
      by_cases h : i < s.l
      · rw [e, hm.element_ok h Nat.one_pos]; simp
      · simp [Mat.element, DVec.element, DVec.atVec, inRange, h]
    | svec s =>
      have e : (Mat.svec s).element i j = (Mat.svec s).element i (0 : Nat) := rfl
      by_cases h : i < s.l
      · rw [e, hm.element_ok h Nat.one_pos]; simp
      · simp [Mat.element, SVec.element, SVec.atVec, inRange, h]

/-- What `Element` answers, for an object of any type and for one of the operands' type alike. -/
theorem Mask.of_says {m : Mat U} (hm : m.Inv) (i j : Nat) :
    (Mask.of m).says w i j = (do let (b, _) ← m.element i j; .ok b) := by
  simp only [Mask.of, Mask.says]
  cases h : m.element i j with
  | ok a => rfl
  | panic => rfl
  | hang => exact absurd h (element_returns hm i j)

/-- C103: whether the mask is passed as an object of the operands' type or as one of any other type
makes no difference: for every operator, in every state, with any aliasing between operands and
output, with any cancellation, panics included. -/
theorem C103_same (call : OpCall T) {p : Ref} (hp : Reach (w.heap p)) (op : p ≠ out) :
    call.run (Mask.of (w.heap p)) out w = call.run (.ref p) out w :=
  C56_answers call rfl (fun r c => Mask.of_says hp.inv r c) (C103_sound hp).1 hp.inv Mask.noConfusion
    (fun h => op (Mask.ref.inj h))

/-- C103 for two matrices of different element types (`float64` and `bool`-like `int8`, say) and any formats:
they have the same shape and are positive at the same cells, so that every operator does the same
under both. -/
theorem C103_types {V : Type} [GoNum V] [GoStore V] (call : OpCall T) {m : Mat U} {n : Mat V} (hm : Reach m) (hn : Reach n)
    (km : m.kind = .csr ∨ m.kind = .csc ∨ m.kind = .dense) (kn : n.kind = .csr ∨ n.kind = .csc ∨ n.kind = .dense)
    (hd : m.rows = n.rows ∧ m.cols = n.cols)
    (hs : ∀ i j, i < m.rows → j < m.cols → GoNum.glt 0 (m.val i j) = GoNum.glt 0 (n.val i j)) :
    call.run (Mask.of m) out w = call.run (Mask.of n) out w := by
  refine C56_answers call (Prod.ext hd.1 hd.2) (fun r c => ?_) (C103_sound hm).1 (C103_sound hn).1 Mask.noConfusion
    Mask.noConfusion
  rw [Mask.of_says hm.inv, Mask.of_says hn.inv]
  by_cases hv : r < m.rows ∧ c < m.cols
  · rw [hm.inv.element_ok hv.1 hv.2, hn.inv.element_ok (hd.1 ▸ hv.1) (hd.2 ▸ hv.2)]
    simp [hs r c hv.1 hv.2]
  · rw [Mat.element_out km hv, Mat.element_out kn (by rw [← hd.1, ← hd.2]; exact hv)]
    rfl

end any

section ring
variable {U : Type} [GoNum U] [GoStore U] {T : Type} [GoRing T] [GoLawful T] {w : World T} {out : Ref}

/-- Shapes of operands are all that `Shapes` is about. -/
private theorem shapes_congr {u : World T} {mask : Mask} (call : OpCall T)
    (h : ∀ p, (u.heap p).rows = (w.heap p).rows ∧ (u.heap p).cols = (w.heap p).cols) (hs : call.Shapes w mask out) :
    call.Shapes u mask out := by
  cases call <;> simpa only [OpCall.Shapes, OpCall.Shapes.Crossed, SameShape, fun p => (h p).1, fun p => (h p).2] using hs

private theorem cell_congr {u : World T} (call : OpCall T) (hap : call.Apart out) (h : ∀ p, p ≠ out → u.heap p = w.heap p)
    (hr : u.reg = w.reg) {i j : Nat} (hv : (u.heap out).val i j = (w.heap out).val i j) :
    call.cell u out i j = call.cell w out i j := by
  cases call with
  | negative s => simp only [OpCall.cell, hv]
  | apply s f | transpose s =>
    have e := h s (hap s (by simp [OpCall.operands]))
    simp only [OpCall.cell]
    rw [e, hv]
  | mxm s m | mxv s m | vxm s m =>
    have e1 := h s (hap s (by simp [OpCall.operands]))
    have e2 := h m (hap m (by simp [OpCall.operands]))
    simp only [OpCall.cell]
    rw [e1, e2]
  | subtract s m =>
    have e1 := h s (hap s (by simp [OpCall.operands]))
    simp only [OpCall.cell]
    rw [e1, hv]
  | add s m | eMulMatrix s m | eMulVector s m =>
    have e1 := h s (hap s (by simp [OpCall.operands]))
    have e2 := h m (hap m (by simp [OpCall.operands]))
    have e3 : lead u s m = lead w s m := by unfold lead; rw [e1, e2, hr]
    simp only [OpCall.cell]
    rw [e1, e2, e3, hv]
  | eAddMatrix s m | eAddVector s m =>
    have e1 := h s (hap s (by simp [OpCall.operands]))
    have e2 := h m (hap m (by simp [OpCall.operands]))
    simp only [OpCall.cell]
    rw [e1, e2, hv]

/-- C103: an operator, then the same operator under the complement of its mask — two masks of any types, opposite at
every cell — leaves what the operator without a mask leaves: a mask splits the cells of the output, and
no cell depends on another. -/
theorem C103_complement (call : OpCall T) {k1 k2 : Mask} (hops : ∀ p ∈ call.operands, (w.heap p).WF)
    (hout : (w.heap out).WF) (hk : (w.heap out).kind ≠ .svec)
    (s1 : call.Shapes w k1 out) (s2 : call.Shapes w k2 out) (hap : call.Apart out)
    (f1 : k1.Fits w out) (f2 : k2.Fits w out) (h1 : k1.Sound w) (h2 : k2.Sound w)
    (o1 : k1 ≠ .ref out) (o2 : k2 ≠ .ref out)
    (hg : ∀ p ∈ call.operands, (w.heap p).nvalues ≤ w.gas) (hgo : (w.heap out).rows * (w.heap out).cols ≤ w.gas)
    (hc : w.cancel = none)
    (hs : ∀ i j, i < (w.heap out).rows → j < (w.heap out).cols →
      call.asks w k2 i j = !call.asks w k1 i j) :
    ∃ w1 w2, call.run k1 out w = .ok () w1 ∧ call.run k2 out w1 = .ok () w2 ∧ call.run .nil out w = .ok () w2 := by
  have hgo' : (w.heap out).nvalues ≤ w.gas := (Mat.nvalues_le hout).trans hgo
  have sn : call.Shapes w .nil out := by
    cases call <;> first | exact s1 | exact ⟨s1.1, s1.2.1, Or.inl trivial⟩ | exact s1.imp id fun h => ⟨h.1, h.2.1, Or.inl trivial⟩
  obtain ⟨a, ea, wa, sa, va⟩ := C54_exact call hops hout hk s1 hap f1 h1 o1 hg hgo' hc
  obtain ⟨n, en, wn, sn', vn⟩ := C54_exact call hops hout hk sn hap trivial trivial Mask.noConfusion hg hgo' hc
  let u := w.upd out a none
  have uo : u.heap out = a := World.upd_out _ _ _ _
  have up : ∀ p, p ≠ out → u.heap p = w.heap p := fun p hp => World.upd_ne _ _ _ hp
  have dims : ∀ p, (u.heap p).rows = (w.heap p).rows ∧ (u.heap p).cols = (w.heap p).cols := fun p => by
    by_cases hp : p = out
    · subst hp; rw [uo]; exact ⟨sa.2.1, sa.2.2⟩
    · rw [up p hp]; exact ⟨rfl, rfl⟩
  have bit : ∀ i j, k2.bit u i j = k2.bit w i j := fun i j => by
    cases k2 with
    | ref p => simp only [Mask.bit]; rw [up p fun h => o2 (by rw [h])]
    | _ => rfl
  have asks : ∀ i j, call.asks u k2 i j = call.asks w k2 i j := fun i j => by
    cases call <;> exact bit _ _
  obtain ⟨b, eb, wb, sb, vb⟩ := C54_exact (w := u) (mask := k2) (out := out) call
    (fun p hp => by
      by_cases h : p = out
      · subst h; rw [uo]; exact wa
      · rw [up p h]; exact hops p hp)
    (by rw [uo]; exact wa) (by rw [uo, sa.1]; exact hk) (shapes_congr call dims s2) hap
    (by
      cases k2 with
      | nil => trivial
      | empty r c => exact ⟨f2.1.trans (dims out).1.symm, f2.2.trans (dims out).2.symm⟩
      | given r c el => exact ⟨f2.1.trans (dims out).1.symm, f2.2.trans (dims out).2.symm⟩
      | ref p => exact ⟨(dims p).1.trans (f2.1.trans (dims out).1.symm), (dims p).2.trans (f2.2.trans (dims out).2.symm)⟩)
    (by
      cases k2 with
      | ref p => show (u.heap p).Inv; rw [up p fun h => o2 (by rw [h])]; exact h2
      | _ => exact h2) o2
    (fun p hp => by
      by_cases h : p = out
      · subst h; rw [uo]
        refine (Mat.nvalues_le wa).trans ?_
        rw [sa.2.1, sa.2.2]; exact hgo
      · rw [up p h]; exact hg p hp)
    (by rw [uo]; refine (Mat.nvalues_le wa).trans ?_; rw [sa.2.1, sa.2.2]; exact hgo) rfl
  refine ⟨u, _, ea, eb, ?_⟩
  have : n = b := Mat.ext' wn wb (sn'.trans (by rw [uo] at sb; exact ⟨(sb.trans sa).1.symm, (sb.trans sa).2.1.symm, (sb.trans sa).2.2.symm⟩))
    fun i j hi hj => by
      rw [sn'.2.1] at hi
      rw [sn'.2.2] at hj
      rw [vn i j hi hj, vb i j (by rw [uo, sa.2.1]; exact hi) (by rw [uo, sa.2.2]; exact hj), asks, hs i j hi hj, uo, va i j hi hj]
      have : call.asks w .nil i j = false := by cases call <;> rfl
      rw [this]
      cases hb : call.asks w k1 i j with
      | false => simp
      | true =>
        simp only [Bool.not_true, Bool.false_eq_true, if_false]
        exact (cell_congr call hap up rfl (by rw [uo, va i j hi hj, hb]; rfl)).symm
  rw [en, this]
  show Res.ok () _ = Res.ok () _
  congr 1
  simp only [World.upd, u, Function.update_idem]

/-- C103 for masks of the caller: the cells where `P` holds keep their values, the others get what the operator
computes. -/
theorem C103_own (call : OpCall T) {P : Nat → Nat → Bool} (hops : ∀ p ∈ call.operands, (w.heap p).WF)
    (hout : (w.heap out).WF) (hk : (w.heap out).kind ≠ .svec)
    (hsh : call.Shapes w (.own (w.heap out).rows (w.heap out).cols P) out) (hap : call.Apart out)
    (hg : ∀ p ∈ call.operands, (w.heap p).nvalues ≤ w.gas) (hgo : (w.heap out).nvalues ≤ w.gas) (hc : w.cancel = none) :
    ∃ m', call.run (.own (w.heap out).rows (w.heap out).cols P) out w = .ok () (w.upd out m' none) ∧ m'.WF ∧
      Mat.Same m' (w.heap out) ∧
      ∀ i j, i < (w.heap out).rows → j < (w.heap out).cols → m'.val i j =
        if P (call.maskCell i j).1 (call.maskCell i j).2 then (w.heap out).val i j else call.cell w out i j := by
  obtain ⟨m', h1, h2, h3, h4⟩ := C54_exact call hops hout hk hsh hap (mask := .own (w.heap out).rows (w.heap out).cols P)
    ⟨rfl, rfl⟩ (fun i j _ _ => ⟨_, rfl⟩) Mask.noConfusion hg hgo hc
  refine ⟨m', h1, h2, h3, fun i j hi hj => ?_⟩
  rw [h4 i j hi hj]
  cases call <;> rfl

end ring

/-! ## Concrete cases -/

section examples

/-- A 2 × 2 mask of rational numbers in compressed columns: positive at (0, 1), negative at (1, 0). -/
private def rationals : Mat ℚ :=
  .csc { r := 2, c := 2, values := [-1 / 2, 1 / 3], rows := [1, 0], colStart := [0, 1, 2] }

private theorem rationals_reach : Reach rationals :=
  Reach.call (T := ℚ) (m' := rationals) (m := .csc { r := 2, c := 2, values := [-1 / 2], rows := [1], colStart := [0, 1, 1] }) (.set 0 1 (1 / 3)) (Reach.call (.set 1 0 (-1 / 2)) (Reach.newCSC 2 2) (by kernel_rfl)) (by kernel_rfl)

/-- Integer operands and output; object 3 is a dense integer matrix that is positive where `rationals` is. -/
private def integers : World ℤ := World.of 9 [.dense ⟨2, 2, [[1, 2], [3, 4]]⟩, .dense ⟨2, 2, [[10, 20], [30, 40]]⟩,
  .csr (CSR.new 2 2), .dense ⟨2, 2, [[0, 7], [-5, 0]]⟩]

private theorem integers_reach : Reach (integers.heap 3) :=
  Reach.call (m := .dense ⟨2, 2, [[0, 7], [0, 0]]⟩) (.set 1 0 (-5)) (Reach.call (.set 0 1 7) (Reach.newDense 2 2) (by kernel_rfl)) (by kernel_rfl)

/-- A sum of integer matrices under a mask of rationals: cell (0, 1) is left out. -/
example : (OpCall.run (Mask.of rationals) 2 (.add 0 1) integers).left 2 =
    some (.csr { r := 2, c := 2, values := [11, 33, 44], cols := [0, 0, 1], rowStart := [0, 1, 3] }) := by kernel_rfl

/-- The rational and the integer mask have the same effect. -/
example : OpCall.run (Mask.of rationals) 2 (.add 0 1) integers = OpCall.run (Mask.of (integers.heap 3)) 2 (.add 0 1) integers :=
  C103_types _ rationals_reach integers_reach (.inr (.inl rfl)) (.inr (.inr rfl)) ⟨rfl, rfl⟩ (by
    intro i j hi hj
    replace hi : i < 2 := hi
    replace hj : j < 2 := hj
    rcases (by omega : i = 0 ∨ i = 1) with rfl | rfl <;> rcases (by omega : j = 0 ∨ j = 1) with rfl | rfl <;> decide +kernel)

example : OpCall.run (Mask.of (integers.heap 3)) 2 (.add 0 1) integers = OpCall.run (.ref 3) 2 (.add 0 1) integers :=
  C103_same _ integers_reach (by decide)

/-- The upper triangle and the rest: the sum in two steps. -/
example : ∃ w1 w2, OpCall.run (.own 2 2 (fun i j => decide (i ≤ j))) 2 (.add 0 1) integers = .ok () w1 ∧
    OpCall.run (.own 2 2 (fun i j => !decide (i ≤ j))) 2 (.add 0 1) w1 = .ok () w2 ∧
    OpCall.run .nil 2 (.add 0 1) integers = .ok () w2 := by
  have d : ∀ p, p = 0 ∨ p = 1 ∨ p = 2 → (integers.heap p).WF := by
    rintro p (rfl | rfl | rfl)
    · exact (⟨rfl, by simp⟩ : Dense.WF (⟨2, 2, [[1, 2], [3, 4]]⟩ : Dense ℤ))
    · exact (⟨rfl, by simp⟩ : Dense.WF (⟨2, 2, [[10, 20], [30, 40]]⟩ : Dense ℤ))
    · exact (Reach.newCSR (T := ℤ) 2 2).wf (by decide)
  refine C103_complement (.add 0 1) (by simp [OpCall.operands]; exact ⟨d 0 (by simp), d 1 (by simp)⟩) (d 2 (by simp)) (by decide)
    ⟨⟨rfl, rfl⟩, ⟨rfl, rfl⟩⟩ ⟨⟨rfl, rfl⟩, ⟨rfl, rfl⟩⟩ (by simp [OpCall.Apart, OpCall.operands]) ⟨rfl, rfl⟩ ⟨rfl, rfl⟩
    (fun _ _ _ _ => ⟨_, rfl⟩) (fun _ _ _ _ => ⟨_, rfl⟩) Mask.noConfusion Mask.noConfusion
    (by simp [OpCall.operands]; decide) (by decide) rfl (fun i j _ _ => rfl)

end examples

end GB
