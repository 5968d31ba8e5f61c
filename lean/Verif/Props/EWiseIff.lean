import Verif.Props.Exact

/-!
# C24, C25, C26: exactly when the element-wise operators and Apply are right
-/

namespace GB

set_option linter.unusedSectionVars false

section spec
variable {T : Type} [GoNum T]

/-- The call returns, changes nothing but `out`, and leaves the table `f` there, in the format and shape it
had. -/
def OpCall.Leaves (call : OpCall T) (mask : Mask) (out : Ref) (w : World T) (f : Nat → Nat → T) : Prop :=
  ∃ m', call.run mask out w = .ok () (w.upd out m' none) ∧ m'.WF ∧ Mat.Same m' (w.heap out) ∧
    ∀ i j, i < (w.heap out).rows → j < (w.heap out).cols → m'.val i j = f i j

/-- The setting of the iff theorems: operands in reachable states that are not the output, an output of
zeros, no mask, shapes that fit, an open context and enough turns. -/
structure OpCall.Fresh (call : OpCall T) (out : Ref) (w : World T) : Prop where
  wf : ∀ p ∈ call.operands, (w.heap p).WF
  outWf : (w.heap out).WF
  kind : (w.heap out).kind ≠ .svec
  zero : ∀ i j, i < (w.heap out).rows → j < (w.heap out).cols → (w.heap out).val i j = 0
  shapes : call.Shapes w .nil out
  apart : call.Apart out
  gas : ∀ p ∈ call.operands, (w.heap p).nvalues ≤ w.gas
  gasOut : (w.heap out).nvalues ≤ w.gas
  ctx : w.cancel = none

end spec

section ring
variable {T : Type} [GoRing T] [GoLawful T] {w : World T} {out : Ref}

theorem OpCall.Fresh.iff {call : OpCall T} (h : call.Fresh out w) (f : Nat → Nat → T) :
    call.Leaves .nil out w f ↔
      ∀ i j, i < (w.heap out).rows → j < (w.heap out).cols → call.cell w out i j = f i j := by
  obtain ⟨m', e, hw, hs, hv⟩ := C54_exact (mask := .nil) call h.wf h.outWf h.kind h.shapes h.apart trivial trivial
    Mask.noConfusion h.gas h.gasOut h.ctx
  have hask : ∀ i j, call.asks w .nil i j = false := by intro i j; cases call <;> rfl
  simp only [hask, Bool.false_eq_true, if_false] at hv
  constructor
  · rintro ⟨m'', e', -, -, hv'⟩ i j hi hj
    rw [e] at e'
    have : m' = m'' := by
      have h1 := congrArg (fun r : Res T Unit => r.world.heap out) e'
      simpa [Res.world, World.upd] using h1
    rw [← hv i j hi hj, this, hv' i j hi hj]
  · intro h'
    exact ⟨m', e, hw, hs, fun i j hi hj => (hv i j hi hj).trans (h' i j hi hj)⟩

/-- C24, exactly when: into an output of zeros, the element-wise product is right if and only if equal
cells are their own square and different cells have product 0. -/
theorem C24_iff {s m : Ref} {call : OpCall T} (hcall : call = .eMulMatrix s m ∨ call = .eMulVector s m)
    (h : call.Fresh out w) :
    call.Leaves .nil out w (fun i j => (w.heap s).val i j * (w.heap m).val i j) ↔
      ∀ i j, i < (w.heap out).rows → j < (w.heap out).cols →
        ((w.heap s).val i j = (w.heap m).val i j → (w.heap s).val i j * (w.heap s).val i j = (w.heap s).val i j) ∧
        ((w.heap s).val i j ≠ (w.heap m).val i j → (w.heap s).val i j * (w.heap m).val i j = 0) := by
  classical
  rw [h.iff]
  refine forall_congr' fun i => forall_congr' fun j => forall_congr' fun hi => forall_congr' fun hj => ?_
  have hcell : call.cell w out i j = if (lead w s m).Visits i j ∧ (w.heap s).val i j = (w.heap m).val i j
      then (w.heap s).val i j else (w.heap out).val i j := by
    rcases hcall with rfl | rfl <;> rfl
  rw [hcell, h.zero i j hi hj]
  have hl : ¬ (lead w s m).Visits i j → (w.heap s).val i j = 0 ∨ (w.heap m).val i j = 0 := by
    intro hv
    have := Mat.not_visits hv
    unfold lead at this
    split at this
    · exact .inl this
    · exact .inr this
  by_cases he : (w.heap s).val i j = (w.heap m).val i j
  · by_cases hv : (lead w s m).Visits i j
    · rw [if_pos ⟨hv, he⟩, ← he]
      simp [eq_comm]
    · rw [if_neg (fun h => hv h.1), ← he]
      rcases hl hv with h0 | h0
      · simp [h0]
      · rw [he, h0]; simp
  · rw [if_neg (fun h => he h.2)]
    simp [he, eq_comm]

/-- C24 where no two non-zero values have product 0: right if and only if at every cell one operand is 0 or
both are 1. -/
theorem C24_domain_iff [NoZeroDivisors T] {s m : Ref} {call : OpCall T}
    (hcall : call = .eMulMatrix s m ∨ call = .eMulVector s m) (h : call.Fresh out w) :
    call.Leaves .nil out w (fun i j => (w.heap s).val i j * (w.heap m).val i j) ↔
      ∀ i j, i < (w.heap out).rows → j < (w.heap out).cols →
        (w.heap s).val i j = 0 ∨ (w.heap m).val i j = 0 ∨ (w.heap s).val i j = 1 ∧ (w.heap m).val i j = 1 := by
  rw [C24_iff hcall h]
  refine forall_congr' fun i => forall_congr' fun j => forall_congr' fun hi => forall_congr' fun hj => ?_
  generalize (w.heap s).val i j = a
  generalize (w.heap m).val i j = b
  constructor
  · rintro ⟨h1, h2⟩
    by_cases he : a = b
    · have := h1 he
      have h3 : a * (a - 1) = 0 := by rw [mul_sub, this, mul_one, sub_self]
      rcases mul_eq_zero.1 h3 with h | h
      · exact .inl h
      · have ha := sub_eq_zero.1 h
        exact .inr (.inr ⟨ha, he ▸ ha⟩)
    · rcases mul_eq_zero.1 (h2 he) with h | h
      · exact .inl h
      · exact .inr (.inl h)
  · rintro (rfl | rfl | ⟨rfl, rfl⟩)
    · exact ⟨fun _ => by simp, fun _ => by simp⟩
    · exact ⟨fun e => by rw [e]; simp, fun _ => by simp⟩
    · exact ⟨fun _ => by simp, fun e => absurd rfl e⟩

/-- C25, exactly when: into an output of zeros, the element-wise sum is right if and only if at every cell
one of the operands is 0. -/
theorem C25_iff {s m : Ref} {call : OpCall T} (hcall : call = .eAddMatrix s m ∨ call = .eAddVector s m)
    (h : call.Fresh out w) :
    call.Leaves .nil out w (fun i j => (w.heap s).val i j + (w.heap m).val i j) ↔
      ∀ i j, i < (w.heap out).rows → j < (w.heap out).cols → (w.heap s).val i j = 0 ∨ (w.heap m).val i j = 0 := by
  classical
  rw [h.iff]
  refine forall_congr' fun i => forall_congr' fun j => forall_congr' fun hi => forall_congr' fun hj => ?_
  have hcell : call.cell w out i j = if (w.heap m).val i j ≠ 0 then (w.heap m).val i j
      else if (w.heap s).val i j ≠ 0 then (w.heap s).val i j else (w.heap out).val i j := by
    rcases hcall with rfl | rfl <;> rfl
  rw [hcell, h.zero i j hi hj]
  generalize (w.heap s).val i j = a
  generalize (w.heap m).val i j = b
  by_cases hb : b = 0
  · by_cases ha : a = 0 <;> simp [ha, hb]
  · simp only [ne_eq, hb, not_false_eq_true, if_true, or_false]
    constructor
    · intro e
      have : a + b = 0 + b := by rw [← e, zero_add]
      exact add_right_cancel this
    · intro e; rw [e, zero_add]

open Classical in
/-- C26, exactly when: into an output of zeros, `Apply` out of place is right if and only if the right result
equals its own transpose. -/
theorem C26_iff {s : Ref} {u : T → T} (h : (OpCall.apply s u).Fresh out w) :
    (OpCall.apply s u).Leaves .nil out w (fun i j => if (w.heap s).Visits i j then u ((w.heap s).val i j) else 0) ↔
      ∀ i j, i < (w.heap out).rows → j < (w.heap out).cols →
        (if (w.heap s).Visits j i then u ((w.heap s).val j i) else 0) =
          if (w.heap s).Visits i j then u ((w.heap s).val i j) else 0 := by
  rw [h.iff]
  refine forall_congr' fun i => forall_congr' fun j => forall_congr' fun hi => forall_congr' fun hj => ?_
  simp only [OpCall.cell, h.zero i j hi hj]

open Classical in
/-- C26 in place, what it does in every format: the operator is applied to the cells that `Map` visits (all of them in the
dense formats, the non-zero ones in the compressed ones) where the mask *is* set. In the compressed formats it must not
answer 0 there. -/
theorem C26_inplace_exact {mask : Mask} {u : T → T} (hout : (w.heap out).WF) (hF : mask.Fits w out) (hS : mask.Sound w)
    (hgas : (w.heap out).nvalues ≤ w.gas) (hc : w.cancel = none)
    (hst : (w.heap out).kind.sparse = true → ∀ i j, i < (w.heap out).rows → j < (w.heap out).cols →
      (w.heap out).val i j ≠ 0 → mask.bit w i j = true → u ((w.heap out).val i j) ≠ 0) :
    (OpCall.apply out u).Leaves mask out w (fun i j => if (w.heap out).Visits i j ∧ mask.bit w i j = true
      then u ((w.heap out).val i j) else (w.heap out).val i j) := by
  obtain ⟨m', c, e, hw, hs, hv, -⟩ := Ops.apply_inplace_writes (u := u) hout hF hS hgas (fun i j hi hj hvis hb => by
    unfold Mat.Storable
    unfold Mat.Visits at hvis
    cases hk : (w.heap out).kind <;> simp only [] <;> first
      | trivial
      | (rw [hk] at hvis
         have hne : (w.heap out).val i j ≠ 0 := by
           intro h0
           simp [h0] at hvis
         have := hst (by rw [hk]; rfl) i j hi hj hne hb
         exact Bool.eq_false_iff.2 fun h => this ((isZero_iff _).1 h)))
  obtain ⟨rfl, hv1⟩ := hv hc
  exact ⟨m', e, hw, hs, fun i j hi hj => hv1 i j (by rw [hs.2.1]; exact hi) (by rw [hs.2.2]; exact hj)⟩

open Classical in
/-- C26 in place, exactly when: it does what it should (apply the operator where the mask is *not* set) if and only if the
operator leaves every visited cell alone. -/
theorem C26_inplace_iff {mask : Mask} {u : T → T} (hout : (w.heap out).WF) (hF : mask.Fits w out) (hS : mask.Sound w)
    (hgas : (w.heap out).nvalues ≤ w.gas) (hc : w.cancel = none)
    (hst : (w.heap out).kind.sparse = true → ∀ i j, i < (w.heap out).rows → j < (w.heap out).cols →
      (w.heap out).val i j ≠ 0 → mask.bit w i j = true → u ((w.heap out).val i j) ≠ 0) :
    (OpCall.apply out u).Leaves mask out w (fun i j => if (w.heap out).Visits i j ∧ mask.bit w i j = false
      then u ((w.heap out).val i j) else (w.heap out).val i j) ↔
    ∀ i j, i < (w.heap out).rows → j < (w.heap out).cols → (w.heap out).Visits i j →
      u ((w.heap out).val i j) = (w.heap out).val i j := by
  obtain ⟨m', e, hw, hs, hv⟩ := C26_inplace_exact hout hF hS hgas hc hst
  constructor
  · rintro ⟨m'', e', -, -, hv'⟩ i j hi hj hvis
    rw [e] at e'
    have hm : m' = m'' := by
      have h1 := congrArg (fun r : Res T Unit => r.world.heap out) e'
      simpa [Res.world, World.upd] using h1
    have h1 := hv i j hi hj
    rw [hm, hv' i j hi hj] at h1
    cases hb : mask.bit w i j <;> simp [hb, hvis] at h1
    · exact h1
    · exact h1.symm
  · intro h
    refine ⟨m', e, hw, hs, fun i j hi hj => (hv i j hi hj).trans ?_⟩
    by_cases hvis : (w.heap out).Visits i j
    · simp only [h i j hi hj hvis, ite_self]
    · simp only [hvis, false_and, if_false]

end ring

/-! ## Concrete cases -/

/-- Operands and an output of zeros. -/
def freshWorld (a b : List ℤ) : World ℤ := World.of 9
  [.dense ⟨1, 2, [a]⟩, .dense ⟨1, 2, [b]⟩, .dense ⟨1, 2, [[0, 0]]⟩]

theorem fresh_vec (call : OpCall ℤ) (hcall : call = .eMulVector 0 1 ∨ call = .eAddVector 0 1) (a b : List ℤ)
    (ha : a.length = 2) (hb : b.length = 2) : call.Fresh 2 (freshWorld a b) := by
  have wf : ∀ l : List ℤ, l.length = 2 → (Mat.dense ⟨1, 2, [l]⟩ : Mat ℤ).WF := by
    intro l hl
    exact ⟨rfl, by simpa using hl⟩
  refine ⟨?_, wf [0, 0] rfl, (by decide : Kind.dense ≠ .svec), ?_, ?_, ?_, ?_, (by decide : 2 ≤ 9), rfl⟩
  · rcases hcall with rfl | rfl <;>
    · intro p hp
      simp [OpCall.operands] at hp
      rcases hp with rfl | rfl
      · exact wf a ha
      · exact wf b hb
  · intro i j hi hj
    replace hi : i < 1 := hi
    replace hj : j < 2 := hj
    obtain rfl : i = 0 := by omega
    rcases (by omega : j = 0 ∨ j = 1) with rfl | rfl <;> rfl
  · rcases hcall with rfl | rfl <;> exact ⟨⟨rfl, rfl⟩, rfl, rfl⟩
  · rcases hcall with rfl | rfl <;>
    · intro p hp
      simp [OpCall.operands] at hp
      rcases hp with rfl | rfl <;> decide
  · rcases hcall with rfl | rfl <;>
    · intro p hp
      simp [OpCall.operands] at hp
      rcases hp with rfl | rfl <;> exact (by decide : 2 ≤ 9)

/-- Right for `(1, 0)` and `(1, 5)`, wrong for `(2, 0)` and `(2, 0)`. -/
example : (OpCall.eMulVector 0 1).Leaves .nil 2 (freshWorld [1, 0] [1, 5])
      (fun i j => ((freshWorld [1, 0] [1, 5]).heap 0).val i j * ((freshWorld [1, 0] [1, 5]).heap 1).val i j) ∧
    ¬ (OpCall.eMulVector 0 1).Leaves .nil 2 (freshWorld [2, 0] [2, 0])
      (fun i j => ((freshWorld [2, 0] [2, 0]).heap 0).val i j * ((freshWorld [2, 0] [2, 0]).heap 1).val i j) := by
  constructor
  · rw [C24_domain_iff (.inr rfl) (fresh_vec _ (.inl rfl) _ _ rfl rfl)]
    intro i j hi hj
    replace hi : i < 1 := hi
    replace hj : j < 2 := hj
    obtain rfl : i = 0 := by omega
    rcases (by omega : j = 0 ∨ j = 1) with rfl | rfl
    · exact .inr (.inr ⟨rfl, rfl⟩)
    · exact .inl rfl
  · rw [C24_domain_iff (.inr rfl) (fresh_vec _ (.inl rfl) _ _ rfl rfl)]
    intro h
    have := h 0 0 (by decide) (by decide)
    revert this
    decide +kernel

/-- The element-wise sum is wrong for `(2, 0)` and `(2, 0)`. -/
example : ¬ (OpCall.eAddVector 0 1).Leaves .nil 2 (freshWorld [2, 0] [2, 0])
      (fun i j => ((freshWorld [2, 0] [2, 0]).heap 0).val i j + ((freshWorld [2, 0] [2, 0]).heap 1).val i j) := by
  rw [C25_iff (.inr rfl) (fresh_vec _ (.inr rfl) _ _ rfl rfl)]
  intro h
  have := h 0 0 (by decide) (by decide)
  revert this
  decide +kernel

/-- In place on the CSR matrix `(1 0 2)`, itself the mask: both stored cells are doubled. -/
example : (Ops.apply 0 (.ref 0) (fun v => v * 2) 0 (World.of (T := ℤ) 9
      [.csr { r := 1, c := 3, rowStart := [0, 2], cols := [0, 2], values := [1, 2] }])).left 0 =
    some (.csr { r := 1, c := 3, rowStart := [0, 2], cols := [0, 2], values := [2, 4] }) := by kernel_rfl

open Classical in
/-- Its hypotheses hold there: so doubling in place, with the matrix as its own mask, is not what was asked for. -/
example : ¬ (OpCall.apply 0 (fun v : ℤ => v * 2)).Leaves (.ref 0) 0 (World.of (T := ℤ) 9
      [.dense ⟨1, 2, [[1, 2]]⟩]) (fun i j => if ((World.of (T := ℤ) 9 [.dense ⟨1, 2, [[1, 2]]⟩]).heap 0).Visits i j ∧
        Mask.bit (World.of (T := ℤ) 9 [.dense ⟨1, 2, [[1, 2]]⟩]) (.ref 0) i j = false
      then ((World.of (T := ℤ) 9 [.dense ⟨1, 2, [[1, 2]]⟩]).heap 0).val i j * 2
      else ((World.of (T := ℤ) 9 [.dense ⟨1, 2, [[1, 2]]⟩]).heap 0).val i j) := by
  intro h
  have := (C26_inplace_iff (mask := .ref 0) (u := fun v : ℤ => v * 2)
    (w := World.of (T := ℤ) 9 [.dense ⟨1, 2, [[1, 2]]⟩]) (out := 0) ⟨rfl, by simp⟩ ⟨rfl, rfl⟩ ⟨rfl, by simp⟩
    (by decide) rfl (fun h => absurd h (by decide))).1 h 0 0 (by decide) (by decide) (Or.inl rfl)
  exact absurd this (by decide)

end GB
