import Verif.Lemmas.EMul
import Verif.Props.Multiply

/-!
# Masks: C22
-/

namespace GB

set_option linter.unusedSectionVars false
set_option linter.unusedSimpArgs false

open M

section general
variable {T : Type} [GoNum T] [GoStore T]

/-- C22's claim about one operator call. Whenever the context is cancelled, if at all: the call returns
and the cells where the mask's `Element` is true hold what they held. With a context that is not
cancelled: moreover the other cells hold what the same call without a mask puts there. -/
def MaskRespected (w : World T) (out : Ref) (mask : Mask) (run : Mask → M T Unit) : Prop :=
  (∃ o, (run mask w).left out = some o ∧ SameShape o (w.heap out) ∧
    ∀ i j, i < o.rows → j < o.cols → mask.bit w i j = true → o.val i j = (w.heap out).val i j) ∧
  (w.cancel = none → ∃ o o', (run mask w).left out = some o ∧ (run .nil w).left out = some o' ∧
    SameShape o o' ∧ ∀ i j, i < o.rows → j < o.cols → mask.bit w i j = false → o.val i j = o'.val i j)

@[simp] theorem Mask.bit_nil (w : World T) (i j : Nat) : Mask.bit w .nil i j = false := rfl

/-- `mask.bit` is the Boolean `Element` returns. -/
theorem Mask.bit_is_element {w : World T} {p : Ref} (hp : (w.heap p).Inv) {i j : Nat}
    (hi : i < (w.heap p).rows) (hj : j < (w.heap p).cols) :
    (w.heap p).element i j = .ok (Mask.bit w (.ref p) i j, w.heap p) := Mat.Inv.element_ok hp hi hj

theorem MaskRespected.of_writes {w : World T} {out : Ref} {mask : Mask} {run : Mask → M T Unit}
    {new new' : Nat → Nat → T} (h : Writes w out new (run mask w)) (h' : Writes w out new' (run .nil w))
    (ht : ∀ i j, i < (w.heap out).rows → j < (w.heap out).cols → mask.bit w i j = true → new i j = (w.heap out).val i j)
    (hf : ∀ i j, i < (w.heap out).rows → j < (w.heap out).cols → mask.bit w i j = false → new i j = new' i j) :
    MaskRespected w out mask run := by
  obtain ⟨m1, c1, h1, -, h3, h4, h5⟩ := h
  obtain ⟨m2, c2, k1, -, k3, k4, -⟩ := h'
  have e1 : (run mask w).left out = some m1 := by rw [h1]; simp [Res.left, World.upd]
  have e2 : (run .nil w).left out = some m2 := by rw [k1]; simp [Res.left, World.upd]
  refine ⟨⟨m1, e1, ⟨h3.2.1, h3.2.2⟩, ?_⟩, fun hc => ⟨m1, m2, e1, e2, ⟨h3.2.1.trans k3.2.1.symm, h3.2.2.trans k3.2.2.symm⟩, ?_⟩⟩
  · intro i j hi hj hb
    rcases h5 i j hi hj with h | h
    · rw [h]; exact ht i j (h3.2.1 ▸ hi) (h3.2.2 ▸ hj) hb
    · exact h
  · intro i j hi hj hb
    have hi' : i < (w.heap out).rows := h3.2.1 ▸ hi
    have hj' : j < (w.heap out).cols := h3.2.2 ▸ hj
    rw [(h4 hc).2 i j hi hj, (k4 hc).2 i j (k3.2.1.symm ▸ hi') (k3.2.2.symm ▸ hj'), hf i j hi' hj' hb]

/-- C22 for `MatrixMatrixMultiply`, the part that holds: any mask (it may be an operand or the output),
the output may be the left operand. Missing: an output that is the right operand (`C22_refuted_multiply`).-/
theorem C22_multiply_partial {w : World T} {s m out : Ref} {mask : Mask}
    (hs : (w.heap s).WF) (hm : (w.heap m).WF) (hout : (w.heap out).WF) (hk : (w.heap out).kind ≠ .svec)
    (h1 : (w.heap m).rows = (w.heap s).cols) (h2 : (w.heap out).rows = (w.heap s).rows)
    (h3 : (w.heap out).cols = (w.heap m).cols) (hF : mask.Fits w out) (hS : mask.Sound w) (hne : m ≠ out) :
    MaskRespected w out mask (fun mask => Ops.matrixMatrixMultiply s m mask out) := by
  refine MaskRespected.of_writes (Ops.multiply_writes hs hm hout hk h1 h2 h3 hF hS hne)
    (Ops.multiply_writes hs hm hout hk h1 h2 h3 (mask := .nil) trivial trivial hne) ?_ ?_
  · intro i j _ _ hb; simp [hb]
  · intro i j _ _ hb; simp [hb, Mask.bit_nil]

/-- C22 for `Add`. Any mask; the output may be an operand if it is dense or no sum is zero. -/
theorem C22_add_partial {w : World T} {s m out : Ref} {mask : Mask}
    (hs : (w.heap s).WF) (hm : (w.heap m).WF) (hout : (w.heap out).WF)
    (hk : (w.heap out).kind ≠ .svec) (h1 : SameShape (w.heap s) (w.heap m))
    (h2 : SameShape (w.heap s) (w.heap out)) (hF : mask.Fits w out) (hS : mask.Sound w)
    (hgs : (w.heap s).nvalues ≤ w.gas) (hgm : (w.heap m).nvalues ≤ w.gas)
    (hal : s ≠ out ∧ m ≠ out ∨ ∀ i j, i < (w.heap out).rows → j < (w.heap out).cols →
      Mat.Storable (w.heap out).kind ((w.heap s).val i j + (w.heap m).val i j) ∧
      Mat.Storable (w.heap out).kind ((w.heap m).val i j + (w.heap s).val i j)) :
    MaskRespected w out mask (fun mask => Ops.add s m mask out) := by
  have hg : (w.heap (Ops.addOver w s m)).nvalues ≤ w.gas := by unfold Ops.addOver; split <;> assumption
  have ha : Ops.addOver w s m = out → ∀ i j, i < (w.heap out).rows → j < (w.heap out).cols →
      Mat.Storable (w.heap out).kind
        ((w.heap (Ops.addSource w s m)).val i j + (w.heap (Ops.addOver w s m)).val i j) := by
    intro ho i j hi hj
    rcases hal with ⟨ha, hb⟩ | hal
    · revert ho; unfold Ops.addOver; split <;> intro ho
      · exact absurd ho ha
      · exact absurd ho hb
    · unfold Ops.addOver Ops.addSource
      split
      · exact (hal i j hi hj).2
      · exact (hal i j hi hj).1
  refine MaskRespected.of_writes
    (Ops.add_writes hs hm hout hk h1 h2 hF hS hg (fun ho i j hi hj _ _ => ha ho i j hi hj))
    (Ops.add_writes hs hm hout hk h1 h2 (mask := .nil) trivial trivial hg (fun ho i j hi hj _ _ => ha ho i j hi hj)) ?_ ?_
  · intro i j _ _ hb; simp [hb]
  · intro i j _ _ hb
    by_cases hv : (w.heap (Ops.addOver w s m)).Visits i j
    · rw [if_pos ⟨hv, hb⟩, if_pos ⟨hv, rfl⟩]
    · rw [if_neg (fun h => hv h.1), if_neg (fun h => hv h.1)]

/-- C22 for `Subtract`. Any mask; the output may be the right operand, and the left one too if it is
dense or no difference is zero. -/
theorem C22_subtract_partial {w : World T} {s m out : Ref} {mask : Mask}
    (hs : (w.heap s).WF) (hout : (w.heap out).WF)
    (hk : (w.heap out).kind ≠ .svec) (h1 : SameShape (w.heap s) (w.heap m))
    (h2 : SameShape (w.heap s) (w.heap out)) (hF : mask.Fits w out) (hS : mask.Sound w)
    (hgs : (w.heap s).nvalues ≤ w.gas)
    (hal : s = out → ∀ i j, i < (w.heap out).rows → j < (w.heap out).cols →
      Mat.Storable (w.heap out).kind ((w.heap s).val i j - (w.heap out).val i j)) :
    MaskRespected w out mask (fun mask => Ops.subtract s m mask out) := by
  refine MaskRespected.of_writes
    (Ops.subtract_writes hs hout hk h1 h2 hF hS hgs (fun ho i j hi hj _ _ => hal ho i j hi hj))
    (Ops.subtract_writes hs hout hk h1 h2 (mask := .nil) trivial trivial hgs (fun ho i j hi hj _ _ => hal ho i j hi hj)) ?_ ?_
  · intro i j _ _ hb; simp [hb]
  · intro i j _ _ hb
    by_cases hv : (w.heap s).Visits i j
    · rw [if_pos ⟨hv, hb⟩, if_pos ⟨hv, rfl⟩]
    · rw [if_neg (fun h => hv h.1), if_neg (fun h => hv h.1)]

/-- C22 for `Negative` (which works on the output). In a compressed output no stored value may have a
zero negation, which holds in every ring of values (`C22_negative_ring`). -/
theorem C22_negative {w : World T} {s out : Ref} {mask : Mask}
    (hout : (w.heap out).WF) (hF : mask.Fits w out) (hS : mask.Sound w) (hgas : (w.heap out).nvalues ≤ w.gas)
    (hst : ∀ i j, i < (w.heap out).rows → j < (w.heap out).cols → (w.heap out).Visits i j →
      Mat.Storable (w.heap out).kind (-((w.heap out).val i j))) :
    MaskRespected w out mask (fun mask => Ops.negative s mask out) := by
  refine MaskRespected.of_writes
    (Ops.negative_writes hout hF hS hgas (fun i j hi hj hv _ => hst i j hi hj hv))
    (Ops.negative_writes hout (mask := .nil) trivial trivial hgas (fun i j hi hj hv _ => hst i j hi hj hv)) ?_ ?_
  · intro i j _ _ hb; simp [hb]
  · intro i j _ _ hb
    by_cases hv : (w.heap out).Visits i j
    · rw [if_pos ⟨hv, hb⟩, if_pos ⟨hv, rfl⟩]
    · rw [if_neg (fun h => hv h.1), if_neg (fun h => hv h.1)]

/-- C22 for the element-wise product, through either entry point. Any mask, any aliasing of operands
and output; if all three are one object, `==` must hold of the stored values with themselves (no NaN). -/
theorem C22_elementWiseMultiply {w : World T} {s m out : Ref} {mask : Mask}
    (hs : (w.heap s).WF) (hm : (w.heap m).WF) (hout : (w.heap out).WF) (hk : (w.heap out).kind ≠ .svec)
    (h1 : SameShape (w.heap s) (w.heap out)) (h2 : SameShape (w.heap m) (w.heap out))
    (hF : mask.Fits w out) (hS : mask.Sound w)
    (hgs : (w.heap s).nvalues ≤ w.gas) (hgm : (w.heap m).nvalues ≤ w.gas)
    (hrefl : s = out → m = out → ∀ i j, i < (w.heap out).rows → j < (w.heap out).cols →
      GoNum.geq ((w.heap out).val i j) ((w.heap out).val i j) = true) :
    MaskRespected w out mask (fun mask => Ops.elementWiseVectorMultiply s m mask out) ∧
    ((w.heap m).rows = (w.heap s).cols →
      MaskRespected w out mask (fun mask => Ops.elementWiseMatrixMultiply s m mask out)) := by
  have hkey : MaskRespected w out mask (fun mask => Ops.elementWiseMultiply s m mask out) := by
    refine MaskRespected.of_writes (Ops.eMul_writes hs hm hout hk h1 h2 hF hS hgs hgm hrefl)
      (Ops.eMul_writes hs hm hout hk h1 h2 (mask := .nil) trivial trivial hgs hgm hrefl) ?_ ?_
    · intro i j _ _ hb; unfold Ops.eMulNew; simp [hb]
    · intro i j _ _ hb; unfold Ops.eMulNew; simp [hb, Mask.bit_nil]
  constructor
  · have : ∀ mask, Ops.elementWiseVectorMultiply s m mask out w = Ops.elementWiseMultiply s m mask out w := by
      intro mask
      have : (w.heap m).rows = (w.heap s).rows := h2.1.trans h1.1.symm
      unfold Ops.elementWiseVectorMultiply
      rw [bind_apply]; simp only [rowsOf]; rw [bind_apply]; simp only [rowsOf]; simp [this]
    unfold MaskRespected at hkey ⊢
    simp only [this]; exact hkey
  · intro hsq
    have : ∀ mask, Ops.elementWiseMatrixMultiply s m mask out w = Ops.elementWiseMultiply s m mask out w := by
      intro mask
      unfold Ops.elementWiseMatrixMultiply
      rw [bind_apply]; simp only [rowsOf]; rw [bind_apply]; simp only [colsOf]; simp [hsq]
    unfold MaskRespected at hkey ⊢
    simp only [this]; exact hkey

/-- C22 for the element-wise sum, through either entry point, for a mask that is not the output.
Missing: the output as its own mask (`C22_refuted_eadd`). -/
theorem C22_elementWiseAdd_partial {w : World T} {s m out : Ref} {mask : Mask}
    (hs : (w.heap s).WF) (hm : (w.heap m).WF) (hout : (w.heap out).WF) (hk : (w.heap out).kind ≠ .svec)
    (h1 : SameShape (w.heap s) (w.heap out)) (h2 : SameShape (w.heap m) (w.heap out))
    (hF : mask.Fits w out) (hS : mask.Sound w) (hmo : mask ≠ .ref out)
    (hgs : (w.heap s).nvalues ≤ w.gas) (hgm : (w.heap m).nvalues ≤ w.gas) :
    MaskRespected w out mask (fun mask => Ops.elementWiseVectorAdd s m mask out) ∧
    ((w.heap m).rows = (w.heap s).cols →
      MaskRespected w out mask (fun mask => Ops.elementWiseMatrixAdd s m mask out)) := by
  have hkey : MaskRespected w out mask (fun mask => Ops.elementWiseAdd s m mask out) := by
    obtain ⟨m1, c1, e1, -, e3, e4, e5⟩ := Ops.eAdd_ok hs hm hout hk h1 h2 hF hS hmo hgs hgm
    obtain ⟨m2, c2, k1, -, k3, k4, -⟩ := Ops.eAdd_ok hs hm hout hk h1 h2 (mask := .nil) trivial trivial (by simp) hgs hgm
    have l1 : (Ops.elementWiseAdd s m mask out w).left out = some m1 := by rw [e1]; simp [Res.left, World.upd]
    have l2 : (Ops.elementWiseAdd s m .nil out w).left out = some m2 := by rw [k1]; simp [Res.left, World.upd]
    refine ⟨⟨m1, l1, ⟨e3.2.1, e3.2.2⟩, ?_⟩, fun hc => ⟨m1, m2, l1, l2, ⟨e3.2.1.trans k3.2.1.symm, e3.2.2.trans k3.2.2.symm⟩, ?_⟩⟩
    · intro i j hi hj hb
      rcases e5 i j (e3.2.1 ▸ hi) (e3.2.2 ▸ hj) with h | h | h
      · rw [h]; unfold Ops.eAddNew; rw [if_pos hb]
      · exact h
      · rw [hb] at h; cases h.1
    · intro i j hi hj hb
      have hi' : i < (w.heap out).rows := e3.2.1 ▸ hi
      have hj' : j < (w.heap out).cols := e3.2.2 ▸ hj
      rw [(e4 hc).2 i j hi' hj', (k4 hc).2 i j hi' hj']
      unfold Ops.eAddNew
      simp [hb, Mask.bit_nil]
  constructor
  · have : ∀ mask, Ops.elementWiseVectorAdd s m mask out w = Ops.elementWiseAdd s m mask out w := by
      intro mask
      have : (w.heap m).rows = (w.heap s).rows := h2.1.trans h1.1.symm
      unfold Ops.elementWiseVectorAdd
      rw [bind_apply]; simp only [rowsOf]; rw [bind_apply]; simp only [rowsOf]; simp [this]
    unfold MaskRespected at hkey ⊢
    simp only [this]; exact hkey
  · intro hsq
    have : ∀ mask, Ops.elementWiseMatrixAdd s m mask out w = Ops.elementWiseAdd s m mask out w := by
      intro mask
      unfold Ops.elementWiseMatrixAdd
      rw [bind_apply]; simp only [rowsOf]; rw [bind_apply]; simp only [colsOf]; simp [hsq]
    unfold MaskRespected at hkey ⊢
    simp only [this]; exact hkey

/-! ## The operators as one family -/

theorem eMulM_panic {w : World T} {s m out : Ref} {mask : Mask}
    (h : ¬ ((w.heap m).rows = (w.heap s).cols ∧ mask.Fits w out)) :
    Ops.elementWiseMatrixMultiply s m mask out w = .panic w := by
  unfold Ops.elementWiseMatrixMultiply
  rw [bind_apply]; simp only [rowsOf]; rw [bind_apply]; simp only [colsOf]
  by_cases h' : (w.heap m).rows = (w.heap s).cols
  · simp only [h', ne_eq, not_true, if_false]; exact Ops.eMul_panic (fun hF => h ⟨h', hF⟩)
  · simp only [ne_eq, h', not_false_iff, if_true]; rfl

theorem eMulV_panic {w : World T} {s m out : Ref} {mask : Mask}
    (h : ¬ ((w.heap m).rows = (w.heap s).rows ∧ mask.Fits w out)) :
    Ops.elementWiseVectorMultiply s m mask out w = .panic w := by
  unfold Ops.elementWiseVectorMultiply
  rw [bind_apply]; simp only [rowsOf]; rw [bind_apply]; simp only [rowsOf]
  by_cases h' : (w.heap m).rows = (w.heap s).rows
  · simp only [h', ne_eq, not_true, if_false]; exact Ops.eMul_panic (fun hF => h ⟨h', hF⟩)
  · simp only [ne_eq, h', not_false_iff, if_true]; rfl

theorem eAddM_panic {w : World T} {s m out : Ref} {mask : Mask}
    (h : ¬ ((w.heap m).rows = (w.heap s).cols ∧ mask.Fits w out)) :
    Ops.elementWiseMatrixAdd s m mask out w = .panic w := by
  unfold Ops.elementWiseMatrixAdd
  rw [bind_apply]; simp only [rowsOf]; rw [bind_apply]; simp only [colsOf]
  by_cases h' : (w.heap m).rows = (w.heap s).cols
  · simp only [h', ne_eq, not_true, if_false]; exact Ops.eAdd_panic (fun hF => h ⟨h', hF⟩)
  · simp only [ne_eq, h', not_false_iff, if_true]; rfl

theorem eAddV_panic {w : World T} {s m out : Ref} {mask : Mask}
    (h : ¬ ((w.heap m).rows = (w.heap s).rows ∧ mask.Fits w out)) :
    Ops.elementWiseVectorAdd s m mask out w = .panic w := by
  unfold Ops.elementWiseVectorAdd
  rw [bind_apply]; simp only [rowsOf]; rw [bind_apply]; simp only [rowsOf]
  by_cases h' : (w.heap m).rows = (w.heap s).rows
  · simp only [h', ne_eq, not_true, if_false]; exact Ops.eAdd_panic (fun hF => h ⟨h', hF⟩)
  · simp only [ne_eq, h', not_false_iff, if_true]; rfl

/-- C22. For every operator, in every state: a mask whose shape is not the output's makes the call
panic, and the state is then exactly what it was. -/
theorem C22_wrong_shape_panics (w : World T) (mask : Mask) (out : Ref) (call : OpCall T)
    (h : ¬ mask.Fits w out) : call.run mask out w = .panic w := by
  cases call with
  | mxm s m => exact Ops.multiply_panic (fun h' => h h'.2)
  | mxv s m => exact Ops.multiply_panic (fun h' => h h'.2)
  | vxm s m => exact Ops.multiply_panic (fun h' => h h'.2)
  | add s m => exact Ops.add_panic (fun h' => h h'.2)
  | subtract s m => exact Ops.subtract_panic (fun h' => h h'.2)
  | eMulMatrix s m => exact eMulM_panic (fun h' => h h'.2)
  | eMulVector s m => exact eMulV_panic (fun h' => h h'.2)
  | eAddMatrix s m => exact eAddM_panic (fun h' => h h'.2)
  | eAddVector s m => exact eAddV_panic (fun h' => h h'.2)
  | apply s u => exact Ops.apply_panic h
  | negative s => exact Ops.negative_panic (s := s) h
  | transpose s => exact Ops.transpose_panic h

/-- C22. For every operator, in every state: no mask behaves, to the last detail of the outcome, as a
mask of the output's shape that is false everywhere. -/
theorem C22_nil_is_false_everywhere (w : World T) (out : Ref) (call : OpCall T) :
    call.run .nil out w = call.run (.empty (w.heap out).rows (w.heap out).cols) out w := by
  have key : ∀ k : Mask → M T Unit, (do let mask ← (Mask.nil).orEmpty out; k mask) w =
      (do let mask ← (Mask.empty (w.heap out).rows (w.heap out).cols).orEmpty out; k mask) w := by
    intro k
    rw [bind_apply, Mask.orEmpty_apply, bind_apply, Mask.orEmpty_apply]; rfl
  have pre : ∀ (c : Prop) [Decidable c] (x y : M T Unit), x w = y w →
      (if c then (do let _ ← (fail : M T Unit); x) else x) w = (if c then (do let _ ← (fail : M T Unit); y) else y) w := by
    intro c _ x y h; split
    · rfl
    · exact h
  have h1 : ∀ s m : Ref, Ops.multiply s m .nil out w =
      Ops.multiply s m (.empty (w.heap out).rows (w.heap out).cols) out w := by
    intro s m; exact pre _ _ _ (key _)
  have h2 : ∀ s m : Ref, Ops.elementWiseMultiply s m .nil out w =
      Ops.elementWiseMultiply s m (.empty (w.heap out).rows (w.heap out).cols) out w := fun s m => key _
  have h3 : ∀ s m : Ref, Ops.elementWiseAdd s m .nil out w =
      Ops.elementWiseAdd s m (.empty (w.heap out).rows (w.heap out).cols) out w := fun s m => key _
  cases call with
  | mxm s m => exact h1 s m
  | mxv s m => exact h1 s m
  | vxm s m => exact h1 m s
  | add s m => exact pre _ _ _ (pre _ _ _ (key _))
  | subtract s m => exact pre _ _ _ (pre _ _ _ (key _))
  | eMulMatrix s m => exact pre _ _ _ (h2 s m)
  | eMulVector s m => exact pre _ _ _ (h2 s m)
  | eAddMatrix s m => exact pre _ _ _ (h3 s m)
  | eAddVector s m => exact pre _ _ _ (h3 s m)
  | apply s u => exact key _
  | negative s => exact key _
  | transpose s => exact key _

end general

section ring
variable {T : Type} [GoRing T] [GoLawful T]

/-- C22 for `Negative` over any ring of values: no condition on the contents. -/
theorem C22_negative_ring {w : World T} {s out : Ref} {mask : Mask}
    (hout : (w.heap out).WF) (hF : mask.Fits w out) (hS : mask.Sound w) (hgas : (w.heap out).nvalues ≤ w.gas) :
    MaskRespected w out mask (fun mask => Ops.negative s mask out) :=
  C22_negative hout hF hS hgas (fun i j hi hj hv => by
    have := Mat.visits_storable hout hi hj hv
    unfold Mat.Storable at this ⊢
    split at this
    · trivial
    · trivial
    · rw [Bool.eq_false_iff] at this ⊢
      intro h; exact this ((isZero_iff _).2 (neg_eq_zero.1 ((isZero_iff _).1 h))))

end ring

/-! ## Refutations and examples -/

/-- C22, full statement: false for `MatrixMatrixMultiply` when the output is the right operand. Here
`[[1 1] [1 1]] · [[1 1] [1 1]]` with the cell (0,0) masked: the cell (1,0) is unmasked and gets 2; the
call without mask puts 3 there. -/
theorem C22_refuted_multiply : ¬ ∀ (w : World ℤ) (s m out : Ref) (mask : Mask),
    (w.heap s).WF → (w.heap m).WF → (w.heap m).rows = (w.heap s).cols → (w.heap out).rows = (w.heap s).rows →
    (w.heap out).cols = (w.heap m).cols → (w.heap out).WF → mask.Fits w out → mask.Sound w →
    MaskRespected w out mask (fun mask => Ops.matrixMatrixMultiply s m mask out) := by
  intro h
  have := (h (World.of 9 [.dense { r := 2, c := 2, data := [[1, 1], [1, 1]] },
      .dense { r := 2, c := 2, data := [[1, 1], [1, 1]] }, .dense { r := 2, c := 2, data := [[1, 0], [0, 0]] }])
    0 1 1 (.ref 2) ⟨rfl, by decide⟩ ⟨rfl, by decide⟩ rfl rfl rfl ⟨rfl, by decide⟩ ⟨rfl, rfl⟩ ⟨rfl, by decide⟩).2 rfl
  obtain ⟨o, o', h1, h2, -, h4⟩ := this
  have e1 : o = .dense { r := 2, c := 2, data := [[1, 2], [2, 3]] } := by
    have : (some o : Option (Mat ℤ)) = some (.dense { r := 2, c := 2, data := [[1, 2], [2, 3]] }) :=
      h1.symm.trans (by kernel_rfl)
    exact Option.some.inj this
  have e2 : o' = .dense { r := 2, c := 2, data := [[2, 2], [3, 3]] } := by
    have : (some o' : Option (Mat ℤ)) = some (.dense { r := 2, c := 2, data := [[2, 2], [3, 3]] }) :=
      h2.symm.trans (by kernel_rfl)
    exact Option.some.inj this
  subst e1 e2
  exact absurd (h4 1 0 (by decide) (by decide) (by kernel_rfl)) (by decide +kernel)

/-- C22, full statement: false for the element-wise sum when the output is its own mask: the first loop
changes the mask the second loop reads. -/
theorem C22_refuted_eadd : ¬ ∀ (w : World ℤ) (s m out : Ref) (mask : Mask),
    (w.heap s).WF → (w.heap m).WF → SameShape (w.heap s) (w.heap out) → SameShape (w.heap m) (w.heap out) →
    (w.heap out).WF → mask.Fits w out → mask.Sound w →
    MaskRespected w out mask (fun mask => Ops.elementWiseVectorAdd s m mask out) := by
  intro h
  have := (h (World.of 9 [.dvec { l := 1, values := [1] }, .dvec { l := 1, values := [2] }, .dvec { l := 1, values := [0] }])
    0 1 2 (.ref 2) rfl rfl ⟨rfl, rfl⟩ ⟨rfl, rfl⟩ rfl ⟨rfl, rfl⟩ rfl).2 rfl
  obtain ⟨o, o', h1, h2, -, h4⟩ := this
  have e1 : o = .dvec { l := 1, values := [1] } := by
    have : (some o : Option (Mat ℤ)) = some (.dvec { l := 1, values := [1] }) := h1.symm.trans (by kernel_rfl)
    exact Option.some.inj this
  have e2 : o' = .dvec { l := 1, values := [2] } := by
    have : (some o' : Option (Mat ℤ)) = some (.dvec { l := 1, values := [2] }) := h2.symm.trans (by kernel_rfl)
    exact Option.some.inj this
  subst e1 e2
  exact absurd (h4 0 0 (by decide) (by decide) (by kernel_rfl)) (by decide +kernel)

/-- A masked in-place addition meeting the hypotheses of `C22_add_partial`: the mask is the output itself. -/
example : (Ops.add 0 1 (.ref 0) 0 (World.of (T := ℤ) 9 [.dense { r := 1, c := 3, data := [[5, 0, -2]] },
      .csr { r := 1, c := 3, values := [7, 8], cols := [1, 2], rowStart := [0, 2] }])).left 0 =
    some (.dense { r := 1, c := 3, data := [[5, 7, 6]] }) := by kernel_rfl

end GB
