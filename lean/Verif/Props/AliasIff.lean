import Verif.Props.Effects
import Verif.Props.Multiply

/-!
# C46: exactly when an output may be an operand
-/

namespace GB

set_option linter.unusedSectionVars false

open M

section lawful
variable {T : Type} [GoNum T] [GoStore T] [GoLawful T] {w : World T} {s m sep : Ref} {mask : Mask}

theorem AliasSame.iff_of_writes {al sep : Ref} {run : Ref → M T Unit} {new new' : Nat → Nat → T}
    (hc : w.cancel = none) (he : w.heap sep = w.heap al)
    (h : Writes w al new (run al w)) (h' : Writes w sep new' (run sep w)) :
    AliasSame w al sep run ↔ ∀ i j, i < (w.heap al).rows → j < (w.heap al).cols → new i j = new' i j := by
  refine ⟨?_, AliasSame.of_writes hc he h h'⟩
  rintro ⟨o, o', e1, e2, -, e4⟩ i j hi hj
  obtain ⟨m1, c1, h1, -, h3, h4, -⟩ := h
  obtain ⟨m2, c2, k1, -, k3, k4, -⟩ := h'
  rw [he] at k3
  rw [h1] at e1
  rw [k1] at e2
  simp only [Res.left, World.upd, Function.update_self, Option.some.injEq] at e1 e2
  subst e1 e2
  have := e4 i j (by rw [h3.2.1]; exact hi) (by rw [h3.2.2]; exact hj)
  rw [(h4 hc).2 i j (by rw [h3.2.1]; exact hi) (by rw [h3.2.2]; exact hj),
    (k4 hc).2 i j (by rw [k3.2.1]; exact hi) (by rw [k3.2.2]; exact hj)] at this
  exact this

theorem vectorMultiply_eq (h : (w.heap m).rows = (w.heap s).rows) (out : Ref) :
    Ops.elementWiseVectorMultiply s m mask out w = Ops.elementWiseMultiply s m mask out w := by
  unfold Ops.elementWiseVectorMultiply
  rw [bind_apply]; simp only [rowsOf]; rw [bind_apply]; simp only [rowsOf]; simp [h]

theorem vectorAdd_eq (h : (w.heap m).rows = (w.heap s).rows) (out : Ref) :
    Ops.elementWiseVectorAdd s m mask out w = Ops.elementWiseAdd s m mask out w := by
  unfold Ops.elementWiseVectorAdd
  rw [bind_apply]; simp only [rowsOf]; rw [bind_apply]; simp only [rowsOf]; simp [h]

/-- Into a separate output that holds what one of the operands holds, the element-wise product writes nothing
new. -/
theorem eMul_sep {al : Ref} (hal : al = s ∨ al = m) (he : w.heap sep = w.heap al) (hs : s ≠ sep) (hm : m ≠ sep)
    (i j : Nat) : Ops.eMulNew w s m mask sep i j = (w.heap al).val i j := by
  unfold Ops.eMulNew
  simp only [hs, hm, or_self, if_false, he, Mat.keep_lawful, GoLawful.eq_iff]
  split
  · rfl
  · split
    · rename_i h
      unfold Ops.addOver Ops.addSource at h
      unfold Ops.addOver
      rcases hal with rfl | rfl
      · split
        · rfl
        · rename_i hx
          simp only [hx, if_false] at h
          exact (GoLawful.eq_iff _ _).1 h.2
      · split
        · rename_i hx
          simp only [hx, if_true] at h
          exact (GoLawful.eq_iff _ _).1 h.2
        · rfl
    · rfl

/-- C46 for the element-wise product, exactly when, left operand as output: at every unmasked cell that the
right operand enumerates, the left operand holds 0 or the same value. -/
theorem C46_elementWiseMultiply_left_iff (hc : w.cancel = none)
    (hs : (w.heap s).WF) (hm : (w.heap m).WF) (hk : (w.heap s).kind ≠ .svec)
    (h1 : SameShape (w.heap m) (w.heap s)) (hF : mask.Fits w s) (hS : mask.Sound w)
    (hgs : (w.heap s).nvalues ≤ w.gas) (hgm : (w.heap m).nvalues ≤ w.gas)
    (hne : m ≠ s) (hne' : m ≠ sep) (hsep : s ≠ sep) (he : w.heap sep = w.heap s) :
    AliasSame w s sep (fun out => Ops.elementWiseVectorMultiply s m mask out) ↔
      ∀ i j, i < (w.heap s).rows → j < (w.heap s).cols → mask.bit w i j = false → (w.heap m).Visits i j →
        (w.heap s).val i j = 0 ∨ (w.heap s).val i j = (w.heap m).val i j := by
  classical
  rw [AliasSame.iff_of_writes hc he
    (by rw [vectorMultiply_eq h1.1]
        exact Ops.eMul_writes hs hm hs hk ⟨rfl, rfl⟩ h1 hF hS hgs hgm (fun _ h => absurd h hne))
    (by rw [vectorMultiply_eq h1.1]
        exact Ops.eMul_writes hs hm (he ▸ hs) (he ▸ hk) (he ▸ ⟨rfl, rfl⟩) (he ▸ h1) (Mask.fits_congr he hF) hS hgs hgm
          (fun h => absurd h hsep))]
  refine forall_congr' fun i => forall_congr' fun j => forall_congr' fun _ => forall_congr' fun _ => ?_
  rw [eMul_sep (Or.inl rfl) he hsep hne']
  unfold Ops.eMulNew
  simp only [hne, or_true, if_true, if_false, Mat.keep_lawful, GoLawful.eq_iff]
  cases mask.bit w i j <;> simp only [Bool.false_eq_true, if_true, if_false, true_implies, false_implies, reduceCtorEq]
  by_cases hv : (w.heap m).Visits i j
  · simp only [hv, if_true, true_implies]
    by_cases hx : (w.heap m).val i j = (w.heap s).val i j
    · simp [hx]
    · rw [if_neg hx]
      constructor
      · exact fun h => .inl h.symm
      · rintro (h | h)
        · exact h.symm
        · exact absurd h.symm hx
  · simp [hv]

/-- C46 for the element-wise product, exactly when, right operand as output. -/
theorem C46_elementWiseMultiply_right_iff (hc : w.cancel = none)
    (hs : (w.heap s).WF) (hm : (w.heap m).WF) (hk : (w.heap m).kind ≠ .svec)
    (h1 : SameShape (w.heap s) (w.heap m)) (hF : mask.Fits w m) (hS : mask.Sound w)
    (hgs : (w.heap s).nvalues ≤ w.gas) (hgm : (w.heap m).nvalues ≤ w.gas)
    (hne : s ≠ m) (hne' : s ≠ sep) (hsep : m ≠ sep) (he : w.heap sep = w.heap m) :
    AliasSame w m sep (fun out => Ops.elementWiseVectorMultiply s m mask out) ↔
      ∀ i j, i < (w.heap m).rows → j < (w.heap m).cols → mask.bit w i j = false → (w.heap s).Visits i j →
        (w.heap m).val i j = 0 ∨ (w.heap m).val i j = (w.heap s).val i j := by
  classical
  rw [AliasSame.iff_of_writes hc he
    (by rw [vectorMultiply_eq h1.1.symm]
        exact Ops.eMul_writes hs hm hm hk h1 ⟨rfl, rfl⟩ hF hS hgs hgm (fun h => absurd h hne))
    (by rw [vectorMultiply_eq h1.1.symm]
        exact Ops.eMul_writes hs hm (he ▸ hm) (he ▸ hk) (he ▸ h1) (he ▸ ⟨rfl, rfl⟩) (Mask.fits_congr he hF) hS hgs hgm
          (fun h => absurd h hne'))]
  refine forall_congr' fun i => forall_congr' fun j => forall_congr' fun _ => forall_congr' fun _ => ?_
  rw [eMul_sep (Or.inr rfl) he hne' hsep]
  unfold Ops.eMulNew
  simp only [true_or, if_true, Mat.keep_lawful, GoLawful.eq_iff]
  cases mask.bit w i j <;> simp only [Bool.false_eq_true, if_true, if_false, true_implies, false_implies, reduceCtorEq]
  by_cases hv : (w.heap s).Visits i j
  · simp only [hv, if_true, true_implies]
    by_cases hx : (w.heap s).val i j = (w.heap m).val i j
    · simp [hx]
    · rw [if_neg hx]
      constructor
      · exact fun h => .inl h.symm
      · rintro (h | h)
        · exact h.symm
        · exact absurd h.symm hx
  · simp [hv]

/-- C46 for the element-wise sum, exactly when, right operand as output: wherever both operands are non-zero
they agree. -/
theorem C46_elementWiseAdd_right_iff (hc : w.cancel = none)
    (hs : (w.heap s).WF) (hm : (w.heap m).WF) (hk : (w.heap m).kind ≠ .svec)
    (h1 : SameShape (w.heap s) (w.heap m)) (hF : mask.Fits w m) (hS : mask.Sound w)
    (hmo : mask ≠ .ref m ∧ mask ≠ .ref sep)
    (hgs : (w.heap s).nvalues ≤ w.gas) (hgm : (w.heap m).nvalues ≤ w.gas)
    (hne : s ≠ m) (hne' : s ≠ sep) (hsep : m ≠ sep) (he : w.heap sep = w.heap m) :
    AliasSame w m sep (fun out => Ops.elementWiseVectorAdd s m mask out) ↔
      ∀ i j, i < (w.heap m).rows → j < (w.heap m).cols → mask.bit w i j = false →
        (w.heap s).val i j ≠ 0 → (w.heap m).val i j ≠ 0 → (w.heap s).val i j = (w.heap m).val i j := by
  have hz : ∀ x : T, isZero x = false ↔ x ≠ 0 := fun x => by
    rw [Bool.eq_false_iff, ne_eq, ne_eq, isZero_iff]
  obtain ⟨m1, c1, e1, -, e3, e4, -⟩ := Ops.eAdd_ok (out := m) hs hm hm hk h1 ⟨rfl, rfl⟩ hF hS hmo.1 hgs hgm
  obtain ⟨m2, c2, k1, -, k3, k4, -⟩ := Ops.eAdd_ok (out := sep) hs hm (he ▸ hm) (he ▸ hk) (he ▸ h1) (he ▸ ⟨rfl, rfl⟩)
    (Mask.fits_congr he hF) hS hmo.2 hgs hgm
  rw [he] at k3 k4
  have l1 : ((fun out => Ops.elementWiseVectorAdd s m mask out) m w).left m = some m1 := by
    dsimp only; rw [vectorAdd_eq h1.1.symm, e1]; simp [Res.left, World.upd]
  have l2 : ((fun out => Ops.elementWiseVectorAdd s m mask out) sep w).left sep = some m2 := by
    dsimp only; rw [vectorAdd_eq h1.1.symm, k1]; simp [Res.left, World.upd]
  have key : AliasSame w m sep (fun out => Ops.elementWiseVectorAdd s m mask out) ↔
      ∀ i j, i < (w.heap m).rows → j < (w.heap m).cols →
        Ops.eAddNew w s m mask m i j = Ops.eAddNew w s m mask sep i j := by
    constructor
    · rintro ⟨o, o', g1, g2, -, g4⟩ i j hi hj
      obtain rfl := Option.some.inj (l1.symm.trans g1)
      obtain rfl := Option.some.inj (l2.symm.trans g2)
      rw [← (e4 hc).2 i j hi hj, ← (k4 hc).2 i j hi hj]
      exact g4 i j (by rw [e3.2.1]; exact hi) (by rw [e3.2.2]; exact hj)
    · intro g
      refine ⟨m1, m2, l1, l2, ⟨e3.2.1.trans k3.2.1.symm, e3.2.2.trans k3.2.2.symm⟩, fun i j hi hj => ?_⟩
      have hi' : i < (w.heap m).rows := e3.2.1 ▸ hi
      have hj' : j < (w.heap m).cols := e3.2.2 ▸ hj
      rw [(e4 hc).2 i j hi' hj', (k4 hc).2 i j hi' hj']
      exact g i j hi' hj'
  rw [key]
  refine forall_congr' fun i => forall_congr' fun j => forall_congr' fun _ => forall_congr' fun _ => ?_
  unfold Ops.eAddNew
  simp only [he, hne, hne', hsep, ne_eq, not_true, false_and, not_false_iff, true_and, if_false, Mat.keep_lawful]
  cases mask.bit w i j <;> simp only [Bool.false_eq_true, if_true, if_false, true_implies, false_implies, reduceCtorEq]
  have hx : ¬ isZero (0 : T) = false := by rw [isZero_zero]; simp
  by_cases h0 : (w.heap s).val i j = 0 <;> by_cases h2 : (w.heap m).val i j = 0
  · simp [h0, h2]
  · simp [h0, hx]
  · simp [h2, hx]
  · have h0' := (hz _).2 h0
    have h2' := (hz _).2 h2
    simp [h0, h0', h2', h2]

end lawful

section ring
variable {T : Type} [GoRing T] [GoLawful T] [GoStore T]

/-- C46 for multiplication, exactly when, right operand as output, which is dense; any left operand and mask: in each
unmasked cell of the product, the terms that are computed from cells already overwritten must add up to what the old ones
would have given. (`rowVal` is what multiplication reads of the left operand: its cells if it is dense.) -/
theorem C46_multiply_right_masked_iff {w : World T} {s m sep : Ref} {mask : Mask} (hc : w.cancel = none)
    (hs : (w.heap s).WF) (hm : (w.heap m).WF) (hkm : (w.heap m).kind = .dense)
    (h1 : (w.heap m).rows = (w.heap s).cols) (h2 : (w.heap m).rows = (w.heap s).rows)
    (hF : mask.Fits w m) (hF' : mask.Fits w sep) (hS : mask.Sound w)
    (hsep : m ≠ sep) (he : w.heap sep = w.heap m) :
    AliasSame w m sep (fun out => Ops.matrixMatrixMultiply s m mask out) ↔
      ∀ k j, k < (w.heap m).rows → j < (w.heap m).cols → mask.bit w k j = false →
        ∑ l ∈ Finset.range k, (w.heap s).rowVal k l * (if mask.bit w l j then 0 else
          (∑ t ∈ Finset.range (w.heap s).cols, (w.heap s).rowVal l t * (w.heap m).val t j) - (w.heap m).val l j) = 0 := by
  have hk : (w.heap m).kind ≠ .svec := by rw [hkm]; simp
  rw [AliasSame.iff_of_writes (run := fun out => Ops.matrixMatrixMultiply s m mask out) hc he
    (Ops.multiply_writes_right (mask := mask) hs hm hk h1 h2 hF hS)
    (Ops.multiply_writes (mask := mask) hs hm (he ▸ hm) (he ▸ hk) h1 (by rw [he]; exact h2) (by rw [he]) hF' hS hsep)]
  have hcol : ∀ j l, (w.heap m).colVal j l = (w.heap m).val l j := by
    intro j l; unfold Mat.colVal; rw [hkm]
  have hsee : (w.heap m).seeCol = fun g => g := by
    funext g l; unfold Mat.seeCol; rw [hkm]
  have hkeep : (w.heap m).keep = fun x => x := by funext x; simp
  rw [hsee, hkeep]
  set a := (w.heap s).rowVal with ha
  set b := (w.heap m).val with hb
  set n := (w.heap s).cols with hn
  set B := mask.bit w with hB
  have hcolf : ∀ j, (w.heap m).colVal j = fun l => b l j := fun j => funext (hcol j)
  simp only [hcolf, Mat.keep_lawful, he, ← hb]
  rw [← h2] at *
  set F := mulInto n a (fun g => g) B (fun x => x) b with hFd
  have hold : ∀ k j, k < n → B k j = true → F n k j = b k j := by
    intro k j hkn hb
    rw [hFd, Ops.mulInto_done hkn]
    show (if k = k then (if B k j = true then _ else _) else _) = _
    rw [if_pos rfl, if_pos hb]
  have hfin : ∀ k j, k < n → B k j = false → F n k j = ∑ l ∈ Finset.range n, a k l * (if l < k then F n l j else b l j) := by
    intro k j hkn hb
    rw [hFd, Ops.mulInto_done hkn]
    show (if k = k then (if B k j = true then _ else _) else _) = _
    rw [if_pos rfl, if_neg (by simp [hb])]
    rw [dotSum_eq]
    refine Finset.sum_congr rfl (fun l _ => ?_)
    congr 1
    show mulInto n a (fun g => g) B (fun x => x) b k l j = _
    by_cases hl : l < k
    · rw [if_pos hl, Ops.mulInto_done hl, Ops.mulInto_done (by omega : l < n)]
    · rw [if_neg hl, Ops.mulInto_todo (by omega)]
  have hsum : ∀ k j, k < n → B k j = false →
      (∀ l, l < k → F n l j = if B l j then b l j else ∑ t ∈ Finset.range n, a l t * b t j) →
      F n k j - ∑ t ∈ Finset.range n, a k t * b t j =
        ∑ l ∈ Finset.range k, a k l * (if B l j then 0 else (∑ t ∈ Finset.range n, a l t * b t j) - b l j) := by
    intro k j hkn hb hl
    rw [hfin k j hkn hb, ← Finset.sum_sub_distrib]
    rw [← Finset.sum_subset (Finset.range_subset_range.2 hkn.le) (f := fun l => a k l * (if l < k then F n l j else b l j) - a k l * b l j)]
    · refine Finset.sum_congr rfl (fun l hlk => ?_)
      have := Finset.mem_range.1 hlk
      rw [if_pos this, hl l this]
      by_cases hbl : B l j = true
      · rw [if_pos hbl, if_pos hbl, sub_self, mul_zero]
      · rw [if_neg hbl, if_neg hbl, mul_sub]
    · intro l _ hlk
      rw [if_neg (fun h => hlk (Finset.mem_range.2 h)), sub_self]
  rw [h1]
  constructor
  · intro h k j hkr hj hb
    rw [← hsum k j hkr hb (fun l hl => by rw [h l j (by omega) hj, dotSum_eq]), h k j hkr hj, if_neg (by simp [hb]), dotSum_eq,
      sub_self]
  · intro h k
    induction k using Nat.strong_induction_on with
    | _ k ih =>
      intro j hkr hj
      by_cases hb : B k j = true
      · rw [if_pos hb, hold k j hkr hb]
      · have hb' : B k j = false := by simpa using hb
        rw [if_neg hb, dotSum_eq]
        refine sub_eq_zero.1 ?_
        rw [hsum k j hkr hb' (fun l hl => by rw [ih l hl j (by omega) hj, dotSum_eq])]
        exact h k j hkr hj hb'

/-- C46 for multiplication, exactly when, right operand as output (dense operands, no mask): in each row of the product,
the terms that are computed from rows already overwritten must add up to what the old rows would have given. -/
theorem C46_multiply_right_iff {w : World T} {s m sep : Ref} (hc : w.cancel = none)
    (hs : (w.heap s).WF) (hm : (w.heap m).WF) (hks : (w.heap s).kind = .dense) (hkm : (w.heap m).kind = .dense)
    (h1 : (w.heap m).rows = (w.heap s).cols) (h2 : (w.heap m).rows = (w.heap s).rows)
    (hsep : m ≠ sep) (he : w.heap sep = w.heap m) :
    AliasSame w m sep (fun out => Ops.matrixMatrixMultiply s m .nil out) ↔
      ∀ k j, k < (w.heap m).rows → j < (w.heap m).cols →
        ∑ l ∈ Finset.range k, (w.heap s).val k l *
          ((∑ t ∈ Finset.range (w.heap s).cols, (w.heap s).val l t * (w.heap m).val t j) - (w.heap m).val l j) = 0 := by
  have hrow : (w.heap s).rowVal = (w.heap s).val := by
    funext i l; unfold Mat.rowVal; rw [hks]
  rw [C46_multiply_right_masked_iff (mask := .nil) hc hs hm hkm h1 h2 trivial trivial trivial hsep he, hrow]
  simp [Mask.bit]

/-- C46: an upper triangular matrix may be multiplied into its right operand. -/
theorem C46_multiply_triangular {w : World T} {s m sep : Ref} (hc : w.cancel = none)
    (hs : (w.heap s).WF) (hm : (w.heap m).WF) (hks : (w.heap s).kind = .dense) (hkm : (w.heap m).kind = .dense)
    (h1 : (w.heap m).rows = (w.heap s).cols) (h2 : (w.heap m).rows = (w.heap s).rows)
    (hsep : m ≠ sep) (he : w.heap sep = w.heap m)
    (htri : ∀ k l, k < (w.heap s).rows → l < k → (w.heap s).val k l = 0) :
    AliasSame w m sep (fun out => Ops.matrixMatrixMultiply s m .nil out) := by
  rw [C46_multiply_right_iff hc hs hm hks hkm h1 h2 hsep he]
  intro k j hk _
  exact Finset.sum_eq_zero (fun l hl => by rw [htri k l (by omega) (Finset.mem_range.1 hl), zero_mul])

/-- `[[2 3] [0 5]]` times `[[1 1] [1 0]]` into the latter. -/
example : (Ops.matrixMatrixMultiply 0 1 .nil 1 (World.of (T := ℤ) 9 [.dense { r := 2, c := 2, data := [[2, 3], [0, 5]] },
      .dense { r := 2, c := 2, data := [[1, 1], [1, 0]] }])).left 1 =
    some (.dense { r := 2, c := 2, data := [[5, 2], [5, 0]] }) := by kernel_rfl

/-- A mask that protects the first row makes the multiplication in place right, though the left operand is not
triangular: `[[1 1] [1 1]]` times `[[1 2] [3 4]]` into the latter. -/
example : (Ops.matrixMatrixMultiply 0 1 (.ref 2) 1 (World.of (T := ℤ) 9 [.dense { r := 2, c := 2, data := [[1, 1], [1, 1]] },
      .dense { r := 2, c := 2, data := [[1, 2], [3, 4]] }, .dense { r := 2, c := 2, data := [[1, 1], [0, 0]] }])).left 1 =
    some (.dense { r := 2, c := 2, data := [[1, 2], [4, 6]] }) := by kernel_rfl

end ring

/-- The two sides of `C46_elementWiseMultiply_left_iff` both occur: `(0 2)` by `(7 2)` is `(0 2)` in place and
into a copy; `(1 2)` by `(7 2)` is `(0 2)` in place and `(1 2)` into a copy. -/
example : (Ops.elementWiseVectorMultiply 0 1 .nil 0 (World.of (T := ℤ) 9 [.dvec { l := 2, values := [0, 2] },
      .dvec { l := 2, values := [7, 2] }])).left 0 = some (.dvec { l := 2, values := [0, 2] }) ∧
    (Ops.elementWiseVectorMultiply 0 1 .nil 0 (World.of (T := ℤ) 9 [.dvec { l := 2, values := [1, 2] },
      .dvec { l := 2, values := [7, 2] }])).left 0 = some (.dvec { l := 2, values := [0, 2] }) ∧
    (Ops.elementWiseVectorMultiply 0 1 .nil 2 (World.of (T := ℤ) 9 [.dvec { l := 2, values := [1, 2] },
      .dvec { l := 2, values := [7, 2] }, .dvec { l := 2, values := [1, 2] }])).left 2 = some (.dvec { l := 2, values := [1, 2] }) :=
  ⟨by kernel_rfl, by kernel_rfl, by kernel_rfl⟩

/-- In-place element-wise sums with the right operand as output that agree with the separate one: `(3 0)` and
`(3 4)`. -/
example : (Ops.elementWiseVectorAdd 0 1 .nil 1 (World.of (T := ℤ) 9 [.dvec { l := 2, values := [3, 0] },
      .dvec { l := 2, values := [3, 4] }])).left 1 = some (.dvec { l := 2, values := [3, 4] }) := by kernel_rfl

end GB
