import Verif.Props.FloatSum
import Verif.Props.MapZero
import Verif.Lemmas.FloatLimits

/-!
# Floating-point elements: C65 (Scalar and Negative)
-/

namespace GB

set_option linter.unusedSectionVars false

open M Meth

section
variable {f : Fmt} {w : World (Fl f)} {s : Ref}

namespace Fl

/-- The sign bit. -/
def sign (x : Fl f) : Bool := x.1.sign

/-- The sign of a product, underflow to zero and overflow to infinity included. -/
theorem sign_mul (x y : Fl f) (h : x * y ≠ nan) : (x * y).sign = (x.sign ^^ y.sign) := by
  obtain ⟨x, hx⟩ := x
  obtain ⟨y, hy⟩ := y
  have h : x.mul f y ≠ .nan := fun e => h (ext e)
  show (x.mul f y).sign = (x.sign ^^ y.sign)
  cases x with
  | nan => simp [Raw.mul] at h
  | inf s => cases y <;> simp [Raw.mul, Raw.sign] at h ⊢
  | zero s => cases y <;> simp [Raw.mul, Raw.sign] at h ⊢
  | num p =>
    cases y with
    | nan => simp [Raw.mul] at h
    | inf t => simp [Raw.mul, Raw.sign]
    | zero t => simp [Raw.mul, Raw.sign]
    | num q =>
      have hp : p ≠ 0 := hx.1
      have hq : q ≠ 0 := hy.1
      have key : decide (p * q < 0) = (decide (p < 0) ^^ decide (q < 0)) := by
        rcases lt_or_gt_of_ne hp with h1 | h1 <;> rcases lt_or_gt_of_ne hq with h2 | h2
        · rw [decide_eq_false (not_lt.2 (mul_pos_of_neg_of_neg h1 h2).le), decide_eq_true h1, decide_eq_true h2]; rfl
        · rw [decide_eq_true (mul_neg_of_neg_of_pos h1 h2), decide_eq_true h1, decide_eq_false (not_lt.2 h2.le)]; rfl
        · rw [decide_eq_true (mul_neg_of_pos_of_neg h1 h2), decide_eq_true h2, decide_eq_false (not_lt.2 h1.le)]; rfl
        · rw [decide_eq_false (not_lt.2 (mul_pos h1 h2).le), decide_eq_false (not_lt.2 h1.le), decide_eq_false (not_lt.2 h2.le)]; rfl
      have hpq : p * q ≠ 0 := mul_ne_zero hp hq
      show (f.round false (p * q)).sign = (decide (p < 0) ^^ decide (q < 0))
      rw [← key]
      unfold Fmt.round
      rw [if_neg hpq]
      dsimp only
      split
      · rfl
      · split
        · rfl
        · rename_i hv _
          have hv' : 0 < f.nearest |p * q| :=
            lt_of_le_of_ne (f.nearest_nonneg (abs_pos.2 hpq)) (Ne.symm hv)
          show decide ((if p * q < 0 then -f.nearest |p * q| else f.nearest |p * q|) < 0) = _
          split
          · rename_i hlt; rw [decide_eq_true hlt, decide_eq_true (neg_lt_zero.2 hv')]
          · rename_i hlt; rw [decide_eq_false hlt, decide_eq_false (not_lt.2 hv'.le)]

theorem sign_neg (x : Fl f) (h : x ≠ nan) : (-x).sign = !x.sign := by
  obtain ⟨x, hx⟩ := x
  have h : x ≠ .nan := fun e => h (ext e)
  show x.neg.sign = !x.sign
  cases x with
  | nan => exact absurd rfl h
  | inf s => rfl
  | zero s => rfl
  | num q =>
    have hq : q ≠ 0 := hx.1
    show decide (-q < 0) = !decide (q < 0)
    rcases lt_or_gt_of_ne hq with h1 | h1
    · simp [h1, h1.le]
    · simp [h1, h1.le]

end Fl

open Classical in
/-- C65, the part that holds: `Scalar(alpha)` with floating-point elements, bit for bit, for dense storage
and for other storage when no product of a non-zero cell underflows to zero. Cells that are not
stored stay `+0`, also where `alpha` is infinite or NaN.

Missing: a product that underflows to zero in compressed storage, where it is false (`C65_refuted`). -/
theorem C65_scalar_partial (alpha : Fl f) (hs : (w.heap s).WF) (hgas : (w.heap s).nvalues ≤ w.gas)
    (hne : (w.heap s).kind = .dense ∨ (w.heap s).kind = .dvec ∨
      ∀ i j, i < (w.heap s).rows → j < (w.heap s).cols → isZero ((w.heap s).val i j) = false →
        isZero (alpha * (w.heap s).val i j) = false) :
    Returns w (w.heap s).kind (w.heap s).rows (w.heap s).cols
      (fun i j => if (w.heap s).Visits i j then alpha * (w.heap s).val i j else 0) (Meth.scalar s alpha w) := by
  have := Ops.mapwise (w := fresh w (w.heap s)) (out := w.next) (oc := false)
    (F := fun i j => alpha * (w.heap s).val i j) (f := fun _ _ v => pure (alpha * v))
    (by rw [fresh_next]; exact hs) (by rw [fresh_next]; exact hgas) (fun _ => rfl) (by
      rw [fresh_next]
      intro i j hi hj hv hst
      rcases hne with h | h | h
      · rw [h]; trivial
      · rw [h]; trivial
      · have := h i j hi hj
        revert hst
        generalize (w.heap s).kind = k
        cases k
        all_goals first | exact this | (intro _; trivial)) (by
      intro i j hi hj m' c h1 h2 h3
      rw [fresh_next]; rfl)
  refine (returns_of_writes (m := w.heap s) (x := Ops.scalar s alpha) (y := do
    let _ ← forMap w.next false (fun _ _ v => pure (alpha * v))
    pure ()) (by
      unfold Ops.scalar
      rw [bind_ok (copy_apply hs)]
      simp only [bind_apply]
      cases forMap w.next false (fun _ _ v => pure (alpha * v)) (fresh w (w.heap s)) <;> rfl) this rfl rfl rfl).congr ?_
  intro i j hi hj
  rw [fresh_next]
  by_cases hv : (w.heap s).Visits i j
  · simp [hv]
  · simp [hv, Mat.not_visits hv]

/-- The zero cells of a compressed matrix are `+0`: `-0` is not stored. -/
theorem compressed_zero {m : Mat (Fl f)} (h : m.WF) (hk : m.kind = .csr ∨ m.kind = .csc) {i j : Nat} (hi : i < m.rows)
    (hj : j < m.cols) (hz : isZero (m.val i j) = true) : m.val i j = 0 := by
  refine Mat.not_visits (fun hv => ?_)
  have := Mat.visits_storable h hi hj hv
  rcases hk with hk | hk
  all_goals
    rw [hk] at this
    have : isZero (m.val i j) = false := this
    rw [hz] at this
    exact absurd this (by decide)

theorem underflow_cell {x v : Fl f} (hx : isZero x = true → x = 0) :
    (if isZero x then x else norm v) = if isZero x ∨ isZero v then 0 else v := by
  by_cases h : isZero x = true
  · rw [if_pos h, if_pos (Or.inl h), hx h]
  · rw [if_neg h]
    unfold norm
    by_cases h' : isZero v = true <;> simp [h, h']

/-- C65 for a CSR matrix, more than `C65_scalar_partial`: the product of the last non-zero cell of a row may
underflow; that cell becomes `+0`, whatever the signs.

Missing: underflow of another cell (`C65_refuted`). -/
theorem C65_csr_partial (alpha : Fl f) (hk : (w.heap s).kind = .csr) (hs : (w.heap s).WF)
    (hgas : (w.heap s).nvalues ≤ w.gas)
    (hl : ∀ i j j', i < (w.heap s).rows → j < j' → j' < (w.heap s).cols → isZero ((w.heap s).val i j) = false →
      isZero (alpha * (w.heap s).val i j) = true → isZero ((w.heap s).val i j') = true) :
    Returns w (w.heap s).kind (w.heap s).rows (w.heap s).cols
      (fun i j => if isZero ((w.heap s).val i j) ∨ isZero (alpha * (w.heap s).val i j) then 0
        else alpha * (w.heap s).val i j) (Meth.scalar s alpha w) := by
  have hs' := hs
  cases hm : w.heap s with
  | csr m =>
    rw [hm] at hs' hgas hl
    have hs0 := hs'
    obtain ⟨rows, hr⟩ := hs'
    obtain ⟨s', rows', g1, g2, g3, g4, g5⟩ := csr_mapsRight hr (fun _ _ v => alpha * v) (n := w.gas) hgas (by
      intro i j hi hj h1 h2 j' hj' hjc
      rw [← Mat.val_csr hr hi hjc]
      refine compressed_zero hs0 (Or.inl rfl) hi hjc (hl i j j' hi hj' hjc ?_ ?_) <;>
        rwa [Mat.val_csr hr hi hj])
    rw [← hm]
    refine returns_of_drive (m' := .csr s') hs ?_ ⟨rows', g2⟩ (by rw [hm]; rfl) (by rw [hm]; exact g3) (by rw [hm]; exact g4) ?_
    · rw [hm]; exact (drive_csr _ _ m m.iter).trans (by rw [g1]; rfl)
    · intro i j hi hj
      rw [hm]
      have hi' : i < m.r := by rw [← g3]; exact hi
      have hj' : j < m.c := by rw [← g4]; exact hj
      rw [Mat.val_csr g2 hi hj, g5 i j hi' hj', ← Mat.val_csr hr hi' hj']
      exact underflow_cell (compressed_zero hs0 (Or.inl rfl) hi' hj')
  | _ => rw [hm] at hk; simp [Mat.kind] at hk

/-- C65 for a CSC matrix: the product of the last non-zero cell of a column may underflow. -/
theorem C65_csc_partial (alpha : Fl f) (hk : (w.heap s).kind = .csc) (hs : (w.heap s).WF)
    (hgas : (w.heap s).nvalues ≤ w.gas)
    (hl : ∀ i i' j, i < i' → i' < (w.heap s).rows → j < (w.heap s).cols → isZero ((w.heap s).val i j) = false →
      isZero (alpha * (w.heap s).val i j) = true → isZero ((w.heap s).val i' j) = true) :
    Returns w (w.heap s).kind (w.heap s).rows (w.heap s).cols
      (fun i j => if isZero ((w.heap s).val i j) ∨ isZero (alpha * (w.heap s).val i j) then 0
        else alpha * (w.heap s).val i j) (Meth.scalar s alpha w) := by
  have hs' := hs
  cases hm : w.heap s with
  | csc m =>
    rw [hm] at hs' hgas hl
    have hs0 := hs'
    obtain ⟨rows, hr⟩ := hs'
    have hr' : (CSC.mir m).Rep rows := hr
    obtain ⟨s', rows', g1, g2, g3, g4, g5⟩ := csr_mapsRight hr' (fun _ _ v => alpha * v) (n := w.gas) hgas (by
      intro j i hj hi h1 h2 i' hi' hic
      show cellOf rows j i' = 0
      rw [← Mat.val_csc hr hic hj]
      refine compressed_zero hs0 (Or.inr rfl) hic hj (hl i i' j hi' hic hj ?_ ?_) <;>
        rwa [Mat.val_csc hr hi hj])
    rw [← hm]
    have g2' : (CSC.unmir s').Rep rows' := g2
    refine returns_of_drive (m' := .csc (CSC.unmir s')) hs ?_ ⟨rows', g2'⟩ (by rw [hm]; rfl) (by rw [hm]; exact g4) (by rw [hm]; exact g3) ?_
    · rw [hm]
      refine (drive_csc _ _ m m.iter).trans ?_
      have e : CSC.mirIt m.iter = (CSC.mir m).iter := rfl
      rw [e, g1]; rfl
    · intro i j hi hj
      rw [hm]
      have hi' : i < m.r := by have : (CSC.unmir s').r = m.r := g4; rw [← this]; exact hi
      have hj' : j < m.c := by have : (CSC.unmir s').c = m.c := g3; rw [← this]; exact hj
      rw [Mat.val_csc g2' hi hj, g5 j i hj' hi', ← Mat.val_csc hr hi' hj']
      exact underflow_cell (compressed_zero hs0 (Or.inr rfl) hi' hj')
  | _ => rw [hm] at hk; simp [Mat.kind] at hk

/-- C65: for dense storage the sign of every cell that is not NaN is the product of the signs, and where
nothing overflows the cell is a float nearest to the exact product. -/
theorem C65_dense (alpha : Fl f) (hs : (w.heap s).WF) (hgas : (w.heap s).nvalues ≤ w.gas)
    (hk : (w.heap s).kind = .dense ∨ (w.heap s).kind = .dvec) :
    ∃ F, Returns w (w.heap s).kind (w.heap s).rows (w.heap s).cols F (Meth.scalar s alpha w) ∧
      ∀ i j, (F i j ≠ Fl.nan → (F i j).sign = (alpha.sign ^^ ((w.heap s).val i j).sign)) ∧
        (alpha.Fin → ((w.heap s).val i j).Fin → |alpha.rat * ((w.heap s).val i j).rat| ≤ f.big →
          (F i j).Nearest (alpha.rat * ((w.heap s).val i j).rat)) := by
  classical
  refine ⟨fun i j => alpha * (w.heap s).val i j, ?_, fun i j => ⟨Fl.sign_mul _ _, Fl.mul_nearest⟩⟩
  refine (C65_scalar_partial alpha hs hgas (by tauto)).congr (fun i j _ _ => if_pos ?_)
  rcases hk with h | h
  · exact Or.inl h
  · exact Or.inr (Or.inl h)

/-- C65: `Negative()` with floating-point elements on every format: each stored cell is negated exactly
(zeros of dense storage change their sign, cells that are not stored stay `+0`). -/
theorem C65_negative (hs : (w.heap s).WF) (hgas : (w.heap s).nvalues ≤ w.gas) :
    ∃ F, Returns w (w.heap s).kind (w.heap s).rows (w.heap s).cols F (Meth.negative s w) ∧
      ∀ i j, (F i j).rat = -((w.heap s).val i j).rat ∧ ((F i j).Fin ↔ ((w.heap s).val i j).Fin) ∧
        ((w.heap s).kind = .dense ∨ (w.heap s).kind = .dvec ∨ isZero ((w.heap s).val i j) = false →
          F i j = -(w.heap s).val i j ∧
          ((w.heap s).val i j ≠ Fl.nan → (F i j).sign = !((w.heap s).val i j).sign)) := by
  classical
  have := Ops.negative_writes (w := fresh w (w.heap s)) (s := s) (out := w.next) (mask := .nil)
    (by rw [fresh_next]; exact hs) trivial trivial (by rw [fresh_next]; exact hgas) (by
      rw [fresh_next]
      intro i j hi hj hv _
      have := Mat.visits_storable hs hi hj hv
      revert this
      generalize (w.heap s).kind = k
      cases k
      all_goals first | (intro h; exact (Fl.isZero_neg _).trans h) | (intro _; trivial))
  refine ⟨_, (returns_of_writes (m := w.heap s) (x := do
    let matrix ← copy s
    Ops.negative s .nil matrix
    pure matrix) (by rw [bind_ok (copy_apply hs)]) this rfl rfl rfl), ?_⟩
  intro i j
  rw [fresh_next]
  by_cases hv : (w.heap s).Visits i j
  · have e : Mask.bit (fresh w (w.heap s)) Mask.nil i j = false := rfl
    rw [if_pos ⟨hv, e⟩]
    exact ⟨Fl.neg_rat _, Fl.neg_fin, fun _ => ⟨rfl, Fl.sign_neg _⟩⟩
  · simp only [hv, false_and, if_false, Mat.not_visits hv]
    refine ⟨by simp [Fl.zero_rat], trivial, fun h => ?_⟩
    exfalso
    rcases h with h | h | h
    · exact hv (Or.inl h)
    · exact hv (Or.inr (Or.inl h))
    · rw [isZero_zero] at h; simp at h

/-- Which factors underflow on some number: the finite ones up to 1/2. -/
theorem Fl.safe_iff (alpha : Fl f) :
    (∀ x : Fl f, isZero x = false → isZero (alpha * x) = false) ↔ (alpha.Fin → 1 / 2 < |alpha.rat|) := by
  constructor
  · intro h ha
    by_contra hle
    obtain ⟨x, hx⟩ : ∃ x : Fl f, x.1 = .num (pow2 f.low) :=
      ⟨⟨.num (pow2 f.low), ne_of_gt (pow2_pos _), f.low_rep⟩, rfl⟩
    have hr : x.rat = pow2 f.low := by unfold Fl.rat; rw [hx]; rfl
    have hf : x.Fin := by unfold Fl.Fin; rw [hx]; trivial
    have hz : isZero x = false := by
      cases hz : isZero x with
      | false => rfl
      | true => obtain ⟨s, hs⟩ := Fl.isZero_iff_raw.1 hz; rw [hx] at hs; simp at hs
    have := h x hz
    rw [Bool.eq_false_iff] at this
    refine this ((Fl.mul_zero_iff ha hf).2 ?_)
    have ht : f.tiny = pow2 f.low * (1 / 2) := by
      show pow2 (f.low - 1) = _
      rw [Fmt.pow2_double f.low]; ring
    rw [abs_mul, hr, abs_of_pos (pow2_pos _), ht, mul_comm]
    exact mul_le_mul_of_nonneg_left (not_lt.1 hle) (pow2_pos _).le
  · intro h x hx
    cases hz : isZero (alpha * x) with
    | false => rfl
    | true =>
      exfalso
      have hfin : (alpha * x).Fin := by
        obtain ⟨s, hs⟩ := Fl.isZero_iff_raw.1 hz
        unfold Fl.Fin; rw [hs]; trivial
      obtain ⟨ha, hxf, -⟩ := Fl.mul_fin hfin
      have h1 := (Fl.mul_zero_iff ha hxf).1 hz
      have hx0 : x.rat ≠ 0 := by
        obtain ⟨r, hr⟩ := x
        cases r with
        | nan => exact absurd hxf (by simp [Fl.Fin, Raw.Fin])
        | inf s => exact absurd hxf (by simp [Fl.Fin, Raw.Fin])
        | zero s => have := Fl.isZero_iff_raw.2 ⟨s, (rfl : (⟨.zero s, hr⟩ : Fl f).1 = .zero s)⟩; rw [hx] at this; simp at this
        | num q => exact hr.1
      have h2 := f.low_le_rep x.rep hx0
      have ht : f.tiny = 1 / 2 * pow2 f.low := by
        show pow2 (f.low - 1) = _
        rw [Fmt.pow2_double f.low]; ring
      rw [abs_mul, ht] at h1
      have := h ha
      have hp := pow2_pos f.low
      nlinarith [abs_nonneg alpha.rat]

/-- C65, exactly which factors are safe: `Scalar(alpha)` is right on every CSR matrix (on every CSC matrix, on every sparse
vector) if and only if `alpha` is NaN, an infinity or of absolute value greater than 1/2. Otherwise it panics on a matrix of
two cells. -/
theorem C65_factor_iff (alpha : Fl f) {k : Kind} (hk : k = .csr ∨ k = .csc ∨ k = .svec) :
    (∀ (w : World (Fl f)) (s : Ref), (w.heap s).WF → (w.heap s).kind = k → (w.heap s).nvalues ≤ w.gas →
      Returns w k (w.heap s).rows (w.heap s).cols
        (fun i j => if isZero ((w.heap s).val i j) then 0 else alpha * (w.heap s).val i j) (Meth.scalar s alpha w)) ↔
    (alpha.Fin → 1 / 2 < |alpha.rat|) := by
  rw [← Fl.safe_iff]
  constructor
  · intro h x hx
    obtain ⟨h1, h2, h3⟩ := twoCells_wf hk hx
    cases hz : isZero (alpha * x) with
    | false => rfl
    | true =>
      exact absurd (h (World.of 2 [twoCells k x]) 0 h1 h2 (Nat.le_of_eq h3)) (not_returns_of_panic (scalar_two_panics hk hx hz))
  · intro h w s hs hk' hg
    have := C65_scalar_partial (w := w) (s := s) alpha hs hg (.inr (.inr fun i j _ _ => h _))
    rw [hk'] at this
    refine this.congr ?_
    intro i j hi hj
    by_cases hv : (w.heap s).Visits i j
    · have hst := Mat.visits_storable hs hi hj hv
      rw [hk'] at hst
      have : isZero ((w.heap s).val i j) = false := by rcases hk with rfl | rfl | rfl <;> exact hst
      simp [hv, this]
    · simp [hv, Mat.not_visits hv, isZero_zero]

end

section
open FloatEx

/-- A negative number that underflows becomes `-0` in dense storage; infinity times zero is NaN. -/
example : out (Meth.scalar 0 (c (1 / 2)) (World.of 9 [two [c (-1 / 2 ^ 1074), c 3] [Fl.negZero, Fl.inf true]])) 1 =
    some [[Fl.negZero, c 1.5], [Fl.negZero, Fl.inf true]] := by decide +kernel
example : out (Meth.scalar 0 0 (World.of 9 [two [c (-7), c 3] [Fl.nan, Fl.inf true]])) 1 =
    some [[Fl.negZero, c 0], [Fl.nan, Fl.nan]] := by decide +kernel
example : out (Meth.negative 0 (World.of 9 [two [c (-7), c 0] [Fl.nan, Fl.inf true]])) 1 =
    some [[c 7, Fl.negZero], [Fl.nan, Fl.inf false]] := by decide +kernel
/-- Compressed: the last cell of each row underflows; its entry is removed, the negative one too. -/
example : (Meth.scalar 0 (c (1 / 2)) (World.of 9 [.csr ⟨2, 2, [c 1, c (-1 / 2 ^ 1074), c (1 / 2 ^ 1074)], [0, 1, 0], [0, 2, 3]⟩])).obj =
    some (.csr ⟨2, 2, [c 0.5], [0], [0, 1, 1]⟩) := by kernel_rfl
/-- Compressed: the cells that are not stored stay zero under an infinite factor. -/
example : (Meth.scalar 0 (Fl.inf false) (World.of 9 [.csr ⟨1, 2, [c (-2)], [1], [0, 1]⟩])).obj =
    some (.csr ⟨1, 2, [Fl.inf true], [1], [0, 1]⟩) := by kernel_rfl

end

open FloatEx in
/-- C65 in full: false. `Scalar(1/2)` on the compressed matrix `[2^-1074 1]` panics, whatever the gas. -/
theorem C65_refuted : ∀ gas, (Meth.scalar 0 (c (1 / 2)) (World.of (gas + 2)
    [.csr ⟨1, 2, [c (1 / 2 ^ 1074), c 1], [0, 1], [0, 2]⟩])).isPanic = true := by
  intro gas
  kernel_rfl

end GB
