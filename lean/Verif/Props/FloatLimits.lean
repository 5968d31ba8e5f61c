import Verif.Lemmas.FloatLimits
import Verif.Props.Float

/-!
# Overflow and underflow of floating-point results: C84

`x + y` and `x * y` of finite numbers are infinite, or zero, exactly beyond the bounds given here; the
bounds of `float64` and `float32` are stated as numbers (Go's `math.MaxFloat64` and so on).
-/

namespace GB

set_option linter.unusedSectionVars false

open M

/-- The limits of a floating-point type: the greatest finite number, the least positive one, and the
least one after 1; each is a number of the type and none lies beyond. -/
structure Limits (f : Fmt) (greatest least next : ℚ) : Prop where
  le : ∀ x : Fl f, x.Fin → |x.rat| ≤ greatest
  greatest : ∃ x : Fl f, x.Fin ∧ x.rat = greatest
  ge : ∀ x : Fl f, x.Fin → x.rat ≠ 0 → least ≤ |x.rat|
  least : ∃ x : Fl f, x.Fin ∧ x.rat = least
  after : ∀ x : Fl f, x.Fin → 1 < x.rat → next ≤ x.rat
  next : ∃ x : Fl f, x.Fin ∧ x.rat = next

theorem Fl.of_rep {f : Fmt} {q : ℚ} (h : f.Rep q) (h0 : q ≠ 0) : ∃ x : Fl f, x.Fin ∧ x.rat = q :=
  ⟨⟨.num q, h0, h⟩, trivial, rfl⟩

theorem Fmt.next_le {f : Fmt} {q : ℚ} (h : f.Rep q) (h1 : 1 < q) : 1 + pow2 (1 - f.prec) ≤ q := by
  obtain ⟨m, e, rfl, hm, -, -⟩ := h
  have hp := f.two_le
  have hpos : 0 < m := by
    have : (0 : ℚ) < m := pos_of_mul_pos_left (by linarith) (pow2_pos e).le
    exact_mod_cast this
  rw [abs_of_pos hpos] at hm
  by_cases he : 1 - (f.prec : ℤ) ≤ e
  · have e1 : pow2 e = ((2 ^ (e - (1 - f.prec)).toNat : ℤ) : ℚ) * pow2 (1 - f.prec) := by
      rw [← pow2_prec, ← pow2_add]; congr 1; omega
    have e2 : (1 : ℚ) = ((2 ^ (f.prec - 1) : ℤ) : ℚ) * pow2 (1 - f.prec) := by
      rw [← pow2_prec, ← pow2_add, show ((f.prec - 1 : ℕ) : ℤ) + (1 - f.prec) = 0 by omega]; rfl
    have hq := pow2_pos (1 - f.prec)
    rw [e1, ← mul_assoc] at h1 ⊢
    have h3 : ((2 ^ (f.prec - 1) : ℤ) : ℚ) * pow2 (1 - f.prec) <
        (m : ℚ) * ((2 ^ (e - (1 - f.prec)).toNat : ℤ) : ℚ) * pow2 (1 - f.prec) := by rw [← e2]; exact h1
    have h4 := lt_of_mul_lt_mul_right h3 hq.le
    have h5 : (2 ^ (f.prec - 1) : ℤ) < m * 2 ^ (e - (1 - f.prec)).toNat := by exact_mod_cast h4
    have h6 : (2 ^ (f.prec - 1) : ℤ) + 1 ≤ m * 2 ^ (e - (1 - f.prec)).toNat := by omega
    calc 1 + pow2 (1 - f.prec) = (((2 ^ (f.prec - 1) + 1 : ℤ)) : ℚ) * pow2 (1 - f.prec) := by
          push_cast; push_cast at e2; rw [add_mul, ← e2]; ring
      _ ≤ ((m * 2 ^ (e - (1 - f.prec)).toNat : ℤ) : ℚ) * pow2 (1 - f.prec) :=
          mul_le_mul_of_nonneg_right (by exact_mod_cast h6) hq.le
      _ = _ := by push_cast; ring
  · exfalso
    have h2 : (m : ℚ) < pow2 f.prec := by rw [pow2_prec]; exact_mod_cast hm
    have h3 : (m : ℚ) * pow2 e < pow2 f.prec * pow2 e := mul_lt_mul_of_pos_right h2 (pow2_pos _)
    rw [← pow2_add] at h3
    have h4 : pow2 (f.prec + e) ≤ pow2 0 := pow2_le (by omega)
    have h5 : pow2 0 = 1 := rfl
    linarith

theorem Fmt.next_rep (f : Fmt) : f.Rep (1 + pow2 (1 - f.prec)) := by
  have hp := f.two_le; have he := f.le_emax
  refine ⟨2 ^ (f.prec - 1) + 1, 1 - f.prec, ?_, ?_, by unfold Fmt.low; omega, by unfold Fmt.top; omega⟩
  · have e2 : (1 : ℚ) = ((2 ^ (f.prec - 1) : ℤ) : ℚ) * pow2 (1 - f.prec) := by
      rw [← pow2_prec, ← pow2_add, show ((f.prec - 1 : ℕ) : ℤ) + (1 - f.prec) = 0 by omega]; rfl
    push_cast at e2 ⊢
    rw [add_mul, ← e2]; ring
  · have h1 : (2 : ℤ) ^ 1 ≤ 2 ^ (f.prec - 1) := pow_le_pow_right₀ (by norm_num) (by omega)
    have h2 : (2 : ℤ) ^ f.prec = 2 * 2 ^ (f.prec - 1) := by rw [← pow_succ']; congr 1; omega
    rw [abs_of_nonneg (by omega)]; omega

theorem Fmt.limits (f : Fmt) : Limits f f.big (pow2 f.low) (1 + pow2 (1 - f.prec)) where
  le := fun x _ => Fl.rep_le_big x.rep
  greatest := Fl.of_rep f.big_rep f.big_pos.ne'
  ge := fun x _ h => f.low_le_rep x.rep h
  least := Fl.of_rep f.low_rep (pow2_ne _)
  after := fun x _ h => Fmt.next_le x.rep h
  next := Fl.of_rep f.next_rep (add_pos one_pos (pow2_pos _)).ne'

theorem pow2_nat (n : ℕ) : pow2 (n : ℤ) = 2 ^ n := by rw [pow2_natCast]; push_cast; rfl
theorem pow2_neg (n : ℕ) : pow2 (-(n : ℤ)) = 1 / 2 ^ n := by
  rw [pow2_eq, zpow_neg, zpow_natCast, one_div]

/-- C84. The limits of Go's `float64` and `float32`: `math.MaxFloat64`, `math.SmallestNonzeroFloat64`
and so on. -/
theorem C84_limits :
    Limits binary64 ((2 ^ 53 - 1) * 2 ^ 971) (1 / 2 ^ 1074) (1 + 1 / 2 ^ 52) ∧
    Limits binary32 ((2 ^ 24 - 1) * 2 ^ 104) (1 / 2 ^ 149) (1 + 1 / 2 ^ 23) := by
  constructor
  · convert binary64.limits using 1
    · unfold Fmt.big; rw [show binary64.top = ((971 : ℕ) : ℤ) by decide, pow2_nat, show binary64.prec = 53 from rfl]
      congr 1; norm_num
    · rw [show binary64.low = -((1074 : ℕ) : ℤ) by decide, pow2_neg]
    · rw [show (1 - (binary64.prec : ℤ)) = -((52 : ℕ) : ℤ) by decide, pow2_neg]
  · convert binary32.limits using 1
    · unfold Fmt.big; rw [show binary32.top = ((104 : ℕ) : ℤ) by decide, pow2_nat, show binary32.prec = 24 from rfl]
      congr 1; norm_num
    · rw [show binary32.low = -((149 : ℕ) : ℤ) by decide, pow2_neg]
    · rw [show (1 - (binary32.prec : ℤ)) = -((23 : ℕ) : ℤ) by decide, pow2_neg]

/-- When results overflow and underflow: a sum or a product of finite numbers is infinite exactly when the
exact result is at least `over` in magnitude, with its sign; a sum is a zero only where it is exactly 0;
a product is a zero exactly when the exact product is at most `under` in magnitude. There is no NaN. -/
structure Thresholds (f : Fmt) (over under : ℚ) : Prop where
  add_inf : ∀ x y : Fl f, x.Fin → y.Fin → ∀ s : Bool,
    (x + y = Fl.inf s ↔ over ≤ |x.rat + y.rat| ∧ (s = true ↔ x.rat + y.rat < 0))
  add_zero : ∀ x y : Fl f, x.Fin → y.Fin → (isZero (x + y) = true ↔ x.rat + y.rat = 0)
  mul_inf : ∀ x y : Fl f, x.Fin → y.Fin → ∀ s : Bool,
    (x * y = Fl.inf s ↔ over ≤ |x.rat * y.rat| ∧ (s = true ↔ x.rat * y.rat < 0))
  mul_zero : ∀ x y : Fl f, x.Fin → y.Fin → (isZero (x * y) = true ↔ |x.rat * y.rat| ≤ under)
  nan : ∀ x y : Fl f, x.Fin → y.Fin → x + y ≠ Fl.nan ∧ x * y ≠ Fl.nan

theorem Fmt.thresholds (f : Fmt) : Thresholds f f.over f.tiny where
  add_inf := fun x y hx hy s => by
    rw [Fl.add_inf_iff hx hy]; cases s <;> simp
  add_zero := fun x y hx hy => Fl.add_zero_iff hx hy
  mul_inf := fun x y hx hy s => by
    rw [Fl.mul_inf_iff hx hy]; cases s <;> simp
  mul_zero := fun x y hx hy => Fl.mul_zero_iff hx hy
  nan := fun x y hx hy => by
    constructor
    · intro h
      have h' : (x + y).1 = .nan := by rw [h]; rfl
      rcases Fl.add_finite hx hy with e | ⟨-, -, t, e⟩ <;> rw [e] at h'
      · exact f.round_ne_nan h'
      · cases h'
    · intro h
      have h' : (x * y).1 = .nan := by rw [h]; rfl
      rcases Fl.mul_finite hx hy with e | ⟨-, t, e⟩ <;> rw [e] at h'
      · exact f.round_ne_nan h'
      · cases h'

/-- C84. The thresholds of `float64` and `float32`. -/
theorem C84_thresholds :
    Thresholds binary64 (2 ^ 1024 - 2 ^ 970) (1 / 2 ^ 1075) ∧
    Thresholds binary32 (2 ^ 128 - 2 ^ 103) (1 / 2 ^ 150) := by
  constructor
  · convert binary64.thresholds using 1
    · unfold Fmt.over
      rw [show (binary64.emax : ℤ) + 1 = ((1024 : ℕ) : ℤ) by decide, show binary64.top - 1 = ((970 : ℕ) : ℤ) by decide,
        pow2_nat, pow2_nat]
    · unfold Fmt.tiny; rw [show binary64.low - 1 = -((1075 : ℕ) : ℤ) by decide, pow2_neg]
  · convert binary32.thresholds using 1
    · unfold Fmt.over
      rw [show (binary32.emax : ℤ) + 1 = ((128 : ℕ) : ℤ) by decide, show binary32.top - 1 = ((103 : ℕ) : ℤ) by decide,
        pow2_nat, pow2_nat]
    · unfold Fmt.tiny; rw [show binary32.low - 1 = -((150 : ℕ) : ℤ) by decide, pow2_neg]

variable {f : Fmt} {w : World (Fl f)} {out s m : Ref}

theorem Fl.keep_inf {a : Mat (Fl f)} {v : Fl f} {t : Bool} :
    (if a.kind ≠ .dense ∧ a.kind ≠ .dvec ∧ v = Fl.negZero then 0 else v) = Fl.inf t ↔ v = Fl.inf t := by
  split
  · rename_i h
    rw [h.2.2]
    exact ⟨fun h => (by cases congrArg Subtype.val h), fun h => (by cases congrArg Subtype.val h)⟩
  · rfl

theorem Fl.keep_isZero {a : Mat (Fl f)} {v : Fl f} :
    isZero (if a.kind ≠ .dense ∧ a.kind ≠ .dvec ∧ v = Fl.negZero then 0 else v) = isZero v := by
  split
  · rename_i h; rw [h.2.2]; rfl
  · rfl

/-- C84. `Add` of dense matrices of finite numbers, into an output of any matrix format: a cell is infinite exactly
where the exact sum is beyond the threshold, and a zero exactly where the sum is exactly 0. -/
theorem C84_add {over under : ℚ} (hf : Thresholds f over under) (hs : (w.heap s).WF) (hm : (w.heap m).WF)
    (hout : (w.heap out).WF) (hk : (w.heap out).kind ≠ .svec) (hsh : SameShape (w.heap s) (w.heap m))
    (hso : SameShape (w.heap s) (w.heap out)) (h1 : s ≠ out) (h2 : m ≠ out)
    (hds : (w.heap s).kind = .dense) (hdm : (w.heap m).kind = .dense)
    (hgs : (w.heap s).nvalues ≤ w.gas) (hgm : (w.heap m).nvalues ≤ w.gas) (hgo : (w.heap out).nvalues ≤ w.gas)
    (hc : w.cancel = none)
    (hfin : ∀ i j, i < (w.heap out).rows → j < (w.heap out).cols → ((w.heap s).val i j).Fin ∧ ((w.heap m).val i j).Fin) :
    ∃ m', Ops.add s m .nil out w = .ok () (w.upd out m' none) ∧
      ∀ i j, i < (w.heap out).rows → j < (w.heap out).cols →
        (∀ b, m'.val i j = Fl.inf b ↔ over ≤ |((w.heap s).val i j).rat + ((w.heap m).val i j).rat| ∧
          (b = true ↔ ((w.heap s).val i j).rat + ((w.heap m).val i j).rat < 0)) ∧
        (isZero (m'.val i j) = true ↔ ((w.heap s).val i j).rat + ((w.heap m).val i j).rat = 0) := by
  obtain ⟨m', e1, -, -, e2⟩ := C58_exact (w := w) (out := out) (mask := .nil) (.add s m)
    (by intro p hp; simp [OpCall.operands] at hp; rcases hp with rfl | rfl <;> assumption) hout hk ⟨hsh, hso⟩
    (by intro p hp; simp [OpCall.operands] at hp; rcases hp with rfl | rfl <;> assumption) trivial trivial (by simp)
    (by intro p hp; simp [OpCall.operands] at hp; rcases hp with rfl | rfl <;> assumption) hgo hc
  refine ⟨m', e1, fun i j hi hj => ?_⟩
  obtain ⟨f1, f2⟩ := hfin i j hi hj
  have hv : (lead w s m).Visits i j := by
    left; unfold lead; split <;> assumption
  have e3 := e2 i j hi hj
  simp only [OpCall.asks, Mask.bit, OpCall.flCell, hv, if_true, Bool.false_eq_true, if_false] at e3
  refine ⟨fun b => ?_, ?_⟩
  · rw [e3, Fl.keep_inf, hf.add_inf _ _ f1 f2]
  · rw [e3, Fl.keep_isZero, hf.add_zero _ _ f1 f2]

theorem rowVal_zero {T : Type} [GoNum T] (a : Mat T) (i : Nat) : a.rowVal i 0 = a.val i 0 := by
  unfold Mat.rowVal shortRead; cases a.kind <;> simp

theorem colVal_zero {T : Type} [GoNum T] (a : Mat T) (j : Nat) : a.colVal j 0 = a.val 0 j := by
  unfold Mat.colVal shortRead; cases a.kind <;> simp

theorem Fl.zero_add_inf {x : Fl f} {b : Bool} : 0 + x = Fl.inf b ↔ x = Fl.inf b := by
  have h : (0 + x).1 = (Raw.zero false).add f x.1 := rfl
  constructor <;> intro e
  · have := congrArg Subtype.val e
    rw [h] at this
    obtain ⟨x, hx⟩ := x
    cases x with
    | num q =>
      change f.round false (0 + q) = _ at this
      rw [zero_add, f.round_rep hx.1 hx.2] at this
      cases this
    | inf t => exact Fl.ext this
    | nan => cases this
    | zero t => cases this
  · subst e; rfl

theorem Fl.zero_add_isZero {x : Fl f} : isZero (0 + x) = isZero x := by
  have key : ∀ y : Fl f, isZero y = true ↔ y.Fin ∧ y.rat = 0 := by
    intro y
    rw [Fl.isZero_iff_raw]
    obtain ⟨y, hy⟩ := y
    show (∃ s, y = .zero s) ↔ y.Fin ∧ y.val = 0
    cases y with
    | num q => exact ⟨fun ⟨_, h⟩ => (by cases h), fun h => absurd h.2 hy.1⟩
    | zero t => exact ⟨fun _ => ⟨trivial, rfl⟩, fun _ => ⟨t, rfl⟩⟩
    | inf t => exact ⟨fun ⟨_, h⟩ => (by cases h), fun h => h.1.elim⟩
    | nan => exact ⟨fun ⟨_, h⟩ => (by cases h), fun h => h.1.elim⟩
  rw [Bool.eq_iff_iff, key, key, (Fl.zero_add_rat x).1, (Fl.zero_add_rat x).2]

/-- C84. The product of a column by a row (any formats, any matrix output): a cell is infinite exactly where the exact
product is beyond the threshold, and a zero exactly where the exact product is within the lower one. -/
theorem C84_outer {over under : ℚ} (hf : Thresholds f over under) (hs : (w.heap s).WF) (hm : (w.heap m).WF)
    (hout : (w.heap out).WF) (hk : (w.heap out).kind ≠ .svec) (hsc : (w.heap s).cols = 1) (hmr : (w.heap m).rows = 1)
    (hr : (w.heap out).rows = (w.heap s).rows) (hcl : (w.heap out).cols = (w.heap m).cols) (h1 : s ≠ out) (h2 : m ≠ out)
    (hgs : (w.heap s).nvalues ≤ w.gas) (hgm : (w.heap m).nvalues ≤ w.gas) (hgo : (w.heap out).nvalues ≤ w.gas)
    (hc : w.cancel = none)
    (hfs : ∀ i, i < (w.heap out).rows → ((w.heap s).val i 0).Fin)
    (hfm : ∀ j, j < (w.heap out).cols → ((w.heap m).val 0 j).Fin) :
    ∃ m', (OpCall.mxm s m).run .nil out w = .ok () (w.upd out m' none) ∧
      ∀ i j, i < (w.heap out).rows → j < (w.heap out).cols →
        (∀ b, m'.val i j = Fl.inf b ↔ over ≤ |((w.heap s).val i 0).rat * ((w.heap m).val 0 j).rat| ∧
          (b = true ↔ ((w.heap s).val i 0).rat * ((w.heap m).val 0 j).rat < 0)) ∧
        (isZero (m'.val i j) = true ↔ |((w.heap s).val i 0).rat * ((w.heap m).val 0 j).rat| ≤ under) := by
  obtain ⟨m', e1, -, -, e2⟩ := C58_exact (w := w) (out := out) (mask := .nil) (.mxm s m)
    (by intro p hp; simp [OpCall.operands] at hp; rcases hp with rfl | rfl <;> assumption) hout hk
    ⟨hmr.trans hsc.symm, hr, hcl⟩
    (by intro p hp; simp [OpCall.operands] at hp; rcases hp with rfl | rfl <;> assumption) trivial trivial (by simp)
    (by intro p hp; simp [OpCall.operands] at hp; rcases hp with rfl | rfl <;> assumption) hgo hc
  refine ⟨m', e1, fun i j hi hj => ?_⟩
  have e3 := e2 i j hi hj
  simp only [OpCall.asks, Mask.bit, OpCall.flCell, hsc, List.range_one, List.foldl_cons, List.foldl_nil, rowVal_zero,
    colVal_zero, Bool.false_eq_true, if_false] at e3
  refine ⟨fun b => ?_, ?_⟩
  · rw [e3, Fl.keep_inf, Fl.zero_add_inf, hf.mul_inf _ _ (hfs i hi) (hfm j hj)]
  · rw [e3, Fl.keep_isZero, Fl.zero_add_isZero, hf.mul_zero _ _ (hfs i hi) (hfm j hj)]

/-! ## A concrete case -/

namespace LimitEx

/-- `MaxFloat64`, and half of the distance to the next power of two. -/
def mx : F64 := Fl.of binary64 ((2 ^ 53 - 1) * 2 ^ 971)
def half : F64 := Fl.of binary64 (2 ^ 970)
/-- The number before `half`. -/
def less : F64 := Fl.of binary64 ((2 ^ 53 - 1) * 2 ^ 917)

def row (a b : F64) : Mat F64 := .dense { r := 1, c := 2, data := [[a, b]] }
def world : World F64 := World.of 9 [row mx mx, row half less, row 0 0]

theorem row_wf (a b : F64) : (row a b).WF := ⟨rfl, by intro r hr; simp at hr; subst hr; rfl⟩

set_option exponentiation.threshold 2000 in
/-- `MaxFloat64 + 2^970` overflows and `MaxFloat64` plus the number before `2^970` does not. -/
example : ∃ m', Ops.add 0 1 .nil 2 world = .ok () (world.upd 2 m' none) ∧
    m'.val 0 0 = Fl.inf false ∧ m'.val 0 1 ≠ Fl.inf false := by
  obtain ⟨m', e, h⟩ := C84_add (w := world) (s := 0) (m := 1) (out := 2) C84_thresholds.1 (row_wf _ _) (row_wf _ _)
    (row_wf _ _) (by decide) ⟨rfl, rfl⟩ ⟨rfl, rfl⟩ (by decide) (by decide) rfl rfl (by decide) (by decide) (by decide) rfl
    (by
      intro i j hi hj
      change i < 1 at hi; change j < 2 at hj
      have : i = 0 := by omega
      subst this
      have hj' : j = 0 ∨ j = 1 := by omega
      have k1 : mx.1 = .num ((2 ^ 53 - 1) * 2 ^ 971) := by decide +kernel
      have k2 : half.1 = .num ((2 ^ 970 : ℕ) : ℚ) := by decide +kernel
      have k3 : less.1 = .num ((2 ^ 53 - 1) * 2 ^ 917) := by decide +kernel
      rcases hj' with rfl | rfl
      · exact ⟨show mx.1.Fin by rw [k1]; trivial, show half.1.Fin by rw [k2]; trivial⟩
      · exact ⟨show mx.1.Fin by rw [k1]; trivial, show less.1.Fin by rw [k3]; trivial⟩)
  refine ⟨m', e, ?_, ?_⟩
  · exact ((h 0 0 (by decide) (by decide)).1 false).2 (by decide +kernel)
  · intro h'
    have := ((h 0 1 (by decide) (by decide)).1 false).1 h'
    revert this
    decide +kernel

end LimitEx

end GB
