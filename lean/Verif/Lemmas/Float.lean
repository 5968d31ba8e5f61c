import Verif.SpecFloat
import Verif.SpecOps

/-!
# Facts about floating-point numbers
-/

namespace GB

theorem roundEven_nearest (a : ℚ) (k : ℤ) : |(roundEven a : ℚ) - a| ≤ |(k : ℚ) - a| := by
  by_cases h : k = roundEven a
  · rw [h]
  · have h1 : (1 : ℚ) ≤ |(k : ℚ) - roundEven a| := by
      have : 1 ≤ |k - roundEven a| := Int.one_le_abs (sub_ne_zero.2 h)
      exact_mod_cast this
    have h2 := roundEven_near a
    have h3 : |(k : ℚ) - roundEven a| ≤ |(k : ℚ) - a| + |(roundEven a : ℚ) - a| := by
      rw [abs_sub_comm (roundEven a : ℚ) a]
      have : (k : ℚ) - roundEven a = (k - a) + (a - roundEven a) := by ring
      rw [this]; exact abs_add_le _ _
    linarith

theorem roundEven_int (k : ℤ) : roundEven (k : ℚ) = k :=
  le_antisymm (roundEven_le le_rfl) (le_roundEven le_rfl)

namespace Fmt

variable (f : Fmt)

theorem unit_pos : 0 < f.unit := pow2_pos _
theorem tiny_pos : 0 < f.tiny := pow2_pos _

/-- Correct rounding: no number of the format is nearer. -/
theorem nearest_spec {a : ℚ} (ha : 0 < a) {r : ℚ} (hr : f.Rep r) : |f.nearest a - a| ≤ |r - a| := by
  have mult : ∀ k : ℤ, |f.nearest a - a| ≤ |(k : ℚ) * pow2 (f.ulp a) - a| := by
    intro k
    have hp := pow2_pos (f.ulp a)
    have e : ∀ n : ℤ, |(n : ℚ) * pow2 (f.ulp a) - a| = |(n : ℚ) - a / pow2 (f.ulp a)| * pow2 (f.ulp a) := by
      intro n
      rw [← abs_of_pos hp, ← abs_mul, abs_of_pos hp, sub_mul, div_mul_cancel₀ _ hp.ne']
    unfold nearest
    rw [e, e]
    exact mul_le_mul_of_nonneg_right (roundEven_nearest _ k) hp.le
  obtain ⟨m, e, rfl, hm, hlo, -⟩ := hr
  by_cases he : f.ulp a ≤ e
  · have := mult (m * 2 ^ (e - f.ulp a).toNat)
    have hx : ((m * 2 ^ (e - f.ulp a).toNat : ℤ) : ℚ) * pow2 (f.ulp a) = m * pow2 e := by
      push_cast
      rw [mul_assoc]
      congr 1
      have h1 : ((2 : ℚ) ^ (e - f.ulp a).toNat) = pow2 ((e - f.ulp a).toNat : ℕ) := by rw [pow2_natCast]; push_cast; rfl
      rw [h1, ← pow2_add]
      congr 1
      omega
    rwa [hx] at this
  · have hu : f.ulp a = ilog2 a - f.prec + 1 := by
      unfold ulp at he ⊢
      rcases max_choice f.low (ilog2 a - f.prec + 1) with h | h
      · rw [h] at he; omega
      · exact h
    have h2 := f.two_le
    have hb : (m : ℚ) * pow2 e ≤ pow2 (ilog2 a) := by
      have h1 : (m : ℚ) ≤ pow2 f.prec := by
        rw [pow2_prec]
        exact_mod_cast ((le_abs_self m).trans hm.le)
      calc (m : ℚ) * pow2 e ≤ pow2 f.prec * pow2 e := mul_le_mul_of_nonneg_right h1 (pow2_pos _).le
        _ = pow2 (f.prec + e) := (pow2_add _ _).symm
        _ ≤ pow2 (ilog2 a) := pow2_le (by omega)
    have hl := (ilog2_spec ha).1
    have := mult (2 ^ (f.prec - 1))
    have hx : ((2 ^ (f.prec - 1) : ℤ) : ℚ) * pow2 (f.ulp a) = pow2 (ilog2 a) := by
      rw [← pow2_prec, ← pow2_add]
      congr 1
      omega
    rw [hx, abs_of_nonpos (by linarith : pow2 (ilog2 a) - a ≤ 0)] at this
    rw [abs_of_nonpos (by linarith : (m : ℚ) * pow2 e - a ≤ 0)]
    linarith

theorem nearest_err {a : ℚ} (ha : 0 < a) : |f.nearest a - a| ≤ max f.tiny (f.unit * a) := by
  have hp := pow2_pos (f.ulp a)
  have h1 : |f.nearest a - a| ≤ pow2 (f.ulp a - 1) := by
    unfold nearest
    have e : (roundEven (a / pow2 (f.ulp a)) : ℚ) * pow2 (f.ulp a) - a =
        ((roundEven (a / pow2 (f.ulp a)) : ℚ) - a / pow2 (f.ulp a)) * pow2 (f.ulp a) := by
      rw [sub_mul, div_mul_cancel₀ _ hp.ne']
    rw [e, abs_mul, abs_of_pos hp]
    have h2 : pow2 (f.ulp a - 1) = 1 / 2 * pow2 (f.ulp a) := by
      have := pow2_add (-1) (f.ulp a)
      rw [show (-1 : ℤ) + f.ulp a = f.ulp a - 1 by ring] at this
      rw [this, show pow2 (-1) = 1 / 2 by rw [pow2_eq]; norm_num]
    rw [h2]
    exact mul_le_mul_of_nonneg_right (roundEven_near _) hp.le
  refine h1.trans ?_
  unfold ulp
  rcases max_choice f.low (ilog2 a - f.prec + 1) with h | h
  · rw [h]; exact le_max_left _ _
  · rw [h]
    refine le_trans ?_ (le_max_right _ _)
    unfold unit
    calc pow2 (ilog2 a - f.prec + 1 - 1) = pow2 (-f.prec) * pow2 (ilog2 a) := by rw [← pow2_add]; congr 1; ring
      _ ≤ pow2 (-f.prec) * a := mul_le_mul_of_nonneg_left (ilog2_spec ha).1 (pow2_pos _).le

/-- Multiples of the least number that are small enough are hit exactly. -/
theorem nearest_exact {a : ℚ} {k e : ℤ} (hk : a = k * pow2 e) (he : f.ulp a ≤ e) : f.nearest a = a := by
  have hp := pow2_ne (f.ulp a)
  have : a / pow2 (f.ulp a) = ((k * 2 ^ (e - f.ulp a).toNat : ℤ) : ℚ) := by
    rw [div_eq_iff hp]
    push_cast
    have h1 : ((2 : ℚ) ^ (e - f.ulp a).toNat) = pow2 ((e - f.ulp a).toNat : ℕ) := by rw [pow2_natCast]; push_cast; rfl
    rw [h1, mul_assoc, ← pow2_add]
    conv_lhs => rw [hk]
    congr 2
    omega
  unfold nearest
  rw [this, roundEven_int, ← this, div_mul_cancel₀ _ hp]

theorem Rep.ulp_le {q : ℚ} {m e : ℤ} (hq : q = m * pow2 e) (h0 : q ≠ 0) (hm : |m| < 2 ^ f.prec) (hlo : f.low ≤ e) :
    f.ulp |q| ≤ e := by
  have ha : 0 < |q| := abs_pos.2 h0
  have hlt : |q| < pow2 (f.prec + e) := by
    rw [hq, abs_mul, abs_of_pos (pow2_pos e), pow2_add]
    refine mul_lt_mul_of_pos_right ?_ (pow2_pos e)
    rw [pow2_prec]
    exact_mod_cast hm
  have h1 := lt_of_le_of_lt (ilog2_spec ha).1 hlt
  rw [pow2_lt] at h1
  unfold ulp
  exact max_le hlo (by omega)

/-- Numbers of the format are not changed by rounding. -/
theorem round_rep {q : ℚ} (h0 : q ≠ 0) (h : f.Rep q) (neg : Bool) : f.round neg q = .num q := by
  obtain ⟨m, e, hq, hm, hlo, hhi⟩ := h
  have ha : 0 < |q| := abs_pos.2 h0
  have hn : f.nearest |q| = |q| := by
    refine f.nearest_exact (k := |m|) (e := e) ?_ (Rep.ulp_le f hq h0 hm hlo)
    rw [hq, abs_mul, abs_of_pos (pow2_pos e)]
    push_cast; rfl
  have hlt : |q| < pow2 (f.emax + 1) := by
    rw [hq, abs_mul, abs_of_pos (pow2_pos e)]
    calc |(m : ℚ)| * pow2 e < pow2 f.prec * pow2 e := by
          refine mul_lt_mul_of_pos_right ?_ (pow2_pos e)
          rw [pow2_prec]; exact_mod_cast hm
      _ = pow2 (f.prec + e) := (pow2_add _ _).symm
      _ ≤ pow2 (f.emax + 1) := pow2_le (by unfold top at hhi; omega)
  unfold round
  rw [if_neg h0]
  dsimp only
  rw [hn, if_neg ha.ne', if_neg (not_le.2 hlt)]
  split
  · rename_i h; rw [abs_of_neg h, neg_neg]
  · rename_i h; rw [abs_of_nonneg (not_lt.1 h)]

/-- Every number of the format is a multiple of the least one. -/
theorem Rep.multiple {q : ℚ} (h : f.Rep q) : ∃ k : ℤ, q = k * pow2 f.low := by
  obtain ⟨m, e, rfl, -, hlo, -⟩ := h
  refine ⟨m * 2 ^ (e - f.low).toNat, ?_⟩
  push_cast
  have h1 : ((2 : ℚ) ^ (e - f.low).toNat) = pow2 ((e - f.low).toNat : ℕ) := by rw [pow2_natCast]; push_cast; rfl
  rw [h1, mul_assoc, ← pow2_add]
  congr 2
  omega

end Fmt

namespace Fmt
variable (f : Fmt)

theorem round_err {neg : Bool} {q : ℚ} (h : (f.round neg q).Fin) :
    |(f.round neg q).val - q| ≤ max f.tiny (f.unit * |q|) := by
  unfold round at h ⊢
  split
  · rename_i h0; subst h0; simp [Raw.val]
  · rename_i h0
    rw [if_neg h0] at h
    have ha : 0 < |q| := abs_pos.2 h0
    have key := f.nearest_err ha
    dsimp only at h ⊢
    split
    · rename_i hv
      rw [hv] at key
      simpa [Raw.val] using key
    · rename_i hv
      rw [if_neg hv] at h
      split at h
      · exact h.elim
      · rename_i hlt
        rw [if_neg hlt]
        simp only [Raw.val]
        split
        · rename_i hq
          rw [abs_of_neg hq] at key ⊢
          rw [← abs_neg]
          convert key using 2
          ring
        · rename_i hq
          rw [abs_of_nonneg (not_lt.1 hq)] at key ⊢
          exact key

/-- Sums of numbers of the format do not suffer from underflow. -/
theorem round_err_multiple {neg : Bool} {q : ℚ} (h : (f.round neg q).Fin) {k : ℤ} (hk : q = k * pow2 f.low) :
    |(f.round neg q).val - q| ≤ f.unit * |q| := by
  by_cases h0 : q = 0
  · subst h0; simp [round, Raw.val]
  have ha : 0 < |q| := abs_pos.2 h0
  by_cases hu : f.ulp |q| = f.low
  · have hn : f.nearest |q| = |q| := by
      refine f.nearest_exact (k := |k|) (e := f.low) ?_ hu.le
      rw [hk, abs_mul, abs_of_pos (pow2_pos _)]
      push_cast; rfl
    have : (f.round neg q).val = q := by
      unfold round at h ⊢
      rw [if_neg h0] at h ⊢
      dsimp only at h ⊢
      rw [hn] at h ⊢
      rw [if_neg ha.ne'] at h ⊢
      split at h
      · exact h.elim
      · rename_i hlt
        rw [if_neg hlt]
        simp only [Raw.val]
        split
        · rename_i h; rw [abs_of_neg h, neg_neg]
        · rename_i h; rw [abs_of_nonneg (not_lt.1 h)]
    rw [this, sub_self, abs_zero]
    exact mul_nonneg f.unit_pos.le ha.le
  · refine (f.round_err h).trans (max_le ?_ le_rfl)
    have h1 : f.ulp |q| = ilog2 |q| - f.prec + 1 := by
      unfold ulp at hu ⊢
      rcases max_choice f.low (ilog2 |q| - f.prec + 1) with h | h
      · exact absurd h hu
      · exact h
    have h2 := lt_of_le_of_ne (f.low_le_ulp |q|) (Ne.symm hu)
    unfold tiny unit
    calc pow2 (f.low - 1) ≤ pow2 (-f.prec + ilog2 |q|) := pow2_le (by omega)
      _ = pow2 (-f.prec) * pow2 (ilog2 |q|) := pow2_add _ _
      _ ≤ pow2 (-f.prec) * |q| := mul_le_mul_of_nonneg_left (ilog2_spec ha).1 (pow2_pos _).le


theorem one_le_two_pow : (1 : ℤ) ≤ 2 ^ f.prec := one_le_pow₀ (by norm_num)

theorem big_pos : 0 < f.big := by
  refine mul_pos ?_ (pow2_pos _)
  have h : (2 : ℤ) ^ 1 ≤ 2 ^ f.prec := pow_le_pow_right₀ (by norm_num) (by have := f.two_le; omega)
  have : (0 : ℤ) < 2 ^ f.prec - 1 := by omega
  exact_mod_cast this

theorem big_rep : f.Rep f.big := by
  have := f.one_le_two_pow
  exact ⟨_, _, rfl, by rw [abs_of_nonneg (by omega)]; omega, f.low_le_top, le_rfl⟩

theorem big_lt : f.big < pow2 (f.emax + 1) := by
  have : pow2 (f.emax + 1) = pow2 f.prec * pow2 f.top := by
    rw [← pow2_add]; congr 1; unfold top; ring
  rw [this]
  refine mul_lt_mul_of_pos_right ?_ (pow2_pos _)
  rw [pow2_prec]; exact_mod_cast (by omega : (2 ^ f.prec - 1 : ℤ) < 2 ^ f.prec)

theorem round_fin {neg : Bool} {q : ℚ} (h : |q| ≤ f.big) : (f.round neg q).Fin := by
  unfold round
  split
  · trivial
  · rename_i h0
    have ha : 0 < |q| := abs_pos.2 h0
    dsimp only
    split
    · trivial
    · split
      · rename_i hv
        have h1 := f.nearest_spec ha f.big_rep
        have h2 := f.big_lt
        rw [abs_of_nonneg (a := f.big - |q|) (by linarith),
          abs_of_nonneg (a := f.nearest |q| - |q|) (by linarith)] at h1
        linarith
      · trivial

/-- No number of the format is nearer to `q` than what rounding gives. -/
theorem round_spec {neg : Bool} {q : ℚ} (h : (f.round neg q).Fin) {r : ℚ} (hr : f.Rep r) :
    |(f.round neg q).val - q| ≤ |r - q| := by
  unfold round at h ⊢
  split
  · rename_i h0; subst h0; simp [Raw.val]
  · rename_i h0
    rw [if_neg h0] at h
    have ha : 0 < |q| := abs_pos.2 h0
    have key : |(if q < 0 then -f.nearest |q| else f.nearest |q|) - q| ≤ |r - q| := by
      split
      · rename_i hq
        have := f.nearest_spec ha hr.neg
        rw [abs_of_neg hq] at this ⊢
        rw [← abs_neg, ← abs_neg (r - q)]
        convert this using 2 <;> ring
      · rename_i hq
        have := f.nearest_spec ha hr
        rw [abs_of_nonneg (not_lt.1 hq)] at this ⊢
        exact this
    dsimp only at h ⊢
    split
    · rename_i hv
      rw [hv] at key
      simpa [Raw.val] using key
    · rename_i hv
      rw [if_neg hv] at h
      split at h
      · exact h.elim
      · rename_i hlt
        rw [if_neg hlt]
        exact key

end Fmt

namespace Fl

variable {f : Fmt}

theorem ext {x y : Fl f} (h : x.1 = y.1) : x = y := Subtype.ext h

theorem rep (x : Fl f) : f.Rep x.rat := by
  obtain ⟨x, hx⟩ := x
  have z : f.Rep 0 := ⟨0, f.low, by simp, by simp, le_rfl, f.low_le_top⟩
  cases x
  case num q => exact hx.2
  all_goals exact z

theorem zero_fin : (0 : Fl f).Fin := trivial
theorem zero_rat : (0 : Fl f).rat = 0 := rfl

theorem add_comm' (x y : Fl f) : x + y = y + x := by
  refine ext ?_
  obtain ⟨x, hx⟩ := x; obtain ⟨y, hy⟩ := y
  show x.add f y = y.add f x
  cases x <;> cases y <;> try rfl
  · rename_i s t; cases s <;> cases t <;> rfl
  · rename_i s t; cases s <;> cases t <;> rfl
  all_goals
    simp only [Raw.add, add_comm]

theorem mul_comm' (x y : Fl f) : x * y = y * x := by
  refine ext ?_
  obtain ⟨x, hx⟩ := x; obtain ⟨y, hy⟩ := y
  show x.mul f y = y.mul f x
  cases x <;> cases y <;> try rfl
  all_goals simp only [Raw.mul, Raw.sign, mul_comm, Bool.xor_comm]

theorem sub_eq (x y : Fl f) : x - y = x + -y := rfl

theorem neg_neg' (x : Fl f) : - -x = x := by
  refine ext ?_
  obtain ⟨x, hx⟩ := x
  show x.neg.neg = x
  cases x <;> simp [Raw.neg]

theorem neg_rat (x : Fl f) : (-x).rat = -x.rat := by
  obtain ⟨x, hx⟩ := x
  show x.neg.val = -x.val
  cases x <;> simp [Raw.neg, Raw.val]

theorem neg_fin {x : Fl f} : (-x).Fin ↔ x.Fin := by
  obtain ⟨x, hx⟩ := x
  show x.neg.Fin ↔ x.Fin
  cases x <;> simp [Raw.neg, Raw.Fin]

/-- The sum, when finite, is a number of the format nearest to the exact one; there is no underflow. -/
theorem add_fin {x y : Fl f} (h : (x + y).Fin) : x.Fin ∧ y.Fin ∧
    |(x + y).rat - (x.rat + y.rat)| ≤ f.unit * |x.rat + y.rat| ∧
    ∀ r, f.Rep r → |(x + y).rat - (x.rat + y.rat)| ≤ |r - (x.rat + y.rat)| := by
  have hx := x.rep; have hy := y.rep
  have key : (x.1.add f y.1 = f.round false (x.rat + y.rat) ∨ (x.rat = 0 ∧ y.rat = 0 ∧ (x + y).rat = 0)) ∧ x.Fin ∧ y.Fin := by
    obtain ⟨x, hx⟩ := x; obtain ⟨y, hy⟩ := y
    change (x.add f y).Fin at h
    show (x.add f y = f.round false (x.val + y.val) ∨ (x.val = 0 ∧ y.val = 0 ∧ (x.add f y).val = 0)) ∧ x.Fin ∧ y.Fin
    cases x <;> cases y <;> try exact h.elim
    · simp only [Raw.add] at h; split at h <;> exact False.elim h
    all_goals first
      | exact ⟨Or.inl rfl, trivial, trivial⟩
      | exact ⟨Or.inr ⟨rfl, rfl, rfl⟩, trivial, trivial⟩
  obtain ⟨h1 | ⟨h1, h2, h3⟩, hfx, hfy⟩ := key
  · have h' : (f.round false (x.rat + y.rat)).Fin := by rw [← h1]; exact h
    have e : (x + y).rat = (f.round false (x.rat + y.rat)).val := by rw [← h1]; rfl
    obtain ⟨k, hk⟩ := Fmt.Rep.multiple f hx
    obtain ⟨l, hl⟩ := Fmt.Rep.multiple f hy
    rw [e]
    exact ⟨hfx, hfy, f.round_err_multiple h' (k := k + l) (by rw [hk, hl]; push_cast; ring),
      fun r hr => f.round_spec h' hr⟩
  · rw [h1, h2, h3]
    exact ⟨hfx, hfy, by simp, fun r _ => by simp⟩

theorem fin_add {x y : Fl f} (hx : x.Fin) (hy : y.Fin) (h : |x.rat + y.rat| ≤ f.big) : (x + y).Fin := by
  obtain ⟨x, hx'⟩ := x; obtain ⟨y, hy'⟩ := y
  change x.Fin at hx; change y.Fin at hy
  show (x.add f y).Fin
  cases x <;> cases y <;> first | exact hx.elim | exact hy.elim | trivial | exact f.round_fin h

/-- The product, when finite, is a number of the format nearest to the exact one. -/
theorem mul_fin {x y : Fl f} (h : (x * y).Fin) : x.Fin ∧ y.Fin ∧
    |(x * y).rat - x.rat * y.rat| ≤ max f.tiny (f.unit * |x.rat * y.rat|) ∧
    ∀ r, f.Rep r → |(x * y).rat - x.rat * y.rat| ≤ |r - x.rat * y.rat| := by
  have key : (x.1.mul f y.1 = f.round false (x.rat * y.rat) ∨ (x.rat * y.rat = 0 ∧ (x * y).rat = 0)) ∧ x.Fin ∧ y.Fin := by
    obtain ⟨x, hx⟩ := x; obtain ⟨y, hy⟩ := y
    change (x.mul f y).Fin at h
    show (x.mul f y = f.round false (x.val * y.val) ∨ (x.val * y.val = 0 ∧ (x.mul f y).val = 0)) ∧ x.Fin ∧ y.Fin
    cases x <;> cases y <;> try exact h.elim
    all_goals first
      | exact ⟨Or.inl rfl, trivial, trivial⟩
      | exact ⟨Or.inr ⟨by simp [Raw.val], rfl⟩, trivial, trivial⟩
  obtain ⟨h1 | ⟨h1, h2⟩, hfx, hfy⟩ := key
  · have h' : (f.round false (x.rat * y.rat)).Fin := by rw [← h1]; exact h
    have e : (x * y).rat = (f.round false (x.rat * y.rat)).val := by rw [← h1]; rfl
    rw [e]
    exact ⟨hfx, hfy, f.round_err h', fun r hr => f.round_spec h' hr⟩
  · rw [h1, h2]
    exact ⟨hfx, hfy, by simp [f.tiny_pos.le], fun r _ => by simp⟩

theorem fin_mul {x y : Fl f} (hx : x.Fin) (hy : y.Fin) (h : |x.rat * y.rat| ≤ f.big) : (x * y).Fin := by
  obtain ⟨x, hx'⟩ := x; obtain ⟨y, hy'⟩ := y
  change x.Fin at hx; change y.Fin at hy
  show (x.mul f y).Fin
  cases x <;> cases y <;> first | exact hx.elim | exact hy.elim | trivial | exact f.round_fin h

theorem zero_add_rat (x : Fl f) : (0 + x).rat = x.rat ∧ ((0 + x).Fin ↔ x.Fin) := by
  obtain ⟨x, hx⟩ := x
  show ((Raw.zero false).add f x).val = x.val ∧ (((Raw.zero false).add f x).Fin ↔ x.Fin)
  cases x
  case num q =>
    have : (Raw.zero false).add f (.num q) = .num q := by
      show f.round false (0 + q) = _
      rw [zero_add]; exact f.round_rep hx.1 hx.2 _
    rw [this]; exact ⟨rfl, Iff.rfl⟩
  all_goals exact ⟨rfl, Iff.rfl⟩

theorem eq_self_iff (x : Fl f) : GoNum.geq x x = true ↔ x ≠ nan := by
  have : x = nan ↔ x.1 = .nan := ⟨fun h => by rw [h]; rfl, fun h => ext (y := nan) h⟩
  rw [ne_eq, this]
  show x.1.eq x.1 = true ↔ _
  cases x.1 <;> simp [Raw.eq]

theorem eq_comm' (x y : Fl f) : GoNum.geq x y = GoNum.geq y x := by
  obtain ⟨x, hx⟩ := x; obtain ⟨y, hy⟩ := y
  show x.eq y = y.eq x
  cases x <;> cases y <;> simp [Raw.eq, BEq.comm]

/-- `==` for finite numbers compares values. -/
theorem eq_iff {x y : Fl f} (hx : x.Fin) (hy : y.Fin) : GoNum.geq x y = true ↔ x.rat = y.rat := by
  obtain ⟨x, hx'⟩ := x; obtain ⟨y, hy'⟩ := y
  change x.Fin at hx; change y.Fin at hy
  show x.eq y = true ↔ x.val = y.val
  cases x <;> cases y <;> first | exact hx.elim | exact hy.elim | simp [Raw.eq, Raw.val]

theorem isZero_iff {x : Fl f} : isZero x = true ↔ x = 0 ∨ x = negZero := by
  have h1 : x = 0 ↔ x.1 = .zero false := ⟨fun h => by rw [h]; rfl, fun h => ext (y := 0) h⟩
  have h2 : x = negZero ↔ x.1 = .zero true := ⟨fun h => by rw [h]; rfl, fun h => ext (y := negZero) h⟩
  rw [h1, h2]
  show x.1.eq (.zero false) = true ↔ _
  obtain ⟨x, hx⟩ := x
  dsimp only
  cases x
  case num q => simpa [Raw.eq, Raw.val] using hx.1
  case zero s => cases s <;> simp [Raw.eq, Raw.val]
  all_goals simp [Raw.eq]

theorem isZero_neg (x : Fl f) : isZero (-x) = isZero x := by
  obtain ⟨x, hx⟩ := x
  show x.neg.eq (.zero false) = x.eq (.zero false)
  cases x <;> simp [Raw.neg, Raw.eq, Raw.val]

/-- Reading back from a compressed format only forgets the sign of a zero. -/
theorem norm_eq (x : Fl f) : norm x = if x = negZero then 0 else x := by
  unfold norm
  by_cases h : isZero x = true
  · rw [if_pos h]
    rcases isZero_iff.1 h with rfl | rfl
    · split <;> rfl
    · rw [if_pos rfl]
  · rw [if_neg h, if_neg]
    rintro rfl; exact h rfl

theorem norm_rat (x : Fl f) : (norm x).rat = x.rat ∧ ((norm x).Fin ↔ x.Fin) := by
  rw [norm_eq]; split
  · rename_i h; rw [h]; exact ⟨rfl, Iff.rfl⟩
  · exact ⟨rfl, Iff.rfl⟩

/-! ## Inner products -/

open Finset in
/-- The inner product as the code adds it up, when it stays finite: it misses the exact one by at most
`((1+u)^n - 1) Σ|aᵢ||bᵢ| + n (1+u)^n η/2`. -/
theorem dotSum_err (a b : Nat → Fl f) (n : Nat) (h : (dotSum n a b).Fin) :
    (∀ l < n, (a l).Fin ∧ (b l).Fin) ∧
    |(dotSum n a b).rat - ∑ l ∈ range n, (a l).rat * (b l).rat| ≤
      ((1 + f.unit) ^ n - 1) * ∑ l ∈ range n, |(a l).rat * (b l).rat| + n * (1 + f.unit) ^ n * f.tiny := by
  have hu := f.unit_pos
  have ht := f.tiny_pos
  have step : ∀ k, dotSum (k + 1) a b = dotSum k a b + a k * b k := by
    intro k; unfold dotSum; rw [List.range_succ, List.foldl_append]; rfl
  induction n with
  | zero =>
    refine ⟨fun l hl => absurd hl (by omega), ?_⟩
    show |(0 : Fl f).rat - _| ≤ _
    simp [zero_rat]
  | succ n ih =>
    rw [step] at h ⊢
    obtain ⟨f1, f2, e1, -⟩ := add_fin h
    obtain ⟨fa, fb, e2, -⟩ := mul_fin f2
    obtain ⟨ih1, ih2⟩ := ih f1
    refine ⟨fun l hl => ?_, ?_⟩
    · rcases Nat.lt_succ_iff_lt_or_eq.1 hl with hl | rfl
      · exact ih1 l hl
      · exact ⟨fa, fb⟩
    rw [sum_range_succ, sum_range_succ]
    generalize hS : ∑ l ∈ range n, (a l).rat * (b l).rat = S at *
    generalize hP : ∑ l ∈ range n, |(a l).rat * (b l).rat| = P at *
    generalize hc : (a n).rat * (b n).rat = c at *
    have hSP : |S| ≤ P := by rw [← hS, ← hP]; exact abs_sum_le_sum_abs _ _
    have hP0 : 0 ≤ P := le_trans (abs_nonneg _) hSP
    have hc0 := abs_nonneg c
    have e2' : |(a n * b n).rat - c| ≤ f.tiny + f.unit * |c| :=
      e2.trans (max_le (le_add_of_nonneg_right (mul_nonneg hu.le hc0)) (le_add_of_nonneg_left ht.le))
    set g := 1 + f.unit with hg
    have hg1 : 1 ≤ g := by rw [hg]; linarith
    rcases Nat.eq_zero_or_pos n with rfl | hn
    · -- the first product is added to 0
      have hS0 : S = 0 := by rw [← hS]; simp
      have hP0 : P = 0 := by rw [← hP]; simp
      have : (dotSum 0 a b + a 0 * b 0).rat = (a 0 * b 0).rat := (zero_add_rat _).1
      rw [this, hS0, hP0]
      simp only [zero_add, pow_one, Nat.cast_one, one_mul]
      have : g - 1 = f.unit := by rw [hg]; ring
      rw [this]
      nlinarith
    · generalize hs : (dotSum n a b).rat = s at *
      generalize hp : (a n * b n).rat = p at *
      have d1 : |s + p - (S + c)| ≤ |s - S| + |p - c| := by
        have : s + p - (S + c) = (s - S) + (p - c) := by ring
        rw [this]; exact abs_add_le _ _
      have d2 : |s + p| ≤ |S| + |c| + |s + p - (S + c)| := by
        have : s + p = (S + c) + (s + p - (S + c)) := by ring
        calc |s + p| = |(S + c) + (s + p - (S + c))| := by rw [← this]
          _ ≤ |S + c| + |s + p - (S + c)| := abs_add_le _ _
          _ ≤ _ := by have := abs_add_le S c; linarith
      have d3 : |(dotSum n a b + a n * b n).rat - (S + c)| ≤
          |(dotSum n a b + a n * b n).rat - (s + p)| + |s + p - (S + c)| := abs_sub_le _ _ _
      have hgn : g ≤ g ^ n := by
        calc g = g ^ 1 := (pow_one g).symm
          _ ≤ g ^ n := pow_le_pow_right₀ hg1 hn
      have hgn1 : g ^ (n + 1) = g * g ^ n := by rw [pow_succ]; ring
      -- all in terms of D
      have D : |s + p - (S + c)| ≤ (g ^ n - 1) * P + n * g ^ n * f.tiny + (f.tiny + f.unit * |c|) := by linarith
      have E : |(dotSum n a b + a n * b n).rat - (S + c)| ≤
          f.unit * (P + |c|) + g * ((g ^ n - 1) * P + n * g ^ n * f.tiny + (f.tiny + f.unit * |c|)) := by
        have m1 : f.unit * |s + p| ≤ f.unit * (P + |c| + |s + p - (S + c)|) :=
          mul_le_mul_of_nonneg_left (by linarith) hu.le
        have m2 : g * |s + p - (S + c)| ≤ g * ((g ^ n - 1) * P + n * g ^ n * f.tiny + (f.tiny + f.unit * |c|)) :=
          mul_le_mul_of_nonneg_left D (by linarith)
        have m3 : g * |s + p - (S + c)| = |s + p - (S + c)| + f.unit * |s + p - (S + c)| := by rw [hg]; ring
        linarith
      refine E.trans ?_
      push_cast
      rw [hgn1]
      have hug : f.unit = g - 1 := by rw [hg]; ring
      rw [hug]
      have c1 : 0 ≤ (g * g ^ n - g * g) * |c| := mul_nonneg (by nlinarith) hc0
      have c2 : 0 ≤ (g * g ^ n - g) * f.tiny := mul_nonneg (by nlinarith) ht.le
      nlinarith

open Finset in
/-- It does stay finite if the exact products are not too large. -/
theorem dotSum_fin (a b : Nat → Fl f) (n : Nat) (hf : ∀ l < n, (a l).Fin ∧ (b l).Fin)
    (h : (1 + f.unit) ^ n * ∑ l ∈ range n, |(a l).rat * (b l).rat| + n * (1 + f.unit) ^ n * f.tiny ≤ f.big) :
    (dotSum n a b).Fin := by
  have hu := f.unit_pos
  have ht := f.tiny_pos
  have step : ∀ k, dotSum (k + 1) a b = dotSum k a b + a k * b k := by
    intro k; unfold dotSum; rw [List.range_succ, List.foldl_append]; rfl
  induction n with
  | zero => exact zero_fin
  | succ n ih =>
    rw [sum_range_succ] at h
    have hP0 : 0 ≤ ∑ l ∈ range n, |(a l).rat * (b l).rat| := sum_nonneg fun _ _ => abs_nonneg _
    set g := 1 + f.unit with hg
    have hg1 : 1 ≤ g := by rw [hg]; linarith
    have hgn : 1 ≤ g ^ n := one_le_pow₀ hg1
    have hgn1 : g ^ (n + 1) = g * g ^ n := by rw [pow_succ]; ring
    have hc0 := abs_nonneg ((a n).rat * (b n).rat)
    have hle : g ^ n ≤ g ^ (n + 1) := by rw [hgn1]; nlinarith
    have hn0 : (0 : ℚ) ≤ n := Nat.cast_nonneg n
    push_cast at h
    have f1 : (dotSum n a b).Fin := by
      refine ih (fun l hl => hf l (by omega)) (le_trans ?_ h)
      have k1 : g ^ n * ∑ l ∈ range n, |(a l).rat * (b l).rat| ≤
          g ^ (n + 1) * (∑ l ∈ range n, |(a l).rat * (b l).rat| + |(a n).rat * (b n).rat|) :=
        mul_le_mul hle (by linarith) hP0 (by linarith)
      have k2 : (n : ℚ) * g ^ n * f.tiny ≤ (n + 1) * g ^ (n + 1) * f.tiny :=
        mul_le_mul_of_nonneg_right (mul_le_mul (by linarith) hle (by linarith) (by linarith)) ht.le
      linarith
    have hnt : 0 ≤ ((n : ℚ) + 1) * g ^ (n + 1) * f.tiny :=
      mul_nonneg (mul_nonneg (by linarith) (by linarith)) ht.le
    have f2 : (a n * b n).Fin := by
      obtain ⟨fa, fb⟩ := hf n (by omega)
      refine fin_mul fa fb (le_trans ?_ h)
      have : |(a n).rat * (b n).rat| ≤
          g ^ (n + 1) * (∑ l ∈ range n, |(a l).rat * (b l).rat| + |(a n).rat * (b n).rat|) := by
        have := mul_le_mul (a := 1) (b := g ^ (n + 1)) (by linarith)
          (by linarith : |(a n).rat * (b n).rat| ≤ ∑ l ∈ range n, |(a l).rat * (b l).rat| + |(a n).rat * (b n).rat|)
          hc0 (by linarith)
        linarith
      linarith
    rw [step]
    refine fin_add f1 f2 (le_trans ?_ h)
    obtain ⟨-, e1⟩ := dotSum_err a b n f1
    obtain ⟨-, -, e2, -⟩ := mul_fin f2
    rw [← hg] at e1
    generalize hS : ∑ l ∈ range n, (a l).rat * (b l).rat = S at *
    generalize hP : ∑ l ∈ range n, |(a l).rat * (b l).rat| = P at *
    have hSP : |S| ≤ P := by rw [← hS, ← hP]; exact abs_sum_le_sum_abs _ _
    generalize hc : (a n).rat * (b n).rat = c at *
    have e2' : |(a n * b n).rat - c| ≤ f.tiny + f.unit * |c| :=
      e2.trans (max_le (le_add_of_nonneg_right (mul_nonneg hu.le hc0)) (le_add_of_nonneg_left ht.le))
    generalize hs : (dotSum n a b).rat = s at *
    generalize hp : (a n * b n).rat = p at *
    have d : |s + p| ≤ |s - S| + |p - c| + |S| + |c| := by
      have : s + p = ((s - S) + (p - c)) + (S + c) := by ring
      rw [this]
      have := abs_add_le ((s - S) + (p - c)) (S + c)
      have := abs_add_le (s - S) (p - c)
      have := abs_add_le S c
      linarith
    have hug : f.unit = g - 1 := by rw [hg]; ring
    rw [hug] at e2'
    refine d.trans ?_
    have k1 : 0 ≤ (g ^ (n + 1) - g ^ n) * P := mul_nonneg (by linarith) hP0
    have k2 : 0 ≤ (g ^ (n + 1) - g) * |c| := mul_nonneg (by rw [hgn1]; nlinarith) hc0
    have k3 : 0 ≤ (((n : ℚ) + 1) * g ^ (n + 1) - (n * g ^ n + 1)) * f.tiny := by
      refine mul_nonneg ?_ ht.le
      have : (n : ℚ) * g ^ n ≤ n * g ^ (n + 1) := mul_le_mul_of_nonneg_left hle hn0
      nlinarith
    nlinarith

/-! ## Sums -/

/-- Values added up from the left, beginning with `+0`: when the sum stays finite it misses the exact one by at most
`((1+u)^(n-1) - 1) Σ|vᵢ|`. -/
theorem foldl_err (l : List (Fl f)) (h : (l.foldl (· + ·) 0).Fin) :
    (∀ x ∈ l, x.Fin) ∧ |(l.foldl (· + ·) 0).rat - (l.map rat).sum| ≤
      ((1 + f.unit) ^ (l.length - 1) - 1) * (l.map (fun x => |x.rat|)).sum := by
  have hu := f.unit_pos
  induction l using List.reverseRecOn with
  | nil => exact ⟨fun _ h => absurd h List.not_mem_nil, by simp [zero_rat]⟩
  | append_singleton l x ih =>
    rw [List.foldl_append] at h ⊢
    change (l.foldl (· + ·) 0 + x).Fin at h
    obtain ⟨f1, f2, e1, -⟩ := add_fin h
    obtain ⟨ih1, ih2⟩ := ih f1
    refine ⟨fun y hy => ?_, ?_⟩
    · rcases List.mem_append.1 hy with hy | hy
      · exact ih1 y hy
      · rw [List.mem_singleton.1 hy]; exact f2
    show |(l.foldl (· + ·) 0 + x).rat - _| ≤ _
    simp only [List.map_append, List.map_cons, List.map_nil, List.sum_append, List.sum_cons, List.sum_nil, add_zero,
      List.length_append, List.length_cons, List.length_nil, Nat.add_sub_cancel, Nat.zero_add]
    have hSP : |(l.map rat).sum| ≤ (l.map (fun x => |x.rat|)).sum := by
      clear ih ih1 ih2 e1 f1 h
      induction l with
      | nil => simp
      | cons y l ih =>
        simp only [List.map_cons, List.sum_cons]
        exact (abs_add_le _ _).trans (by linarith)
    rcases Nat.eq_zero_or_pos l.length with hl | hl
    · obtain rfl := List.length_eq_zero_iff.1 hl
      show |(0 + x).rat - (0 + x.rat)| ≤ _
      rw [(zero_add_rat x).1]; simp
    · generalize (l.map rat).sum = S at *
      generalize (l.map (fun x => |x.rat|)).sum = P at *
      generalize (l.foldl (· + ·) 0 + x).rat = r at *
      generalize (l.foldl (· + ·) (0 : Fl f)).rat = s at *
      generalize x.rat = c at *
      set g := 1 + f.unit with hg
      have hP0 : 0 ≤ P := le_trans (abs_nonneg _) hSP
      have hg1 : 1 ≤ g := by rw [hg]; linarith
      obtain ⟨n, hn⟩ : ∃ n, l.length = n + 1 := ⟨l.length - 1, by omega⟩
      rw [hn] at ih2 ⊢
      simp only [Nat.add_sub_cancel] at ih2
      have hc0 := abs_nonneg c
      have d1 : |r - (S + c)| ≤ |r - (s + c)| + |s - S| := by
        have : r - (S + c) = (r - (s + c)) + (s - S) := by ring
        rw [this]; exact abs_add_le _ _
      have d2 : |s + c| ≤ |s - S| + |S| + |c| := by
        have : s + c = ((s - S) + S) + c := by ring
        rw [this]
        have := abs_add_le ((s - S) + S) c
        have := abs_add_le (s - S) S
        linarith
      have d3 : f.unit * |s + c| ≤ f.unit * (|s - S| + P + |c|) := mul_le_mul_of_nonneg_left (by linarith) hu.le
      have d4 : g * |s - S| ≤ g * ((g ^ n - 1) * P) := mul_le_mul_of_nonneg_left ih2 (by linarith)
      have d5 : g * |s - S| = |s - S| + f.unit * |s - S| := by rw [hg]; ring
      have hug : f.unit = g - 1 := by rw [hg]; ring
      have hgn : g ^ (n + 1) = g * g ^ n := by rw [pow_succ]; ring
      have hgn1 : 1 ≤ g ^ n := one_le_pow₀ hg1
      have d6 : 0 ≤ (g * g ^ n - g) * |c| := mul_nonneg (by nlinarith) hc0
      rw [hgn]
      rw [hug] at e1 d3 d5
      nlinarith

/-! ## Integers -/

theorem rep_le_big {q : ℚ} (h : f.Rep q) : |q| ≤ f.big := by
  obtain ⟨m, e, rfl, hm, -, hhi⟩ := h
  rw [abs_mul, abs_of_pos (pow2_pos e)]
  refine mul_le_mul ?_ (pow2_le hhi) (pow2_pos e).le ?_
  · exact_mod_cast (by omega : |m| ≤ 2 ^ f.prec - 1)
  · exact_mod_cast (by have := f.one_le_two_pow; omega : (0 : ℤ) ≤ 2 ^ f.prec - 1)

/-- Integers up to `2^prec` belong to the format. -/
theorem rep_int {k : ℤ} (h : |k| ≤ 2 ^ f.prec) : f.Rep (k : ℚ) := by
  have h2 := f.two_le; have h3 := f.le_emax
  have hl : f.low ≤ 0 := by unfold Fmt.low; omega
  have ht : 1 ≤ f.top := by unfold Fmt.top; omega
  rcases h.lt_or_eq with h | h
  · exact ⟨k, 0, by simp [pow2], h, hl, by omega⟩
  · have e : (2 : ℤ) ^ f.prec = 2 * 2 ^ (f.prec - 1) := by
      rw [← pow_succ']; congr 1; omega
    have hlt : (2 : ℤ) ^ (f.prec - 1) < 2 ^ f.prec := pow_lt_pow_right₀ (by norm_num) (by omega)
    have hp : (0 : ℤ) < 2 ^ (f.prec - 1) := by positivity
    have e1 : pow2 1 = 2 := by simp [pow2]
    rcases abs_choice k with hk | hk
    · refine ⟨2 ^ (f.prec - 1), 1, ?_, by rw [abs_of_pos hp]; exact hlt, by omega, ht⟩
      rw [← hk, h, e, e1]; push_cast; ring
    · refine ⟨-2 ^ (f.prec - 1), 1, ?_, by rw [abs_neg, abs_of_pos hp]; exact hlt, by omega, ht⟩
      have : k = -(2 * 2 ^ (f.prec - 1)) := by omega
      rw [this, e1]; push_cast; ring

theorem add_exact {x y : Fl f} (hx : x.Fin) (hy : y.Fin) (h : f.Rep (x.rat + y.rat)) :
    (x + y).Fin ∧ (x + y).rat = x.rat + y.rat := by
  have hf := fin_add hx hy (rep_le_big h)
  have := (add_fin hf).2.2.2 _ h
  rw [sub_self, abs_zero] at this
  exact ⟨hf, sub_eq_zero.1 (abs_nonpos_iff.1 this)⟩

theorem mul_exact {x y : Fl f} (hx : x.Fin) (hy : y.Fin) (h : f.Rep (x.rat * y.rat)) :
    (x * y).Fin ∧ (x * y).rat = x.rat * y.rat := by
  have hf := fin_mul hx hy (rep_le_big h)
  have := (mul_fin hf).2.2.2 _ h
  rw [sub_self, abs_zero] at this
  exact ⟨hf, sub_eq_zero.1 (abs_nonpos_iff.1 this)⟩

open Finset in
/-- Inner products of integers are exact as long as `Σ|aᵢ||bᵢ| ≤ 2^prec`. -/
theorem dotSum_int (a b : Nat → Fl f) (n : Nat) (A B : Nat → ℤ)
    (ha : ∀ l < n, (a l).Fin ∧ (a l).rat = A l) (hb : ∀ l < n, (b l).Fin ∧ (b l).rat = B l)
    (h : ∑ l ∈ range n, |A l * B l| ≤ 2 ^ f.prec) :
    (dotSum n a b).Fin ∧ (dotSum n a b).rat = ((∑ l ∈ range n, A l * B l : ℤ) : ℚ) := by
  have step : ∀ k, dotSum (k + 1) a b = dotSum k a b + a k * b k := by
    intro k; unfold dotSum; rw [List.range_succ, List.foldl_append]; rfl
  induction n with
  | zero => exact ⟨zero_fin, by simp [dotSum, zero_rat]⟩
  | succ n ih =>
    have hfull : |∑ l ∈ range (n + 1), A l * B l| ≤ 2 ^ f.prec := (abs_sum_le_sum_abs _ _).trans h
    rw [sum_range_succ] at h hfull
    have hnn : 0 ≤ ∑ l ∈ range n, |A l * B l| := sum_nonneg fun _ _ => abs_nonneg _
    have hab := abs_nonneg (A n * B n)
    obtain ⟨i1, i2⟩ := ih (fun l hl => ha l (by omega)) (fun l hl => hb l (by omega)) (by omega)
    obtain ⟨fa, ea⟩ := ha n (by omega)
    obtain ⟨fb, eb⟩ := hb n (by omega)
    obtain ⟨m1, m2⟩ := mul_exact fa fb (by
      rw [ea, eb, ← Int.cast_mul]; exact rep_int (by omega))
    rw [step]
    obtain ⟨s1, s2⟩ := add_exact i1 m1 (by
      rw [i2, m2, ea, eb, ← Int.cast_mul, ← Int.cast_add]; exact rep_int hfull)
    refine ⟨s1, ?_⟩
    rw [s2, i2, m2, ea, eb, sum_range_succ]; push_cast; rfl

theorem foldl_int (l : List (Fl f)) (A : List ℤ) (hA : l.map rat = A.map (Int.cast : ℤ → ℚ)) (hf : ∀ x ∈ l, x.Fin)
    (h : (A.map abs).sum ≤ 2 ^ f.prec) :
    (l.foldl (· + ·) 0).Fin ∧ (l.foldl (· + ·) 0).rat = (A.sum : ℚ) := by
  induction l using List.reverseRecOn generalizing A with
  | nil =>
    have : A = [] := by simpa using hA.symm
    subst this
    exact ⟨zero_fin, by simp [zero_rat]⟩
  | append_singleton l x ih =>
    rcases List.eq_nil_or_concat A with rfl | ⟨B, k, rfl⟩
    · simp at hA
    · simp only [List.concat_eq_append, List.map_append, List.map_cons, List.map_nil] at hA
      obtain ⟨h1, h2⟩ := List.append_inj' hA rfl
      have h2 : x.rat = k := by simpa using h2
      have habs : ∀ L : List ℤ, |L.sum| ≤ (L.map abs).sum := by
        intro L; induction L with
        | nil => simp
        | cons y L ih => simp only [List.sum_cons, List.map_cons]; exact (abs_add_le _ _).trans (by omega)
      have hk := abs_nonneg k
      have hB : 0 ≤ (B.map abs).sum := (abs_nonneg _).trans (habs B)
      have hs := habs (B ++ [k])
      simp only [List.concat_eq_append, List.map_append, List.map_cons, List.map_nil, List.sum_append, List.sum_cons,
        List.sum_nil, add_zero] at h hs ⊢
      obtain ⟨i1, i2⟩ := ih B h1 (fun y hy => hf y (List.mem_append_left _ hy)) (by omega)
      have fx := hf x (List.mem_append_right _ (List.mem_singleton.2 rfl))
      rw [List.foldl_append]
      show (l.foldl (· + ·) 0 + x).Fin ∧ (l.foldl (· + ·) 0 + x).rat = _
      obtain ⟨s1, s2⟩ := add_exact i1 fx (by rw [i2, h2, ← Int.cast_add]; exact rep_int (by omega))
      exact ⟨s1, by rw [s2, i2, h2]; push_cast; rfl⟩

/-! ## Rounding, as seen from outside -/

theorem add_nearest {x y : Fl f} (hx : x.Fin) (hy : y.Fin) (h : |x.rat + y.rat| ≤ f.big) :
    (x + y).Nearest (x.rat + y.rat) :=
  ⟨fin_add hx hy h, fun z _ => (add_fin (fin_add hx hy h)).2.2.2 _ z.rep⟩

theorem mul_nearest {x y : Fl f} (hx : x.Fin) (hy : y.Fin) (h : |x.rat * y.rat| ≤ f.big) :
    (x * y).Nearest (x.rat * y.rat) :=
  ⟨fin_mul hx hy h, fun z _ => (mul_fin (fin_mul hx hy h)).2.2.2 _ z.rep⟩

theorem sub_nearest {x y : Fl f} (hx : x.Fin) (hy : y.Fin) (h : |x.rat - y.rat| ≤ f.big) :
    (x - y).Nearest (x.rat - y.rat) := by
  have := add_nearest (x := x) (y := -y) hx (neg_fin.2 hy) (by rw [neg_rat, ← sub_eq_add_neg]; exact h)
  rw [neg_rat, ← sub_eq_add_neg] at this
  exact this

open Classical in
/-- `x - x`. -/
theorem sub_self' (x : Fl f) : x - x = if x.Fin then 0 else nan := by
  refine ext ?_
  show x.1.add f x.1.neg = _
  split
  · rename_i h
    obtain ⟨x, hx⟩ := x
    change x.Fin at h
    show x.add f x.neg = .zero false
    cases x
    case zero s => cases s <;> rfl
    case num q =>
      show f.round false (q + -q) = _
      rw [add_neg_cancel]; exact if_pos rfl
    all_goals exact h.elim
  · rename_i h
    obtain ⟨x, hx⟩ := x
    change ¬ x.Fin at h
    show x.add f x.neg = .nan
    cases x
    case inf s => cases s <;> rfl
    case nan => rfl
    all_goals exact absurd trivial h

/-- `==` identifies at most the zeros. -/
theorem geq_isZero {x y : Fl f} (h : GoNum.geq x y = true) : isZero x = isZero y := by
  obtain ⟨x, hx⟩ := x; obtain ⟨y, hy⟩ := y
  change x.eq y = true at h
  show x.eq (.zero false) = y.eq (.zero false)
  cases x <;> cases y <;> simp_all [Raw.eq, Raw.val]

theorem geq_iff {x y : Fl f} : GoNum.geq x y = true ↔ x ≠ nan ∧ (x = y ∨ (isZero x = true ∧ isZero y = true)) := by
  have hn : ∀ {z : Fl f}, z = nan ↔ z.1 = .nan := fun {z} => ⟨fun h => by rw [h]; rfl, fun h => ext (y := nan) h⟩
  have he : x = y ↔ x.1 = y.1 := ⟨fun h => by rw [h], ext⟩
  rw [ne_eq, hn, he]
  show x.1.eq y.1 = true ↔ _ ∧ (_ ∨ (x.1.eq (.zero false) = true ∧ y.1.eq (.zero false) = true))
  obtain ⟨x, hx⟩ := x; obtain ⟨y, hy⟩ := y
  dsimp only
  cases x <;> cases y <;> simp_all [Raw.eq, Raw.val, Raw.Ok]
  case zero.num => exact eq_comm

end Fl
end GB
