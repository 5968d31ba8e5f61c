import Verif.Lemmas.Float

/-!
# Where rounding overflows and underflows
-/

namespace GB
namespace Fmt

variable (f : Fmt)

/-- Half way between the greatest finite number and the power of two after it. -/
def over : ℚ := pow2 (f.emax + 1) - pow2 (f.top - 1)

theorem pow2_double (e : ℤ) : pow2 e = 2 * pow2 (e - 1) := by
  have : pow2 1 = 2 := by simp [pow2]
  rw [← this, ← pow2_add]; congr 1; ring

theorem emax_eq : pow2 (f.emax + 1) = ((2 ^ f.prec : ℤ) : ℚ) * pow2 f.top := by
  rw [← pow2_prec, ← pow2_add]; congr 1; unfold top; ring

theorem over_eq : f.over = f.big + pow2 (f.top - 1) := by
  unfold over big
  rw [f.emax_eq, pow2_double f.top]
  push_cast; ring

theorem over_pos : 0 < f.over := by
  rw [over_eq]; exact add_pos f.big_pos (pow2_pos _)

theorem roundEven_half_odd {k : ℤ} (hk : k % 2 = 1) {a : ℚ} (h1 : (k : ℚ) + 1 / 2 ≤ a) (h2 : a < k + 1) :
    roundEven a = k + 1 := by
  have hf : a.floor = k := by
    have : ⌊a⌋ = k := Int.floor_eq_iff.2 ⟨by linarith, by linarith⟩
    exact this
  unfold roundEven
  dsimp only
  rw [hf, if_neg (by linarith)]
  split
  · rfl
  · rw [if_neg (by omega)]

theorem ilog2_unique {a : ℚ} (ha : 0 < a) {e : ℤ} (h1 : pow2 e ≤ a) (h2 : a < pow2 (e + 1)) : ilog2 a = e := by
  obtain ⟨h3, h4⟩ := ilog2_spec ha
  have a1 : e < ilog2 a + 1 := pow2_lt.1 (h1.trans_lt h4)
  have a2 : ilog2 a < e + 1 := pow2_lt.1 (h3.trans_lt h2)
  omega

/-- The nearest number is beyond the format exactly from `over` on. -/
theorem nearest_over {a : ℚ} (ha : 0 < a) : pow2 (f.emax + 1) ≤ f.nearest a ↔ f.over ≤ a := by
  have hp := f.two_le; have he := f.le_emax
  have hlt : f.low < f.top := by unfold low top; omega
  constructor
  · intro h
    by_contra hlt'
    rw [not_le] at hlt'
    have hs := f.nearest_spec ha f.big_rep
    have ho := f.over_eq
    have hb := f.big_lt
    have hd : f.over = pow2 (f.emax + 1) - pow2 (f.top - 1) := rfl
    rw [abs_of_nonneg (a := f.nearest a - a) (by have := pow2_pos (f.top - 1); linarith)] at hs
    rcases le_total a f.big with hab | hab
    · rw [abs_of_nonneg (by linarith)] at hs; linarith
    · rw [abs_of_nonpos (by linarith)] at hs; linarith
  · intro h
    rcases lt_or_ge a (pow2 (f.emax + 1)) with hlt' | hge
    · have hl : ilog2 a = f.emax := by
        refine ilog2_unique ha ?_ hlt'
        refine le_trans ?_ h
        unfold over
        have e1 : pow2 (f.emax + 1) = 2 * pow2 f.emax := by
          rw [pow2_double]; congr 2; ring
        have e2 : pow2 (f.top - 1) ≤ pow2 f.emax := pow2_le (by unfold top; omega)
        linarith
      have hu : f.ulp a = f.top := by
        unfold ulp; rw [hl]
        rw [show (f.emax : ℤ) - f.prec + 1 = f.top from rfl]
        exact max_eq_right hlt.le
      have hq := pow2_pos f.top
      have hr : roundEven (a / pow2 f.top) = (2 ^ f.prec - 1) + 1 := by
        refine roundEven_half_odd ?_ ?_ ?_
        · have : (2 : ℤ) ^ f.prec = 2 * 2 ^ (f.prec - 1) := by rw [← pow_succ']; congr 1; omega
          rw [this]; omega
        · rw [le_div_iff₀ hq]
          rw [f.over_eq] at h
          unfold big at h
          rw [pow2_double f.top] at h ⊢
          linarith
        · rw [div_lt_iff₀ hq]
          rw [f.emax_eq] at hlt'
          push_cast at hlt' ⊢
          linarith
      unfold nearest
      rw [hu, hr, f.emax_eq]
      push_cast
      linarith
    · have hi : (f.emax : ℤ) + 1 ≤ ilog2 a := by
        have := pow2_lt.1 (hge.trans_lt (ilog2_spec ha).2)
        omega
      have hu : f.ulp a = ilog2 a - f.prec + 1 := by
        unfold ulp; exact max_eq_right (by unfold low; omega)
      have hn := f.signif_normal ha (by rw [hu]; unfold low; omega)
      unfold nearest
      calc pow2 (f.emax + 1) ≤ pow2 ((f.prec - 1 : ℕ) + f.ulp a) := pow2_le (by rw [hu]; omega)
        _ = pow2 (f.prec - 1 : ℕ) * pow2 (f.ulp a) := pow2_add _ _
        _ ≤ _ := mul_le_mul_of_nonneg_right (by rw [pow2_prec]; exact_mod_cast hn) (pow2_pos _).le

/-- The nearest number is 0 exactly up to half of the least positive one. -/
theorem nearest_zero {a : ℚ} (ha : 0 < a) : f.nearest a = 0 ↔ a ≤ f.tiny := by
  have hp := f.two_le
  have hq := pow2_pos (f.ulp a)
  unfold nearest tiny
  rw [mul_eq_zero, or_iff_left hq.ne', Int.cast_eq_zero]
  constructor
  · intro h
    have hu : f.ulp a = f.low := by
      by_contra hne
      have := f.signif_normal ha (lt_of_le_of_ne (f.low_le_ulp a) (Ne.symm hne))
      rw [h] at this
      have h2 : (0 : ℤ) < 2 ^ (f.prec - 1) := by positivity
      omega
    rw [hu] at h hq
    have := abs_le.1 (roundEven_near (a / pow2 f.low))
    rw [h] at this
    have h3 : a / pow2 f.low ≤ 1 / 2 := by push_cast at this; linarith
    rw [div_le_iff₀ hq, pow2_double f.low] at h3
    linarith
  · intro h
    have hi : ilog2 a ≤ f.low - 1 := by
      have : pow2 (ilog2 a) < pow2 (f.low - 1 + 1) := by
        refine lt_of_le_of_lt ((ilog2_spec ha).1.trans h) ?_
        rw [pow2_lt]; omega
      have := pow2_lt.1 this
      omega
    have hu : f.ulp a = f.low := by unfold ulp; exact max_eq_left (by omega)
    rw [hu] at hq ⊢
    have h0 : 0 < a / pow2 f.low := div_pos ha hq
    have h1 : a / pow2 f.low ≤ 1 / 2 := by
      rw [div_le_iff₀ hq, pow2_double f.low]; linarith
    have hf : (a / pow2 f.low).floor = 0 := by
      have : ⌊a / pow2 f.low⌋ = 0 := Int.floor_eq_iff.2 ⟨by push_cast; exact h0.le, by push_cast; linarith⟩
      exact this
    unfold roundEven
    dsimp only
    rw [hf]
    rcases h1.lt_or_eq with h1 | h1
    · rw [if_pos (by push_cast; linarith)]
    · rw [if_neg (by push_cast; linarith), if_neg (by push_cast; linarith), if_pos (by norm_num)]

theorem tiny_lt_over : f.tiny < f.over := by
  have hp := f.two_le; have he := f.le_emax
  rw [over_eq]
  have h1 : f.tiny ≤ pow2 (f.top - 1) := pow2_le (by unfold low top; omega)
  have := f.big_pos
  linarith

theorem round_inf_iff {neg : Bool} {q : ℚ} {s : Bool} :
    f.round neg q = .inf s ↔ f.over ≤ |q| ∧ s = decide (q < 0) := by
  by_cases h0 : q = 0
  · subst h0
    have := f.over_pos
    simp [round, this]
  have ha : 0 < |q| := abs_pos.2 h0
  have ho := f.nearest_over ha
  have hz := f.nearest_zero ha
  have ht := f.tiny_lt_over
  unfold round
  rw [if_neg h0]
  dsimp only
  by_cases h1 : f.over ≤ |q|
  · rw [if_neg (fun h => absurd (hz.1 h) (by linarith)), if_pos (ho.2 h1)]
    constructor
    · intro h; injection h with h; exact ⟨h1, h.symm⟩
    · rintro ⟨-, rfl⟩; rfl
  · rw [if_neg (c := pow2 (f.emax + 1) ≤ _) (fun h => h1 (ho.1 h))]
    constructor
    · intro h; split at h <;> cases h
    · exact fun h => absurd h.1 h1

theorem round_zero_iff {neg : Bool} {q : ℚ} (h0 : q ≠ 0) {s : Bool} :
    f.round neg q = .zero s ↔ |q| ≤ f.tiny ∧ s = decide (q < 0) := by
  have ha : 0 < |q| := abs_pos.2 h0
  have hz := f.nearest_zero ha
  unfold round
  rw [if_neg h0]
  dsimp only
  by_cases h1 : |q| ≤ f.tiny
  · rw [if_pos (hz.2 h1)]
    constructor
    · intro h; injection h with h; exact ⟨h1, h.symm⟩
    · rintro ⟨-, rfl⟩; rfl
  · rw [if_neg (fun h => h1 (hz.1 h))]
    constructor
    · intro h; split at h <;> cases h
    · exact fun h => absurd h.1 h1

theorem round_ne_nan {neg : Bool} {q : ℚ} : f.round neg q ≠ .nan := by
  unfold round
  split
  · simp
  · dsimp only
    split
    · simp
    · split <;> simp

theorem low_rep : f.Rep (pow2 f.low) := by
  have h : (1 : ℤ) < 2 ^ f.prec := one_lt_pow₀ (by norm_num) (by have := f.two_le; omega)
  exact ⟨1, f.low, by simp, by simpa using h, le_rfl, f.low_le_top⟩

theorem low_le_rep {q : ℚ} (h : f.Rep q) (h0 : q ≠ 0) : pow2 f.low ≤ |q| := by
  obtain ⟨k, rfl⟩ := h.multiple
  have hk : k ≠ 0 := by rintro rfl; simp at h0
  rw [abs_mul, abs_of_pos (pow2_pos _)]
  have : (1 : ℚ) ≤ |(k : ℚ)| := by exact_mod_cast Int.one_le_abs hk
  exact le_mul_of_one_le_left (pow2_pos _).le this

end Fmt

namespace Fl
variable {f : Fmt}

theorem add_finite {x y : Fl f} (hx : x.Fin) (hy : y.Fin) :
    (x + y).1 = f.round false (x.rat + y.rat) ∨ (x.rat = 0 ∧ y.rat = 0 ∧ ∃ s, (x + y).1 = .zero s) := by
  obtain ⟨x, hx'⟩ := x; obtain ⟨y, hy'⟩ := y
  change x.Fin at hx; change y.Fin at hy
  show x.add f y = f.round false (x.val + y.val) ∨ (x.val = 0 ∧ y.val = 0 ∧ ∃ s, x.add f y = .zero s)
  cases x <;> cases y <;> first
    | exact hx.elim | exact hy.elim | exact Or.inl rfl | exact Or.inr ⟨rfl, rfl, _, rfl⟩

theorem mul_finite {x y : Fl f} (hx : x.Fin) (hy : y.Fin) :
    (x * y).1 = f.round false (x.rat * y.rat) ∨ (x.rat * y.rat = 0 ∧ ∃ s, (x * y).1 = .zero s) := by
  obtain ⟨x, hx'⟩ := x; obtain ⟨y, hy'⟩ := y
  change x.Fin at hx; change y.Fin at hy
  show x.mul f y = f.round false (x.val * y.val) ∨ (x.val * y.val = 0 ∧ ∃ s, x.mul f y = .zero s)
  cases x <;> cases y <;> first
    | exact hx.elim | exact hy.elim | exact Or.inl rfl | exact Or.inr ⟨by simp [Raw.val], _, rfl⟩

/-- A sum of finite numbers is infinite exactly from `over` on, with the sign of the exact sum. -/
theorem add_inf_iff {x y : Fl f} (hx : x.Fin) (hy : y.Fin) {s : Bool} :
    x + y = inf s ↔ f.over ≤ |x.rat + y.rat| ∧ s = decide (x.rat + y.rat < 0) := by
  have e : x + y = inf s ↔ (x + y).1 = .inf s := ⟨fun h => by rw [h]; rfl, fun h => ext h⟩
  rw [e]
  rcases add_finite hx hy with h | ⟨h1, h2, t, h3⟩
  · rw [h, f.round_inf_iff]
  · have := f.over_pos
    rw [h1, h2, h3]; simp [this]

theorem mul_inf_iff {x y : Fl f} (hx : x.Fin) (hy : y.Fin) {s : Bool} :
    x * y = inf s ↔ f.over ≤ |x.rat * y.rat| ∧ s = decide (x.rat * y.rat < 0) := by
  have e : x * y = inf s ↔ (x * y).1 = .inf s := ⟨fun h => by rw [h]; rfl, fun h => ext h⟩
  rw [e]
  rcases mul_finite hx hy with h | ⟨h1, t, h3⟩
  · rw [h, f.round_inf_iff]
  · have := f.over_pos
    rw [h1, h3]; simp [this]

theorem isZero_iff_raw {x : Fl f} : isZero x = true ↔ ∃ s, x.1 = .zero s := by
  rw [isZero_iff]
  constructor
  · rintro (rfl | rfl)
    · exact ⟨false, rfl⟩
    · exact ⟨true, rfl⟩
  · rintro ⟨_ | _, h⟩
    · exact Or.inl (ext h)
    · exact Or.inr (ext h)

/-- A sum is a zero only where it is exactly 0. -/
theorem add_zero_iff {x y : Fl f} (hx : x.Fin) (hy : y.Fin) : isZero (x + y) = true ↔ x.rat + y.rat = 0 := by
  rw [isZero_iff_raw]
  rcases add_finite hx hy with h | ⟨h1, h2, t, h3⟩
  · rw [h]
    constructor
    · rintro ⟨s, hs⟩
      by_contra h0
      have h1 := ((f.round_zero_iff h0).1 hs).1
      obtain ⟨k, hk⟩ := Fmt.Rep.multiple f x.rep
      obtain ⟨l, hl⟩ := Fmt.Rep.multiple f y.rep
      have hm : x.rat + y.rat = ((k + l : ℤ) : ℚ) * pow2 f.low := by rw [hk, hl]; push_cast; ring
      rw [hm] at h0 h1
      have hkl : k + l ≠ 0 := by rintro h; rw [h] at h0; simp at h0
      rw [abs_mul, abs_of_pos (pow2_pos _)] at h1
      have h2 : (1 : ℚ) ≤ |((k + l : ℤ) : ℚ)| := by exact_mod_cast Int.one_le_abs hkl
      have h3 : pow2 f.low ≤ f.tiny := (le_mul_of_one_le_left (pow2_pos _).le h2).trans h1
      unfold Fmt.tiny at h3
      rw [Fmt.pow2_double f.low] at h3
      have := pow2_pos (f.low - 1)
      linarith
    · intro h0
      exact ⟨false, by rw [h0]; simp [Fmt.round]⟩
  · exact ⟨fun _ => by rw [h1, h2]; ring, fun _ => ⟨t, h3⟩⟩

/-- A product of finite numbers is a zero exactly up to half of the least positive number. -/
theorem mul_zero_iff {x y : Fl f} (hx : x.Fin) (hy : y.Fin) : isZero (x * y) = true ↔ |x.rat * y.rat| ≤ f.tiny := by
  rw [isZero_iff_raw]
  rcases mul_finite hx hy with h | ⟨h1, t, h3⟩
  · rw [h]
    by_cases h0 : x.rat * y.rat = 0
    · rw [h0]
      exact ⟨fun _ => by simpa using f.tiny_pos.le, fun _ => ⟨false, by simp [Fmt.round]⟩⟩
    · exact ⟨fun ⟨s, hs⟩ => ((f.round_zero_iff h0).1 hs).1, fun h => ⟨_, (f.round_zero_iff h0).2 ⟨h, rfl⟩⟩⟩
  · rw [h1]
    exact ⟨fun _ => by simpa using f.tiny_pos.le, fun _ => ⟨t, h3⟩⟩

end Fl
end GB
