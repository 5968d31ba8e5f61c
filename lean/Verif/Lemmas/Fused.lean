import Verif.Model.Fused
import Verif.Lemmas.Float
import Verif.Lemmas.Mul

/-!
# Fused products
-/

namespace GB

set_option linter.unusedSectionVars false

variable {f : Fmt}

namespace Fl

theorem fma_fin {x y z : Fl f} (h : (fma x y z).Fin) : x.Fin ∧ y.Fin ∧ z.Fin ∧
    |(fma x y z).rat - (x.rat * y.rat + z.rat)| ≤ max f.tiny (f.unit * |x.rat * y.rat + z.rat|) ∧
    ∀ r, f.Rep r → |(fma x y z).rat - (x.rat * y.rat + z.rat)| ≤ |r - (x.rat * y.rat + z.rat)| := by
  -- a product that is a zero
  have zero : ∀ (s : Bool) (p q : ℚ) (u : Raw) (z : Fl f), p * q = 0 → (u = Raw.add f (.zero s) z.1) → u.Fin → z.Fin ∧
      |u.val - (p * q + z.rat)| ≤ max f.tiny (f.unit * |p * q + z.rat|) ∧
      ∀ r, f.Rep r → |u.val - (p * q + z.rat)| ≤ |r - (p * q + z.rat)| := by
    intro s p q u z hpq hu hf
    subst hu
    obtain ⟨Z, hZ⟩ : ∃ Z : Fl f, Z.1 = .zero s := ⟨⟨.zero s, trivial⟩, rfl⟩
    have hr : Z.rat = 0 := by unfold rat; rw [hZ]; rfl
    have hv : (Raw.add f (.zero s) z.1).val = (Z + z).rat := by rw [← hZ]; rfl
    have hf : (Z + z).Fin := by rw [← hZ] at hf; exact hf
    obtain ⟨-, g2, g3, g4⟩ := add_fin hf
    rw [hr] at g3 g4
    rw [hv]
    rw [hpq]
    exact ⟨g2, g3.trans (le_max_right _ _), g4⟩
  obtain ⟨x, hx⟩ := x; obtain ⟨y, hy⟩ := y
  change (x.fma f y z.1).Fin at h
  show x.Fin ∧ y.Fin ∧ z.Fin ∧ |(x.fma f y z.1).val - (x.val * y.val + z.rat)| ≤ max f.tiny (f.unit * |x.val * y.val + z.rat|) ∧
    ∀ r, f.Rep r → |(x.fma f y z.1).val - (x.val * y.val + z.rat)| ≤ |r - (x.val * y.val + z.rat)|
  have noinf : ∀ s, ¬ (Raw.add f (.inf s) z.1).Fin := by
    intro s
    cases z.1 with
    | inf t => show ¬ Raw.Fin (if s = t then .inf s else .nan); split <;> exact id
    | _ => exact id
  cases x <;> cases y <;> first
    | exact h.elim
    | exact absurd h (noinf _)
    | exact ⟨trivial, trivial, zero _ _ _ _ z (by simp [Raw.val]) rfl h⟩
    | skip
  obtain ⟨z, hz⟩ := z
  cases z <;> first
    | exact h.elim
    | exact ⟨trivial, trivial, trivial, f.round_err h, fun r hr => f.round_spec h hr⟩

theorem fin_fma {x y z : Fl f} (hx : x.Fin) (hy : y.Fin) (hz : z.Fin) (h : |x.rat * y.rat + z.rat| ≤ f.big) :
    (fma x y z).Fin := by
  obtain ⟨x, hx'⟩ := x; obtain ⟨y, hy'⟩ := y; obtain ⟨z, hz'⟩ := z
  change x.Fin at hx; change y.Fin at hy; change z.Fin at hz
  show (x.fma f y z).Fin
  change |x.val * y.val + z.val| ≤ f.big at h
  cases x <;> cases y <;> cases z <;> first
    | exact hx.elim | exact hy.elim | exact hz.elim | trivial
    | exact f.round_fin h
    | (refine f.round_fin ?_; simpa [Raw.val] using h)

theorem fma_nearest {x y z : Fl f} (hx : x.Fin) (hy : y.Fin) (hz : z.Fin) (h : |x.rat * y.rat + z.rat| ≤ f.big) :
    (fma x y z).Nearest (x.rat * y.rat + z.rat) :=
  ⟨fin_fma hx hy hz h, fun u _ => (fma_fin (fin_fma hx hy hz h)).2.2.2.2 _ u.rep⟩

theorem fma_exact {x y z : Fl f} (hx : x.Fin) (hy : y.Fin) (hz : z.Fin) (h : f.Rep (x.rat * y.rat + z.rat)) :
    (fma x y z).Fin ∧ (fma x y z).rat = x.rat * y.rat + z.rat := by
  have hf := fin_fma hx hy hz (rep_le_big h)
  have := (fma_fin hf).2.2.2.2 _ h
  rw [sub_self, abs_zero] at this
  exact ⟨hf, sub_eq_zero.1 (abs_nonpos_iff.1 this)⟩

/-- What both kinds of step have in common: the product is as good as rounded to `p`, and the sum with `p` is rounded without underflow. -/
theorem step_fin {fuse : Bool} {s a b : Fl f} (h : (step fuse s a b).Fin) : s.Fin ∧ a.Fin ∧ b.Fin ∧
    ∃ p, |p - a.rat * b.rat| ≤ f.tiny + f.unit * |a.rat * b.rat| ∧
      |(step fuse s a b).rat - (s.rat + p)| ≤ f.unit * |s.rat + p| ∧
      (s = 0 → (step fuse s a b).rat = p) := by
  have hu := f.unit_pos
  have ht := f.tiny_pos
  cases fuse with
  | false =>
    change (s + a * b).Fin at h
    show _ ∧ _ ∧ _ ∧ ∃ p, _ ∧ |(s + a * b).rat - _| ≤ _ ∧ (_ → (s + a * b).rat = _)
    obtain ⟨f1, f2, e1, -⟩ := add_fin h
    obtain ⟨fa, fb, e2, -⟩ := mul_fin f2
    refine ⟨f1, fa, fb, (a * b).rat, e2.trans (max_le ?_ ?_), e1, ?_⟩
    · exact le_add_of_nonneg_right (mul_nonneg hu.le (abs_nonneg _))
    · exact le_add_of_nonneg_left ht.le
    · rintro rfl; exact (zero_add_rat _).1
  | true =>
    change (fma a b s).Fin at h
    show _ ∧ _ ∧ _ ∧ ∃ p, _ ∧ |(fma a b s).rat - _| ≤ _ ∧ (_ → (fma a b s).rat = _)
    obtain ⟨fa, fb, fs, e, -⟩ := fma_fin h
    refine ⟨fs, fa, fb, ?_⟩
    have hab := abs_nonneg (a.rat * b.rat)
    by_cases hs : s = 0
    · subst hs
      refine ⟨(fma a b 0).rat, ?_, ?_, fun _ => rfl⟩
      · rw [zero_rat, add_zero] at e
        exact e.trans (max_le (le_add_of_nonneg_right (mul_nonneg hu.le hab)) (le_add_of_nonneg_left ht.le))
      · rw [zero_rat]; simp [mul_nonneg hu.le (abs_nonneg _)]
    · rcases le_max_iff.1 e with e | e
      · refine ⟨(fma a b s).rat - s.rat, ?_, ?_, fun h => absurd h hs⟩
        · have : (fma a b s).rat - s.rat - a.rat * b.rat = (fma a b s).rat - (a.rat * b.rat + s.rat) := by ring
          rw [this]
          exact e.trans (le_add_of_nonneg_right (mul_nonneg hu.le hab))
        · simp [mul_nonneg hu.le (abs_nonneg _)]
      · refine ⟨a.rat * b.rat, ?_, ?_, fun h => absurd h hs⟩
        · rw [sub_self, abs_zero]; exact add_nonneg ht.le (mul_nonneg hu.le hab)
        · rw [_root_.add_comm s.rat]; exact e

/-- A step does not overflow if it would not with the product rounded first. -/
theorem fin_step {fuse : Bool} {s a b : Fl f} (hs : s.Fin) (ha : a.Fin) (hb : b.Fin)
    (h1 : |a.rat * b.rat| ≤ f.big)
    (h : |s.rat| + |a.rat * b.rat| + (f.tiny + f.unit * |a.rat * b.rat|) ≤ f.big) : (step fuse s a b).Fin := by
  have hu := f.unit_pos
  have ht := f.tiny_pos
  have hab := abs_nonneg (a.rat * b.rat)
  cases fuse with
  | false =>
    show (s + a * b).Fin
    have f2 := fin_mul ha hb h1
    obtain ⟨-, -, e2, -⟩ := mul_fin f2
    have e2' := e2.trans (max_le (le_add_of_nonneg_right (mul_nonneg hu.le hab)) (le_add_of_nonneg_left ht.le))
    refine fin_add hs f2 (le_trans ?_ h)
    have : s.rat + (a * b).rat = s.rat + a.rat * b.rat + ((a * b).rat - a.rat * b.rat) := by ring
    rw [this]
    have := abs_add_le (s.rat + a.rat * b.rat) ((a * b).rat - a.rat * b.rat)
    have := abs_add_le s.rat (a.rat * b.rat)
    linarith
  | true =>
    show (fma a b s).Fin
    refine fin_fma ha hb hs (le_trans ?_ h)
    have := abs_add_le (a.rat * b.rat) s.rat
    have := mul_nonneg hu.le hab
    linarith

open Finset in
/-- The inner product, however its steps are fused, when it stays finite. -/
theorem dotBy_err (fuse : Nat → Bool) (a b : Nat → Fl f) (n : Nat) (h : (dotSumBy (fun l => step (fuse l)) n a b).Fin) :
    (∀ l < n, (a l).Fin ∧ (b l).Fin) ∧
    |(dotSumBy (fun l => step (fuse l)) n a b).rat - ∑ l ∈ range n, (a l).rat * (b l).rat| ≤
      ((1 + f.unit) ^ n - 1) * ∑ l ∈ range n, |(a l).rat * (b l).rat| + n * (1 + f.unit) ^ n * f.tiny := by
  have hu := f.unit_pos
  have ht := f.tiny_pos
  induction n with
  | zero =>
    refine ⟨fun l hl => absurd hl (by omega), ?_⟩
    show |(0 : Fl f).rat - _| ≤ _
    simp [zero_rat]
  | succ n ih =>
    rw [Ops.dotBy_succ] at h ⊢
    obtain ⟨f1, fa, fb, p, e2', e1, e0⟩ := step_fin h
    obtain ⟨ih1, ih2⟩ := ih f1
    refine ⟨fun l hl => ?_, ?_⟩
    · rcases Nat.lt_succ_iff_lt_or_eq.1 hl with hl | rfl
      · exact ih1 l hl
      · exact ⟨fa, fb⟩
    rw [sum_range_succ, sum_range_succ]
    generalize hr : (step (fuse n) (dotSumBy (fun l => step (fuse l)) n a b) (a n) (b n)).rat = r at *
    generalize hS : ∑ l ∈ range n, (a l).rat * (b l).rat = S at *
    generalize hP : ∑ l ∈ range n, |(a l).rat * (b l).rat| = P at *
    generalize hc : (a n).rat * (b n).rat = c at *
    have hSP : |S| ≤ P := by rw [← hS, ← hP]; exact abs_sum_le_sum_abs _ _
    have hP0 : 0 ≤ P := le_trans (abs_nonneg _) hSP
    have hc0 := abs_nonneg c
    set g := 1 + f.unit with hg
    have hg1 : 1 ≤ g := by rw [hg]; linarith
    rcases Nat.eq_zero_or_pos n with rfl | hn
    · -- the first product is added to 0
      have hS0 : S = 0 := by rw [← hS]; simp
      have hP0 : P = 0 := by rw [← hP]; simp
      rw [e0 rfl, hS0, hP0]
      simp only [zero_add, pow_one, Nat.cast_one, one_mul]
      have : g - 1 = f.unit := by rw [hg]; ring
      rw [this]
      nlinarith
    · generalize hs : (dotSumBy (fun l => step (fuse l)) n a b).rat = s at *
      have d1 : |s + p - (S + c)| ≤ |s - S| + |p - c| := by
        have : s + p - (S + c) = (s - S) + (p - c) := by ring
        rw [this]; exact abs_add_le _ _
      have d2 : |s + p| ≤ |S| + |c| + |s + p - (S + c)| := by
        have : s + p = (S + c) + (s + p - (S + c)) := by ring
        calc |s + p| = |(S + c) + (s + p - (S + c))| := by rw [← this]
          _ ≤ |S + c| + |s + p - (S + c)| := abs_add_le _ _
          _ ≤ _ := by have := abs_add_le S c; linarith
      have d3 : |r - (S + c)| ≤ |r - (s + p)| + |s + p - (S + c)| := abs_sub_le _ _ _
      have hgn : g ≤ g ^ n := by
        calc g = g ^ 1 := (pow_one g).symm
          _ ≤ g ^ n := pow_le_pow_right₀ hg1 hn
      have hgn1 : g ^ (n + 1) = g * g ^ n := by rw [pow_succ]; ring
      have D : |s + p - (S + c)| ≤ (g ^ n - 1) * P + n * g ^ n * f.tiny + (f.tiny + f.unit * |c|) := by linarith
      have E : |r - (S + c)| ≤
          f.unit * (P + |c|) + g * ((g ^ n - 1) * P + n * g ^ n * f.tiny + (f.tiny + f.unit * |c|)) := by
        have m1 : f.unit * |s + p| ≤ f.unit * (P + |c| + |s + p - (S + c)|) :=
          mul_le_mul_of_nonneg_left (by linarith) hu.le
        have m2 : g * |s + p - (S + c)| ≤ g * ((g ^ n - 1) * P + n * g ^ n * f.tiny + (f.tiny + f.unit * |c|)) :=
          mul_le_mul_of_nonneg_left D (by linarith)
        have m3 : g * |s + p - (S + c)| = |s + p - (S + c)| + f.unit * |s + p - (S + c)| := by rw [hg]; ring
        linarith
      refine E.trans ?_
      push_cast
      rw [hgn1]
      have hug : f.unit = g - 1 := by rw [hg]; ring
      rw [hug]
      have c1 : 0 ≤ (g * g ^ n - g * g) * |c| := mul_nonneg (by nlinarith) hc0
      have c2 : 0 ≤ (g * g ^ n - g) * f.tiny := mul_nonneg (by nlinarith) ht.le
      nlinarith

open Finset in
/-- It does stay finite if the exact products are not too large. -/
theorem dotBy_fin (fuse : Nat → Bool) (a b : Nat → Fl f) (n : Nat) (hf : ∀ l < n, (a l).Fin ∧ (b l).Fin)
    (h : (1 + f.unit) ^ n * ∑ l ∈ range n, |(a l).rat * (b l).rat| + n * (1 + f.unit) ^ n * f.tiny ≤ f.big) :
    (dotSumBy (fun l => step (fuse l)) n a b).Fin := by
  have hu := f.unit_pos
  have ht := f.tiny_pos
  induction n with
  | zero => exact zero_fin
  | succ n ih =>
    rw [sum_range_succ] at h
    have hP0 : 0 ≤ ∑ l ∈ range n, |(a l).rat * (b l).rat| := sum_nonneg fun _ _ => abs_nonneg _
    set g := 1 + f.unit with hg
    have hg1 : 1 ≤ g := by rw [hg]; linarith
    have hgn : 1 ≤ g ^ n := one_le_pow₀ hg1
    have hgn1 : g ^ (n + 1) = g * g ^ n := by rw [pow_succ]; ring
    have hc0 := abs_nonneg ((a n).rat * (b n).rat)
    have hle : g ^ n ≤ g ^ (n + 1) := by rw [hgn1]; nlinarith
    have hn0 : (0 : ℚ) ≤ n := Nat.cast_nonneg n
    push_cast at h
    have f1 : (dotSumBy (fun l => step (fuse l)) n a b).Fin := by
      refine ih (fun l hl => hf l (by omega)) (le_trans ?_ h)
      have k1 : g ^ n * ∑ l ∈ range n, |(a l).rat * (b l).rat| ≤
          g ^ (n + 1) * (∑ l ∈ range n, |(a l).rat * (b l).rat| + |(a n).rat * (b n).rat|) :=
        mul_le_mul hle (by linarith) hP0 (by linarith)
      have k2 : (n : ℚ) * g ^ n * f.tiny ≤ (n + 1) * g ^ (n + 1) * f.tiny :=
        mul_le_mul_of_nonneg_right (mul_le_mul (by linarith) hle (by linarith) (by linarith)) ht.le
      linarith
    have hnt : 0 ≤ ((n : ℚ) + 1) * g ^ (n + 1) * f.tiny :=
      mul_nonneg (mul_nonneg (by linarith) (by linarith)) ht.le
    obtain ⟨fa, fb⟩ := hf n (by omega)
    rw [Ops.dotBy_succ]
    refine fin_step f1 fa fb (le_trans ?_ h) (le_trans ?_ h)
    · have : |(a n).rat * (b n).rat| ≤
          g ^ (n + 1) * (∑ l ∈ range n, |(a l).rat * (b l).rat| + |(a n).rat * (b n).rat|) := by
        have := mul_le_mul (a := 1) (b := g ^ (n + 1)) (by linarith)
          (by linarith : |(a n).rat * (b n).rat| ≤ ∑ l ∈ range n, |(a l).rat * (b l).rat| + |(a n).rat * (b n).rat|)
          hc0 (by linarith)
        linarith
      linarith
    · obtain ⟨-, e1⟩ := dotBy_err fuse a b n f1
      rw [← hg] at e1
      generalize hS : ∑ l ∈ range n, (a l).rat * (b l).rat = S at *
      generalize hP : ∑ l ∈ range n, |(a l).rat * (b l).rat| = P at *
      have hSP : |S| ≤ P := by rw [← hS, ← hP]; exact abs_sum_le_sum_abs _ _
      generalize hc : (a n).rat * (b n).rat = c at *
      generalize hs : (dotSumBy (fun l => step (fuse l)) n a b).rat = s at *
      have d : |s| ≤ |s - S| + |S| := by
        have : s = (s - S) + S := by ring
        calc |s| = |(s - S) + S| := by rw [← this]
          _ ≤ _ := abs_add_le _ _
      have hug : f.unit = g - 1 := by rw [hg]; ring
      rw [hug]
      have k1 : 0 ≤ (g ^ (n + 1) - g ^ n) * P := mul_nonneg (by linarith) hP0
      have k2 : 0 ≤ (g ^ (n + 1) - g) * |c| := mul_nonneg (by rw [hgn1]; nlinarith) hc0
      have k3 : 0 ≤ (((n : ℚ) + 1) * g ^ (n + 1) - (n * g ^ n + 1)) * f.tiny := by
        refine mul_nonneg ?_ ht.le
        have : (n : ℚ) * g ^ n ≤ n * g ^ (n + 1) := mul_le_mul_of_nonneg_left hle hn0
        nlinarith
      nlinarith

open Finset in
/-- Inner products of integers are exact, fused or not, as long as `Σ|aᵢ||bᵢ| ≤ 2^prec`. -/
theorem dotBy_int (fuse : Nat → Bool) (a b : Nat → Fl f) (n : Nat) (A B : Nat → ℤ)
    (ha : ∀ l < n, (a l).Fin ∧ (a l).rat = A l) (hb : ∀ l < n, (b l).Fin ∧ (b l).rat = B l)
    (h : ∑ l ∈ range n, |A l * B l| ≤ 2 ^ f.prec) :
    (dotSumBy (fun l => step (fuse l)) n a b).Fin ∧
      (dotSumBy (fun l => step (fuse l)) n a b).rat = ((∑ l ∈ range n, A l * B l : ℤ) : ℚ) := by
  induction n with
  | zero => exact ⟨zero_fin, by simp [dotSumBy, zero_rat]⟩
  | succ n ih =>
    have hfull : |∑ l ∈ range (n + 1), A l * B l| ≤ 2 ^ f.prec := (abs_sum_le_sum_abs _ _).trans h
    rw [sum_range_succ] at h hfull
    have hnn : 0 ≤ ∑ l ∈ range n, |A l * B l| := sum_nonneg fun _ _ => abs_nonneg _
    have hab := abs_nonneg (A n * B n)
    obtain ⟨i1, i2⟩ := ih (fun l hl => ha l (by omega)) (fun l hl => hb l (by omega)) (by omega)
    obtain ⟨fa, ea⟩ := ha n (by omega)
    obtain ⟨fb, eb⟩ := hb n (by omega)
    rw [Ops.dotBy_succ]
    cases hfu : fuse n with
    | false =>
      obtain ⟨m1, m2⟩ := mul_exact fa fb (by
        rw [ea, eb, ← Int.cast_mul]; exact rep_int (by omega))
      obtain ⟨s1, s2⟩ := add_exact i1 m1 (by
        rw [i2, m2, ea, eb, ← Int.cast_mul, ← Int.cast_add]; exact rep_int hfull)
      refine ⟨s1, ?_⟩
      refine s2.trans ?_
      rw [i2, m2, ea, eb, sum_range_succ]; push_cast; rfl
    | true =>
      obtain ⟨s1, s2⟩ := fma_exact fa fb i1 (by
        rw [i2, ea, eb, ← Int.cast_mul, ← Int.cast_add]; exact rep_int (by rwa [_root_.add_comm]))
      refine ⟨s1, ?_⟩
      refine s2.trans ?_
      rw [i2, ea, eb, sum_range_succ]; push_cast; ring

/-- The first step: fused or not, the result is the same but for the sign of a product that underflows. -/
theorem fma_zero (a b : Fl f) : fma a b 0 = 0 + a * b ∨ (fma a b 0 = negZero ∧ 0 + a * b = 0) := by
  obtain ⟨a, ha⟩ := a; obtain ⟨b, hb⟩ := b
  have hz : ∀ s, Raw.add f (.zero s) (.zero false) = .zero false := fun s => by simp [Raw.add]
  have key : a.fma f b (.zero false) = Raw.add f (.zero false) (a.mul f b) ∨
      (a.fma f b (.zero false) = .zero true ∧ Raw.add f (.zero false) (a.mul f b) = .zero false) := by
    cases a <;> cases b <;> first
      | exact Or.inl rfl
      | (refine Or.inl ?_; simp [Raw.fma, Raw.mul, Raw.add]; done)
      | skip
    rename_i p q
    show f.round false (p * q + 0) = Raw.add f (.zero false) (f.round false (p * q)) ∨ _
    have hok := f.round_ok false (p * q)
    simp only [Raw.fma, Raw.mul, Raw.val, add_zero]
    cases hr : f.round false (p * q) with
    | nan => exact Or.inl rfl
    | inf s => exact Or.inl rfl
    | zero s => cases s <;> simp [Raw.add]
    | num v =>
      rw [hr] at hok
      refine Or.inl ?_
      show Raw.num v = f.round false (0 + v)
      rw [zero_add, f.round_rep hok.1 hok.2]
  rcases key with h | ⟨h1, h2⟩
  · exact Or.inl (Subtype.ext h)
  · exact Or.inr ⟨Subtype.ext h1, Subtype.ext h2⟩

theorem round_neg {q : ℚ} (h : q ≠ 0) : f.round false (-q) = (f.round false q).neg := by
  unfold Fmt.round
  rw [if_neg (neg_ne_zero.2 h), if_neg h, abs_neg]
  have hs : decide (-q < 0) = !decide (q < 0) := by
    rcases lt_or_gt_of_ne h with h | h
    · rw [decide_eq_true h, decide_eq_false (by linarith)]; rfl
    · rw [decide_eq_false (not_lt.2 h.le), decide_eq_true (by linarith)]; rfl
  have hs' : (-q < 0) ↔ ¬ (q < 0) := by
    constructor
    · intro h; linarith
    · intro h'; have := lt_of_le_of_ne (not_lt.1 h') (Ne.symm h); linarith
  dsimp only
  split
  · simp only [hs]; rfl
  · split
    · simp only [hs]; rfl
    · by_cases hq : q < 0
      · rw [if_neg (by rw [hs']; exact not_not.2 hq), if_pos hq]
        show Raw.num _ = Raw.num _
        rw [neg_neg]
      · rw [if_pos (hs'.2 hq), if_neg hq]; rfl

theorem raw_sign_neg {x : Raw} (hx : x.Ok f) (h : x ≠ .nan) : x.neg.sign = !x.sign := by
  cases x with
  | nan => exact absurd rfl h
  | inf s => rfl
  | zero s => rfl
  | num q =>
    show decide (-q < 0) = !decide (q < 0)
    rcases lt_or_gt_of_ne hx.1 with h | h
    · rw [decide_eq_true h, decide_eq_false (by linarith)]; rfl
    · rw [decide_eq_false (not_lt.2 h.le), decide_eq_true (by linarith)]; rfl

theorem mul_neg' (x y : Fl f) : x * -y = -(x * y) := by
  obtain ⟨x, hx⟩ := x; obtain ⟨y, hy⟩ := y
  refine Subtype.ext ?_
  show x.mul f y.neg = (x.mul f y).neg
  have hs := raw_sign_neg hy
  cases x <;> cases y <;> first
    | rfl
    | (refine congrArg Raw.zero (?_ : (_ ^^ Raw.sign (Raw.neg _)) = !(_ ^^ Raw.sign _)); rw [hs (by simp), Bool.xor_not])
    | (refine congrArg Raw.inf (?_ : (_ ^^ Raw.sign (Raw.neg _)) = !(_ ^^ Raw.sign _)); rw [hs (by simp), Bool.xor_not])
    | exact congrArg Raw.inf (Bool.xor_not _ _)
    | exact congrArg Raw.zero (Bool.xor_not _ _)
    | skip
  rename_i p q
  show f.round false (p * -q) = (f.round false (p * q)).neg
  rw [mul_neg, round_neg (mul_ne_zero hx.1 hy.1)]

/-- `a*b + b*(-a)`, nothing fused. -/
theorem perp {a b : Fl f} (h : (a * b).Fin) : (0 + a * b) + b * -a = 0 := by
  rw [mul_neg', mul_comm' b a]
  generalize a * b = p at h
  obtain ⟨p, hp⟩ := p
  change p.Fin at h
  refine Subtype.ext ?_
  show Raw.add f (Raw.add f (.zero false) p) p.neg = .zero false
  cases p with
  | nan => exact h.elim
  | inf s => exact h.elim
  | zero s => rfl
  | num q =>
    show Raw.add f (f.round false (0 + q)) (.num (-q)) = _
    rw [zero_add, f.round_rep hp.1 hp.2]
    show f.round false (q + -q) = _
    rw [add_neg_cancel]; exact if_pos rfl

end Fl

end GB
