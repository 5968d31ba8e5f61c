import Verif.Model.Basic
import Mathlib.Data.Rat.Floor
import Mathlib.Tactic.FieldSimp
import Mathlib.Tactic.Positivity
import Mathlib.Tactic.NormNum
import Mathlib.Tactic.Linarith
import Mathlib.Tactic.Ring

/-!
# Floating-point numbers

`float32` and `float64` of the Go language specification ("the set of all IEEE 754 32-bit / 64-bit
floating-point numbers"), with `+ - * /`, `==` and `<` as IEEE 754 prescribes them: the exact
result, rounded to nearest, ties to even. They are element types of the library through
constraints/number.go:7-10.

Simplifications: there is one NaN (payloads cannot be told apart by the library). Every operation is
rounded on its own; the language allows an implementation to fuse `x*y + z`, which the Go
compiler does on some architectures (`Model/Fused.lean`, C87).
-/

namespace GB

/-- A binary interchange format: bits of the significand, greatest exponent, the name reflection prints. -/
structure Fmt where
  prec : Nat
  emax : Nat
  name : String
  two_le : 2 ≤ prec
  le_emax : prec ≤ emax
  deriving DecidableEq

/-- IEEE 754 binary64. -/
def binary64 : Fmt := ⟨53, 1023, "float64", by decide, by decide⟩
/-- IEEE 754 binary32. -/
def binary32 : Fmt := ⟨24, 127, "float32", by decide, by decide⟩

/-- `2^e`, in a form the kernel computes quickly. -/
def pow2 : ℤ → ℚ
  | .ofNat n => ((2 ^ n : ℕ) : ℚ)
  | .negSucc n => mkRat 1 (2 ^ (n + 1))

namespace Fmt

/-- The exponent of the least positive number: every number is a multiple of `2^low`. -/
def low (f : Fmt) : ℤ := 2 - f.emax - f.prec
/-- The greatest exponent of the last place. -/
def top (f : Fmt) : ℤ := f.emax - f.prec + 1

/-- The finite numbers of the format. -/
def Rep (f : Fmt) (q : ℚ) : Prop :=
  ∃ m e : ℤ, q = m * pow2 e ∧ |m| < 2 ^ f.prec ∧ f.low ≤ e ∧ e ≤ f.top

end Fmt

/-- Floating-point data: NaN, infinities and zeros with their signs, finite non-zero numbers. -/
inductive Raw where
  | nan
  | inf (neg : Bool)
  | zero (neg : Bool)
  | num (q : ℚ)
  deriving DecidableEq

/-- The datum belongs to the format. -/
def Raw.Ok (f : Fmt) : Raw → Prop
  | .num q => q ≠ 0 ∧ f.Rep q
  | _ => True

/-- The floating-point type of the format. -/
def Fl (f : Fmt) : Type := { x : Raw // x.Ok f }

instance (f : Fmt) : DecidableEq (Fl f) := inferInstanceAs (DecidableEq { x : Raw // x.Ok f })

abbrev F64 := Fl binary64
abbrev F32 := Fl binary32

/-- `⌊log₂ a⌋` for positive `a`. -/
def ilog2 (a : ℚ) : ℤ :=
  let k : ℤ := (Nat.log2 a.num.natAbs : ℤ) - (Nat.log2 a.den : ℤ)
  if pow2 k ≤ a then k else k - 1

/-- The nearest integer; of two equally near ones the even one. -/
def roundEven (a : ℚ) : ℤ :=
  let f := a.floor
  if a - f < 1 / 2 then f else if 1 / 2 < a - f then f + 1 else if f % 2 = 0 then f else f + 1

namespace Fmt

/-- The exponent of the last place of the result nearest to `a > 0`. -/
def ulp (f : Fmt) (a : ℚ) : ℤ := max f.low (ilog2 a - f.prec + 1)

/-- `a > 0` rounded to a multiple of its last place. -/
def nearest (f : Fmt) (a : ℚ) : ℚ := roundEven (a / pow2 (f.ulp a)) * pow2 (f.ulp a)

/-- Round to nearest, ties to even; beyond the greatest finite number to infinity. `neg` is the sign of an
exact zero. -/
def round (f : Fmt) (neg : Bool) (q : ℚ) : Raw :=
  if q = 0 then .zero neg
  else
    let v := f.nearest |q|
    if v = 0 then .zero (q < 0)
    else if pow2 (f.emax + 1) ≤ v then .inf (q < 0)
    else .num (if q < 0 then -v else v)

end Fmt

/-! ## Facts needed to see that rounding stays in the format -/

theorem pow2_eq (e : ℤ) : pow2 e = (2 : ℚ) ^ e := by
  cases e with
  | ofNat n => simp [pow2]
  | negSucc n =>
    show mkRat 1 (2 ^ (n + 1)) = _
    rw [zpow_negSucc, Rat.mkRat_eq_div]
    simp

theorem pow2_pos (e : ℤ) : 0 < pow2 e := by rw [pow2_eq]; exact zpow_pos (by norm_num) e
theorem pow2_ne (e : ℤ) : pow2 e ≠ 0 := (pow2_pos e).ne'
theorem pow2_add (a b : ℤ) : pow2 (a + b) = pow2 a * pow2 b := by
  rw [pow2_eq, pow2_eq, pow2_eq, zpow_add₀ (by norm_num)]
theorem pow2_natCast (n : Nat) : pow2 n = ((2 ^ n : ℕ) : ℚ) := by rw [pow2_eq]; simp
theorem pow2_le {a b : ℤ} (h : a ≤ b) : pow2 a ≤ pow2 b := by
  rw [pow2_eq, pow2_eq]; exact zpow_le_zpow_right₀ (by norm_num) h
theorem pow2_lt {a b : ℤ} : pow2 a < pow2 b ↔ a < b := by
  rw [pow2_eq, pow2_eq]; exact zpow_lt_zpow_iff_right₀ (by norm_num)

theorem ilog2_spec {a : ℚ} (ha : 0 < a) : pow2 (ilog2 a) ≤ a ∧ a < pow2 (ilog2 a + 1) := by
  have hn : a.num.natAbs ≠ 0 := by
    rw [Int.natAbs_ne_zero]; exact (Rat.num_pos.2 ha).ne'
  have hd : a.den ≠ 0 := a.den_nz
  have e : a = (a.num.natAbs : ℚ) / (a.den : ℚ) := by
    conv_lhs => rw [← Rat.num_div_den a]
    congr 1
    have : (a.num.natAbs : ℤ) = a.num := Int.natAbs_of_nonneg (Rat.num_pos.2 ha).le
    rw [← Int.cast_natCast, this]
  have n1 : pow2 (Nat.log2 a.num.natAbs) ≤ (a.num.natAbs : ℚ) := by
    rw [pow2_natCast]; exact_mod_cast Nat.log2_self_le hn
  have n2 : (a.num.natAbs : ℚ) < pow2 (Nat.log2 a.num.natAbs + 1 : ℤ) := by
    have := @Nat.lt_log2_self a.num.natAbs
    rw [show ((Nat.log2 a.num.natAbs : ℤ) + 1) = ((Nat.log2 a.num.natAbs + 1 : ℕ) : ℤ) by push_cast; ring, pow2_natCast]
    exact_mod_cast this
  have d1 : pow2 (Nat.log2 a.den) ≤ (a.den : ℚ) := by
    rw [pow2_natCast]; exact_mod_cast Nat.log2_self_le hd
  have d2 : (a.den : ℚ) < pow2 (Nat.log2 a.den + 1 : ℤ) := by
    have := @Nat.lt_log2_self a.den
    rw [show ((Nat.log2 a.den : ℤ) + 1) = ((Nat.log2 a.den + 1 : ℕ) : ℤ) by push_cast; ring, pow2_natCast]
    exact_mod_cast this
  have hdp : (0 : ℚ) < a.den := by exact_mod_cast Nat.pos_of_ne_zero hd
  unfold ilog2
  dsimp only
  generalize hk : (Nat.log2 a.num.natAbs : ℤ) - (Nat.log2 a.den : ℤ) = k
  have up : a < pow2 (k + 1) := by
    rw [e, div_lt_iff₀ hdp]
    calc (a.num.natAbs : ℚ) < pow2 (Nat.log2 a.num.natAbs + 1 : ℤ) := n2
      _ = pow2 (k + 1) * pow2 (Nat.log2 a.den) := by rw [← pow2_add]; congr 1; omega
      _ ≤ pow2 (k + 1) * a.den := mul_le_mul_of_nonneg_left d1 (pow2_pos _).le
  have lo : pow2 (k - 1) ≤ a := by
    rw [e, le_div_iff₀ hdp]
    calc pow2 (k - 1) * a.den ≤ pow2 (k - 1) * pow2 (Nat.log2 a.den + 1 : ℤ) :=
          mul_le_mul_of_nonneg_left d2.le (pow2_pos _).le
      _ = pow2 (Nat.log2 a.num.natAbs) := by rw [← pow2_add]; congr 1; omega
      _ ≤ a.num.natAbs := n1
  split
  · rename_i h; exact ⟨h, up⟩
  · rename_i h; exact ⟨lo, by simpa using not_le.1 h⟩

theorem roundEven_near (a : ℚ) : |(roundEven a : ℚ) - a| ≤ 1 / 2 := by
  have h1 : ((a.floor : ℤ) : ℚ) ≤ a := Int.floor_le a
  have h2 : a < (a.floor : ℤ) + 1 := Int.lt_floor_add_one a
  unfold roundEven
  dsimp only
  split
  · rename_i h; rw [abs_le]; constructor <;> linarith
  · rename_i h
    split
    · rename_i h'; push_cast; rw [abs_le]; constructor <;> linarith
    · rename_i h'
      split
      · rw [abs_le]; constructor <;> linarith
      · push_cast; rw [abs_le]; constructor <;> linarith

theorem le_roundEven {a : ℚ} {k : ℤ} (h : (k : ℚ) ≤ a) : k ≤ roundEven a := by
  have := abs_le.1 (roundEven_near a)
  have h1 : ((k - 1 : ℤ) : ℚ) < roundEven a := by push_cast; linarith
  have h2 : k - 1 < roundEven a := by exact_mod_cast h1
  omega

theorem roundEven_le {a : ℚ} {k : ℤ} (h : a ≤ k) : roundEven a ≤ k := by
  have := abs_le.1 (roundEven_near a)
  have h1 : (roundEven a : ℚ) < ((k + 1 : ℤ) : ℚ) := by push_cast; linarith
  have h2 : roundEven a < k + 1 := by exact_mod_cast h1
  omega

theorem pow2_prec (n : Nat) : pow2 n = ((2 ^ n : ℤ) : ℚ) := by rw [pow2_eq]; push_cast; simp

namespace Fmt

variable (f : Fmt)

theorem low_le_top : f.low ≤ f.top := by have := f.two_le; have := f.le_emax; unfold low top; omega

/-- The significand of the rounded number. -/
theorem signif_bounds {a : ℚ} (ha : 0 < a) :
    0 ≤ roundEven (a / pow2 (f.ulp a)) ∧ roundEven (a / pow2 (f.ulp a)) ≤ 2 ^ f.prec := by
  have hp := pow2_pos (f.ulp a)
  refine ⟨le_roundEven (by simpa using (div_pos ha hp).le), roundEven_le ?_⟩
  rw [← pow2_prec, div_le_iff₀ hp, ← pow2_add]
  refine (ilog2_spec ha).2.le.trans (pow2_le ?_)
  unfold ulp
  have := le_max_right f.low (ilog2 a - f.prec + 1)
  omega

theorem signif_normal {a : ℚ} (ha : 0 < a) (hn : f.low < f.ulp a) :
    2 ^ (f.prec - 1) ≤ roundEven (a / pow2 (f.ulp a)) := by
  have hp := pow2_pos (f.ulp a)
  apply le_roundEven
  rw [← pow2_prec, le_div_iff₀ hp, ← pow2_add]
  refine le_trans (pow2_le ?_) (ilog2_spec ha).1
  have h2 := f.two_le
  have : f.ulp a = ilog2 a - f.prec + 1 := by
    unfold ulp at hn ⊢
    rcases max_choice f.low (ilog2 a - f.prec + 1) with h | h
    · rw [h] at hn; omega
    · exact h
  omega

theorem low_le_ulp (a : ℚ) : f.low ≤ f.ulp a := le_max_left _ _

theorem nearest_nonneg {a : ℚ} (ha : 0 < a) : 0 ≤ f.nearest a :=
  mul_nonneg (by exact_mod_cast (f.signif_bounds ha).1) (pow2_pos _).le

theorem nearest_rep {a : ℚ} (ha : 0 < a) (h : f.nearest a < pow2 (f.emax + 1)) : f.Rep (f.nearest a) := by
  obtain ⟨h0, h1⟩ := f.signif_bounds ha
  have h2 := f.two_le
  have hle := f.low_le_ulp a
  unfold nearest at h
  rcases h1.lt_or_eq with h1 | h1
  · refine ⟨_, f.ulp a, rfl, by rwa [abs_of_nonneg h0], hle, ?_⟩
    rcases hle.lt_or_eq with hl | hl
    · have hn := f.signif_normal ha hl
      have : pow2 ((f.prec - 1 : ℕ) + f.ulp a) < pow2 (f.emax + 1) := by
        refine lt_of_le_of_lt ?_ h
        rw [pow2_add]
        refine mul_le_mul_of_nonneg_right ?_ (pow2_pos _).le
        rw [pow2_prec]
        exact_mod_cast hn
      rw [pow2_lt] at this
      unfold top
      omega
    · rw [← hl]; exact f.low_le_top
  · have hlt : f.prec + f.ulp a < f.emax + 1 := by
      rw [h1, ← pow2_prec, ← pow2_add, pow2_lt] at h
      exact h
    refine ⟨2 ^ (f.prec - 1), f.ulp a + 1, ?_, ?_, by omega, by unfold top; omega⟩
    · unfold nearest
      rw [h1, ← pow2_prec, ← pow2_prec, ← pow2_add, ← pow2_add]
      congr 1
      omega
    · rw [abs_of_nonneg (by positivity)]
      exact pow_lt_pow_right₀ (by norm_num) (by omega)

theorem Rep.neg {f : Fmt} {q : ℚ} (h : f.Rep q) : f.Rep (-q) := by
  obtain ⟨m, e, h1, h2, h3, h4⟩ := h
  exact ⟨-m, e, by rw [h1]; push_cast; ring, by rwa [abs_neg], h3, h4⟩

theorem round_ok (neg : Bool) (q : ℚ) : (f.round neg q).Ok f := by
  unfold round
  split
  · trivial
  · rename_i hq
    have ha : 0 < |q| := abs_pos.2 hq
    dsimp only
    split
    · trivial
    · rename_i hv
      split
      · trivial
      · rename_i hlt
        have hr := f.nearest_rep ha (not_le.1 hlt)
        split
        · exact ⟨neg_ne_zero.2 hv, hr.neg⟩
        · exact ⟨hv, hr⟩

end Fmt

/-! ## The operations -/

namespace Raw

/-- The sign bit (of a number that is not NaN). -/
def sign : Raw → Bool
  | nan => false
  | inf s => s
  | zero s => s
  | num q => q < 0

/-- The value of a finite number. -/
def val : Raw → ℚ
  | num q => q
  | _ => 0

/-- `-x`. -/
def neg : Raw → Raw
  | nan => nan
  | inf s => inf (!s)
  | zero s => zero (!s)
  | num q => num (-q)

/-- `x + y`. An exact sum 0 of numbers that are not zero is `+0`. -/
def add (f : Fmt) : Raw → Raw → Raw
  | nan, _ => nan
  | _, nan => nan
  | inf s, inf t => if s = t then inf s else nan
  | inf s, _ => inf s
  | _, inf t => inf t
  | zero s, zero t => zero (s && t)
  | x, y => f.round false (x.val + y.val)

/-- `x * y`. -/
def mul (f : Fmt) : Raw → Raw → Raw
  | nan, _ => nan
  | _, nan => nan
  | inf _, zero _ => nan
  | zero _, inf _ => nan
  | inf s, y => inf (s ^^ y.sign)
  | x, inf t => inf (x.sign ^^ t)
  | zero s, y => zero (s ^^ y.sign)
  | x, zero t => zero (x.sign ^^ t)
  | num p, num q => f.round false (p * q)

/-- `x / y`. -/
def div (f : Fmt) : Raw → Raw → Raw
  | nan, _ => nan
  | _, nan => nan
  | inf _, inf _ => nan
  | inf s, y => inf (s ^^ y.sign)
  | x, inf t => zero (x.sign ^^ t)
  | zero _, zero _ => nan
  | zero s, y => zero (s ^^ y.sign)
  | x, zero t => inf (x.sign ^^ t)
  | num p, num q => f.round false (p / q)

/-- `x == y`. -/
def eq : Raw → Raw → Bool
  | nan, _ => false
  | _, nan => false
  | inf s, inf t => s == t
  | inf _, _ => false
  | _, inf _ => false
  | x, y => x.val == y.val

/-- `x < y`. -/
def lt : Raw → Raw → Bool
  | nan, _ => false
  | _, nan => false
  | inf s, inf t => s && !t
  | inf s, _ => s
  | _, inf t => !t
  | x, y => x.val < y.val

variable {f : Fmt}

theorem neg_ok {x : Raw} (h : x.Ok f) : x.neg.Ok f := by
  cases x <;> try trivial
  exact ⟨neg_ne_zero.2 h.1, h.2.neg⟩

theorem add_ok (x y : Raw) : (x.add f y).Ok f := by
  cases x <;> cases y <;> try trivial
  · rename_i s t; show Ok f (if s = t then inf s else nan); split <;> trivial
  all_goals exact f.round_ok _ _

theorem mul_ok (x y : Raw) : (x.mul f y).Ok f := by
  cases x <;> cases y <;> try trivial
  exact f.round_ok _ _

theorem div_ok (x y : Raw) : (x.div f y).Ok f := by
  cases x <;> cases y <;> try trivial
  exact f.round_ok _ _

end Raw

theorem Fmt.one_ok (f : Fmt) : (Raw.num 1).Ok f := by
  refine ⟨one_ne_zero, 2 ^ (f.prec - 1), -(f.prec - 1 : ℕ), ?_, ?_, ?_, ?_⟩
  · rw [← pow2_prec, ← pow2_add, add_neg_cancel]; rfl
  · rw [abs_of_nonneg (by positivity)]
    exact pow_lt_pow_right₀ (by norm_num) (by have := f.two_le; omega)
  · have := f.two_le; have := f.le_emax; unfold Fmt.low; omega
  · have := f.two_le; have := f.le_emax; unfold Fmt.top; omega

instance (f : Fmt) : GoNum (Fl f) where
  zero := ⟨.zero false, trivial⟩
  one := ⟨.num 1, f.one_ok⟩
  neg x := ⟨x.1.neg, Raw.neg_ok x.2⟩
  add x y := ⟨x.1.add f y.1, Raw.add_ok _ _⟩
  sub x y := ⟨x.1.add f y.1.neg, Raw.add_ok _ _⟩
  mul x y := ⟨x.1.mul f y.1, Raw.mul_ok _ _⟩
  geq x y := x.1.eq y.1
  glt x y := x.1.lt y.1
  gdiv x y := some ⟨x.1.div f y.1, Raw.div_ok _ _⟩
  gname := f.name

instance (f : Fmt) : GoStore (Fl f) := ⟨rfl⟩

end GB
