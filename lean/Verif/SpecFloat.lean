import Verif.Model.Float

/-!
# What is said about floating-point results
-/

namespace GB

namespace Fmt

/-- The unit round-off, `2^-prec`. -/
def unit (f : Fmt) : ℚ := pow2 (-f.prec)
/-- Half of the least positive number. -/
def tiny (f : Fmt) : ℚ := pow2 (f.low - 1)
/-- The greatest finite number. -/
def big (f : Fmt) : ℚ := ((2 ^ f.prec - 1 : ℤ) : ℚ) * pow2 f.top

end Fmt

/-- Neither NaN nor infinite. -/
def Raw.Fin : Raw → Prop
  | nan | inf _ => False
  | _ => True

namespace Fl

variable {f : Fmt}

/-- Neither NaN nor infinite. -/
def Fin (x : Fl f) : Prop := x.1.Fin
/-- The number it stands for. -/
def rat (x : Fl f) : ℚ := x.1.val
/-- Not a number. -/
def nan : Fl f := ⟨.nan, trivial⟩
/-- `-0`. -/
def negZero : Fl f := ⟨.zero true, trivial⟩
/-- The infinities. -/
def inf (neg : Bool) : Fl f := ⟨.inf neg, trivial⟩

/-- The constant `q` converted to the format. -/
def of (f : Fmt) (q : ℚ) : Fl f := ⟨f.round false q, f.round_ok _ _⟩

/-- `r` is finite and no finite number of the format is nearer to `q`. -/
def Nearest (r : Fl f) (q : ℚ) : Prop := r.Fin ∧ ∀ x : Fl f, x.Fin → |r.rat - q| ≤ |x.rat - q|

end Fl

end GB
