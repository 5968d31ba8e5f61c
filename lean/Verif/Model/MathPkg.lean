import Verif.Model.Operators

/-!
# Model of math/symmetric and math/skewsymmetric
-/

namespace GB
namespace MathPkg
open M

variable {T : Type} [GoNum T]

/-- math/symmetric/symmetric.go:14-23 `Symmetric`. -/
def symmetric (s : Ref) : M T Bool := do
  let r ← rowsOf s
  let c ← colsOf s
  if r ≠ c then pure false
  else do
    let t ← Meth.transpose s
    Meth.equal t s

/-- math/skewsymmetric/skewSymmetric.go:14-24 `SkewSymmetric`. -/
def skewSymmetric (s : Ref) : M T Bool := do
  let r ← rowsOf s
  let c ← colsOf s
  if r ≠ c then pure false
  else do
    let n ← Meth.negative s
    let t ← Meth.transpose n
    Meth.equal t s

end MathPkg
end GB
