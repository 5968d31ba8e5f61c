import Verif.Model.Operators
import Verif.Model.Float

/-!
# Products on a machine that fuses `x*y + z`

"An implementation may combine multiple floating-point operations into a single fused operation, possibly across statements,
and produce a result that differs from the value obtained by executing and rounding the instructions individually" (Go language
specification, "Floating-point operators"). The Go compiler does so where the machine has such an instruction (arm64, ppc64le,
s390x, riscv64, and amd64 with `GOAMD64=v3`). The one expression of the library that can be fused is `sum += vR * vC`,
operators.go:50.

`multiplyBy` is `multiply` (`Model/Operators.lean`) with that statement left open: `step r c l sum vR vC` is the new `sum`
at cell `(r, c)` and position `l`.
-/

namespace GB

namespace Raw

/-- `x*y + z` rounded once. Products with an infinity or a zero are exact, so these are added as `add` does it. -/
def fma (f : Fmt) : Raw → Raw → Raw → Raw
  | nan, _, _ => nan
  | _, nan, _ => nan
  | inf _, zero _, _ => nan
  | zero _, inf _, _ => nan
  | inf s, y, z => add f (inf (s ^^ y.sign)) z
  | x, inf t, z => add f (inf (x.sign ^^ t)) z
  | zero s, y, z => add f (zero (s ^^ y.sign)) z
  | x, zero t, z => add f (zero (x.sign ^^ t)) z
  | num _, num _, nan => nan
  | num _, num _, inf t => inf t
  | num p, num q, z => f.round false (p * q + z.val)

theorem fma_ok {f : Fmt} (x y z : Raw) : (x.fma f y z).Ok f := by
  cases x <;> cases y <;> first | trivial | exact add_ok _ _ | skip
  cases z <;> first | trivial | exact f.round_ok _ _

end Raw

/-- `x*y + z` rounded once. -/
def Fl.fma {f : Fmt} (x y z : Fl f) : Fl f := ⟨x.1.fma f y.1 z.1, Raw.fma_ok _ _ _⟩

/-- operators.go:50 `sum += vR * vC`, fused or not. -/
def Fl.step {f : Fmt} (fuse : Bool) (sum vR vC : Fl f) : Fl f :=
  if fuse then Fl.fma vR vC sum else sum + vR * vC

variable {T : Type} [GoNum T]

namespace Ops
open M

/-- operators.go:43-52, the inner product loop of `multiply`, with line 50 open. -/
def dotBy (step : Nat → T → T → T → T) (rows column : Vec T) : (n l : Nat) → T → M T (Option T)
  | 0, _, sum => pure (some sum)
  | n + 1, l, sum => do
    let stop ← poll
    if stop then pure none
    else do
      let vC ← lift (column.atVec l)
      let vR ← lift (rows.atVec l)
      dotBy step rows column n (l + 1) (step l sum vR vC)

/-- operators.go:19-60 `multiply`, with line 50 open. -/
def multiplyBy (step : Nat → Nat → Nat → T → T → T → T) (s m : Ref) (mask : Mask) (matrix : Ref) : M T Unit := do
  let mr ← rowsOf m
  let sc ← colsOf s
  if mr ≠ sc then fail
  let mask ← mask.orEmpty matrix
  mask.check matrix
  let sr ← rowsOf s
  let _ ← forN sr 0 (fun r => do
    let rows ← ofObj s (fun x => x.rowsAt r)
    let mc ← colsOf m
    forN mc 0 (fun c => do
      let column ← ofObj m (fun x => x.columnsAt c)
      match ← dotBy (step r c) rows column rows.length 0 0 with
      | none => pure (some ())
      | some sum => do
        let e ← mask.element r c
        if !e then set matrix r c sum
        pure none))
  pure ()

/-- operators.go:65-67 `MatrixMatrixMultiply` of floating-point numbers on a machine that fuses operators.go:50 where `fuse` says:
at cell `(r, c)` and position `l`. -/
def multiplyFused {f : Fmt} (fuse : Nat → Nat → Nat → Bool) (s m : Ref) (mask : Mask) (matrix : Ref) : M (Fl f) Unit :=
  multiplyBy (fun r c l => Fl.step (fuse r c l)) s m mask matrix

end Ops

namespace Meth
open M

/-- `Multiply` (see `Meth.multiply`) on a machine that fuses operators.go:50 where `fuse` says. -/
def multiplyFused {f : Fmt} (fuse : Nat → Nat → Nat → Bool) (s m : Ref) : M (Fl f) Ref := background do
  let out ← fun w => alloc (mulOut (w.heap s) (w.heap m)) w
  Ops.multiplyFused fuse s m .nil out
  pure out

end Meth

end GB
