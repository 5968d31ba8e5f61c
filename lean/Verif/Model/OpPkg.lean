import Verif.Model.Basic

/-!
# Model of the operator packages: binaryop/, unaryop/, operators/, default.go

`NewBinaryOp(apply).Apply` is `apply` (binaryop/binaryOp.go:26-42), `NewBinaryOpToBool(apply).Apply` is
`apply` (binaryop/binaryOpToBool.go:14-27), `NewUnaryOp(apply).Apply` is `apply`
(unaryop/unaryOp.go:17-30): an operator value is modelled by the function it applies.
-/

namespace GB
namespace OpPkg

variable {T : Type} [GoNum T]

/-- binaryop/operators.go:13-17, operators/other.go:14-18 `FirstArgument`. -/
def firstArgument (x _y : T) : T := x
/-- binaryop/operators.go:20-24, operators/other.go:21-25 `SecondArgument`. -/
def secondArgument (_x y : T) : T := y
/-- binaryop/operators.go:27-34, operators/other.go:28-36 `Minimum`. -/
def minimum (x y : T) : T := if GoNum.glt x y then x else y
/-- binaryop/operators.go:37-45, operators/other.go:39-47 `Maximum`: `in1 > in2` is `in2 < in1`. -/
def maximum (x y : T) : T := if GoNum.glt y x then x else y
/-- binaryop/operators.go:48-52, operators/arithmetic.go:14-18 `Addition`. -/
def addition (x y : T) : T := x + y
/-- binaryop/operators.go:55-59, operators/arithmetic.go:21-25 `Subtraction`. -/
def subtraction (x y : T) : T := x - y
/-- binaryop/operators.go:62-66, operators/arithmetic.go:28-32 `Multiplication`. -/
def multiplication (x y : T) : T := x * y
/-- binaryop/operators.go:69-73, operators/arithmetic.go:35-39 `Division`; integer division by zero
panics. -/
def division (x y : T) : Out T :=
  match GoNum.gdiv x y with
  | some z => .ok z
  | none => .panic

/-- operators/comparison.go:14-18 `Equal`. -/
def equal (x y : T) : Bool := GoNum.geq x y
/-- operators/comparison.go:21-25 `NotEqual`: Go's `!=` is the negation of `==`. -/
def notEqual (x y : T) : Bool := !GoNum.geq x y
/-- operators/comparison.go:28-32 `GreaterThan`. -/
def greaterThan (x y : T) : Bool := GoNum.glt y x
/-- operators/comparison.go:35-39 `LessThan`. -/
def lessThan (x y : T) : Bool := GoNum.glt x y
/-- operators/comparison.go:42-46 `GreaterThanOrEqual`: Go's `>=` is `>` or `==`. -/
def greaterThanOrEqual (x y : T) : Bool := GoNum.glt y x || GoNum.geq x y
/-- operators/comparison.go:49-53 `LessThanOrEqual`. -/
def lessThanOrEqual (x y : T) : Bool := GoNum.glt x y || GoNum.geq x y

/-- operators/boolean.go:14-16 `LOR`. -/
def lor (x y : Bool) : Bool := x || y
/-- operators/boolean.go:19-21 `LAND`. -/
def land (x y : Bool) : Bool := x && y
/-- operators/boolean.go:24-26 `LXOR`. -/
def lxor (x y : Bool) : Bool := x != y
/-- operators/boolean.go:29-31 `LogicalInverse`. -/
def logicalInverse (x : Bool) : Bool := !x

end OpPkg

/-- binaryop/monoID.go:18-31 `monoID`, `NewMonoID`. -/
structure MonoID (T : Type) where
  unit : T
  op : T → T → T

/-- default.go:20-24 `DefaultMonoIDAddition`. -/
def MonoID.addition (T : Type) [GoNum T] : MonoID T := { unit := 0, op := OpPkg.addition }
/-- default.go:26-30 `DefaultMonoIDMaximum`. -/
def MonoID.maximum (T : Type) [GoNum T] : MonoID T := { unit := 0, op := OpPkg.maximum }

/-! ## The order of the integer types -/

instance (w : Nat) : LinearOrder (SInt w) :=
  LinearOrder.lift' (fun x : SInt w => BitVec.toInt x) (fun _ _ h => BitVec.toInt_inj.1 h)
instance (w : Nat) : LinearOrder (USInt w) :=
  LinearOrder.lift' (fun x : USInt w => BitVec.toNat x) (fun _ _ h => BitVec.toNat_inj.1 h)

instance (w : Nat) : GoOrd (SInt w) := ⟨fun a b => (BitVec.slt_iff_toInt_lt (x := a) (y := b))⟩
instance (w : Nat) : GoOrd (USInt w) := ⟨fun a b => (BitVec.ult_iff_lt (x := a) (y := b))⟩

end GB
