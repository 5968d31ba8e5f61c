import Mathlib.Data.BitVec
import Mathlib.Algebra.Ring.Basic
import Mathlib.Algebra.Field.Rat
import Mathlib.Algebra.Order.Ring.Rat
import Mathlib.Order.Defs.LinearOrder

/-!
# Basic vocabulary of the model: outcomes of Go calls, element types, slices
-/

namespace GB

/-- Outcome of a Go call on values: normal return, panic (`log.Panicf`, or a run-time index
panic), or a loop that never ends. -/
inductive Out (α : Type) where
  | ok (a : α)
  | panic
  | hang
  deriving DecidableEq, Repr

namespace Out

/-- Sequencing of Go statements: a panic or an endless loop stops the caller. -/
def bind {α β : Type} (x : Out α) (f : α → Out β) : Out β :=
  match x with
  | ok a => f a
  | panic => panic
  | hang => hang

instance : Monad Out where
  pure := Out.ok
  bind := Out.bind

@[simp] theorem pure_eq {α : Type} (a : α) : (pure a : Out α) = ok a := rfl
@[simp] theorem ok_bind {α β : Type} (a : α) (f : α → Out β) : (ok a >>= f) = f a := rfl
@[simp] theorem panic_bind {α β : Type} (f : α → Out β) : (panic >>= f) = panic := rfl
@[simp] theorem hang_bind {α β : Type} (f : α → Out β) : (hang >>= f) = hang := rfl
@[simp] theorem map_ok {α β : Type} (g : α → β) (a : α) : (g <$> ok a) = ok (g a) := rfl
@[simp] theorem map_panic {α β : Type} (g : α → β) : (g <$> (panic : Out α)) = panic := rfl
@[simp] theorem map_hang {α β : Type} (g : α → β) : (g <$> (hang : Out α)) = hang := rfl

instance : LawfulMonad Out := LawfulMonad.mk'
  (id_map := by intro α x; cases x <;> rfl)
  (pure_bind := by intros; rfl)
  (bind_assoc := by intro α β γ x f g; cases x <;> rfl)

end Out

/-- The operations the Go code uses on an element type `T` (`constraints.Number`,
constraints/number.go:7-10; default.go:8-18 for the zero value).
`geq` is Go's `==`, `glt` is `<`, `gdiv` is `/` (`none` is the integer-division-by-zero panic),
`gname` is what reflection prints for the type. No laws are assumed here. -/
class GoNum (T : Type) extends Zero T, One T, Add T, Sub T, Mul T, Neg T where
  geq : T → T → Bool
  glt : T → T → Bool
  gdiv : T → T → Option T
  gname : String

/-- `0 == 0`: true of every Go number type, IEEE floats included. -/
class GoStore (T : Type) [GoNum T] : Prop where
  zero_eq : GoNum.geq (0 : T) 0 = true

/-- `==` is equality: every integer type, and exact arithmetic. -/
class GoLawful (T : Type) [GoNum T] : Prop where
  eq_iff : ∀ a b : T, GoNum.geq a b = true ↔ a = b

instance (T : Type) [GoNum T] [h : GoLawful T] : GoStore T := ⟨(h.eq_iff 0 0).2 rfl⟩

/-- Element types whose `+ - *` form a commutative ring (all Go integer types, wrap-around
included; exact arithmetic as the idealisation of floats). -/
class GoRing (T : Type) extends CommRing T, GoNum T

/-- Element types that form a field with an exact division (the idealisation of floats). -/
class GoField (T : Type) extends Field T, GoNum T where
  div_eq : ∀ a b : T, b ≠ 0 → GoNum.gdiv a b = some (a / b)

instance (T : Type) [h : GoField T] : GoRing T := { h with }

/-- `<` is a given linear order. -/
class GoOrd (T : Type) [GoNum T] [LinearOrder T] : Prop where
  lt_iff : ∀ a b : T, GoNum.glt a b = true ↔ a < b

/-- default.go:12-14 `IsZero`, and the test `value == Default[T]()` used in csrMatrix.go. -/
def isZero {T : Type} [GoNum T] (v : T) : Bool := GoNum.geq v 0

/-- What a sparse format hands back for a stored `v`: a value that is `== 0` is dropped, so it
reads back as the zero value (the two differ only for the float `-0`). -/
def norm {T : Type} [GoNum T] (v : T) : T := if isZero v then 0 else v

theorem isZero_iff {T : Type} [GoNum T] [h : GoLawful T] (v : T) : isZero v = true ↔ v = 0 :=
  h.eq_iff v 0

theorem isZero_zero {T : Type} [GoNum T] [h : GoStore T] : isZero (0 : T) = true := h.zero_eq

@[simp] theorem norm_lawful {T : Type} [GoNum T] [GoLawful T] (v : T) : norm v = v := by
  unfold norm; split
  · rename_i h; exact ((isZero_iff v).1 h).symm
  · rfl

/-- Slice read `l[i]`: run-time panic when out of range. -/
def idx {α : Type} (l : List α) (i : Nat) : Out α :=
  match l[i]? with
  | some a => .ok a
  | none => .panic

theorem idx_ok {α : Type} {l : List α} {i : Nat} (h : i < l.length) : idx l i = .ok l[i] := by
  simp [idx, h]

/-- Slice write `l[i] = a`: run-time panic when out of range. -/
def setIdx {α : Type} (l : List α) (i : Nat) (a : α) : Out (List α) :=
  if i < l.length then .ok (l.set i a) else .panic

theorem setIdx_ok {α : Type} {l : List α} {i : Nat} {a : α} (h : i < l.length) :
    setIdx l i a = .ok (l.set i a) := by simp [setIdx, h]

/-- Is the Go integer `i` a valid index below `n`?  The guard `i < 0 || i >= n`, negated. -/
def inRange (i : Int) (n : Nat) : Bool := decide (0 ≤ i) && decide (i < n)

theorem inRange_iff {i : Int} {n : Nat} : inRange i n = true ↔ 0 ≤ i ∧ i < n := by
  simp [inRange]

@[simp] theorem inRange_natCast {i n : Nat} : inRange (i : Int) n = decide (i < n) := by
  simp [inRange]

/-- Slice read at a Go integer. -/
def idxI {α : Type} (l : List α) (i : Int) : Out α := if i < 0 then .panic else idx l i.toNat

/-- Slice read `l[n-1]`. -/
def idxPred {α : Type} (l : List α) (n : Nat) : Out α := if n = 0 then .panic else idx l (n - 1)

/-- `append(l[:p], append([]A{a}, l[p:]...)...)`: insert `a` before position `p`.
The upper bound of `l[p:]` is the length, so Go panics when `p` exceeds it. -/
def splice {α : Type} (l : List α) (p : Nat) (a : α) : Out (List α) :=
  if p ≤ l.length then .ok (l.take p ++ a :: l.drop p) else .panic

/-- `append(l[:p], l[p+1:]...)`: delete position `p`. -/
def unsplice {α : Type} (l : List α) (p : Nat) : Out (List α) :=
  if p < l.length then .ok (l.take p ++ l.drop (p + 1)) else .panic

/-- `for i := i0; i < i0+n; i++ { body }` where the body transforms the state `σ`. -/
def loop {σ : Type} : (n i0 : Nat) → (Nat → σ → Out σ) → σ → Out σ
  | 0, _, _, s => .ok s
  | n + 1, i0, f, s => f i0 s >>= loop n (i0 + 1) f

/-! ## Instances: every Go integer type, and exact arithmetic -/

/-- Signed Go integers of width `w` (`int8` … `int64`, `int` = `int64`, `rune` = `int32`). -/
def SInt (w : Nat) : Type := BitVec w
/-- Unsigned Go integers of width `w` (`uint8` … `uint64`, `uint`, `uintptr`). -/
def USInt (w : Nat) : Type := BitVec w

instance (w : Nat) : CommRing (SInt w) := inferInstanceAs (CommRing (BitVec w))
instance (w : Nat) : CommRing (USInt w) := inferInstanceAs (CommRing (BitVec w))
instance (w : Nat) : DecidableEq (SInt w) := inferInstanceAs (DecidableEq (BitVec w))
instance (w : Nat) : DecidableEq (USInt w) := inferInstanceAs (DecidableEq (BitVec w))
instance (w : Nat) : Repr (SInt w) := inferInstanceAs (Repr (BitVec w))
instance (w : Nat) : Repr (USInt w) := inferInstanceAs (Repr (BitVec w))

instance (w : Nat) : GoRing (SInt w) where
  geq a b := decide (a = b)
  glt a b := BitVec.slt a b
  gdiv a b := if b = 0 then none else some (BitVec.sdiv a b)
  gname := "int" ++ toString w

instance (w : Nat) : GoRing (USInt w) where
  geq a b := decide (a = b)
  glt a b := BitVec.ult a b
  gdiv a b := if b = 0 then none else some (BitVec.udiv a b)
  gname := "uint" ++ toString w

instance (w : Nat) : GoLawful (SInt w) := ⟨fun _ _ => decide_eq_true_iff⟩
instance (w : Nat) : GoLawful (USInt w) := ⟨fun _ _ => decide_eq_true_iff⟩

/-- Unbounded integers: used for concrete examples; they behave as a Go `int` that does not
overflow. -/
instance : GoRing ℤ where
  geq a b := decide (a = b)
  glt a b := decide (a < b)
  gdiv a b := if b = 0 then none else some (Int.tdiv a b)
  gname := "int"

instance : GoLawful ℤ := ⟨fun _ _ => decide_eq_true_iff⟩
instance : GoOrd ℤ := ⟨fun _ _ => decide_eq_true_iff⟩

/-- Exact rationals: the idealisation of `float64` (no rounding, no NaN, no infinities). -/
instance : GoField ℚ where
  geq a b := decide (a = b)
  glt a b := decide (a < b)
  gdiv a b := some (a / b)
  gname := "float64"
  div_eq := by intros; rfl

instance : GoLawful ℚ := ⟨fun _ _ => decide_eq_true_iff⟩
instance : GoOrd ℚ := ⟨fun _ _ => decide_eq_true_iff⟩

end GB
