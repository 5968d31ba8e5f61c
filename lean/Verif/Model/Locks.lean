import Verif.Model.Mutex

/-!
# The locks of several `MutexMatrix` values (mutexMatrix.go)

A method of one `MutexMatrix` calls methods of another while it holds its lock when the callback of `Update`
does, and when it is given, or wraps, a matrix whose methods do. A `*MutexMatrix` is itself no `Matrix` (it has no
`CopyLogical`, matrix.go:32, and its `Copy`, mutexMatrix.go:86, returns a `MatrixLogical`), so such a matrix is of a
type that embeds a `*MutexMatrix` and adds these two methods; it is identified with what it embeds. `Model/Mutex.lean`
has one lock and calls that do not nest; here there are any number of locks and calls nest in any way, and
only the locks are modelled: what the calls do to the matrices is left out.

Simplifications: those of `Model/Mutex.lean`. The number of times a method calls its argument is arbitrary
(it depends on the contents of the matrices).
-/

namespace GB
namespace Locks

open Mutex (Mode Method)

/-- The calls of a goroutine, as far as they take locks: `call w x inner rest` is a method of the
`MutexMatrix` number `x` that locks it (for writing if `w`), makes the calls `inner` meanwhile and unlocks it,
and then the calls `rest`. -/
inductive Prog (k : Nat) where
  | nil
  | call (w : Bool) (x : Fin k) (inner rest : Prog k)
  deriving DecidableEq, Repr

/-- One after the other. -/
def Prog.append {k : Nat} : Prog k → Prog k → Prog k
  | .nil, q => q
  | .call w x i r, q => .call w x i (r.append q)

/-- The same lock taken for reading, `n` times one after the other. -/
def Prog.reads {k : Nat} (y : Fin k) : Nat → Prog k
  | 0 => .nil
  | n + 1 => .call false y .nil (Prog.reads y n)

/-- Where a goroutine is: about to make these calls, or in a `Lock` that is announced. -/
inductive Pos (k : Nat) where
  | ready (p : Prog k)
  | waiting (x : Fin k) (inner rest : Prog k)
  deriving DecidableEq, Repr

/-- A goroutine: where it is, and the calls it is inside of, the innermost first: the kind of lock, the lock
and the calls left after it. -/
structure Thread (k : Nat) where
  pos : Pos k
  stack : List (Bool × Fin k × Prog k)
  deriving DecidableEq, Repr

/-- The whole system: for each lock, whether some `Lock` is announced or held, and the number of readers. -/
structure Conf (n k : Nat) where
  pending : Fin k → Bool
  readers : Fin k → Nat
  thr : Fin n → Thread k

variable {n k : Nat}

/-- One goroutine changed. -/
def Conf.put (c : Conf n k) (i : Fin n) (t : Thread k) : Conf n k := { c with thr := Function.update c.thr i t }

/-- One step. -/
inductive Step : Conf n k → Conf n k → Prop
  /-- `RLock` -/
  | rlock {c : Conf n k} (i : Fin n) {x p r st} : c.thr i = ⟨.ready (.call false x p r), st⟩ → c.pending x = false →
      Step c ({ c with readers := Function.update c.readers x (c.readers x + 1) }.put i ⟨.ready p, (false, x, r) :: st⟩)
  /-- `Lock`, first half -/
  | announce {c : Conf n k} (i : Fin n) {x p r st} : c.thr i = ⟨.ready (.call true x p r), st⟩ → c.pending x = false →
      Step c ({ c with pending := Function.update c.pending x true }.put i ⟨.waiting x p r, st⟩)
  /-- `Lock`, second half -/
  | lock {c : Conf n k} (i : Fin n) {x p r st} : c.thr i = ⟨.waiting x p r, st⟩ → c.readers x = 0 →
      Step c (c.put i ⟨.ready p, (true, x, r) :: st⟩)
  /-- `RUnlock` -/
  | runlock {c : Conf n k} (i : Fin n) {x r st} : c.thr i = ⟨.ready .nil, (false, x, r) :: st⟩ →
      Step c ({ c with readers := Function.update c.readers x (c.readers x - 1) }.put i ⟨.ready r, st⟩)
  /-- `Unlock` -/
  | unlock {c : Conf n k} (i : Fin n) {x r st} : c.thr i = ⟨.ready .nil, (true, x, r) :: st⟩ →
      Step c ({ c with pending := Function.update c.pending x false }.put i ⟨.ready r, st⟩)

/-- Before any call. -/
def Conf.init (progs : Fin n → Prog k) : Conf n k :=
  { pending := fun _ => false, readers := fun _ => 0, thr := fun i => ⟨.ready (progs i), []⟩ }

/-- An execution. -/
inductive Steps : Conf n k → Conf n k → Prop
  | refl {c} : Steps c c
  | tail {c c' c''} : Steps c c' → Step c' c'' → Steps c c''

/-- A goroutine has made all its calls. -/
def Thread.Done (t : Thread k) : Prop := t = ⟨.ready .nil, []⟩

/-- All goroutines have. -/
def Conf.Finished (c : Conf n k) : Prop := ∀ i, (c.thr i).Done

/-! ## The methods -/

/-- What a goroutine does with the matrices. -/
inductive Call (T : Type) (k : Nat) where
  /-- a method of `x`, with arguments and callbacks that are no `MutexMatrix` and call none -/
  | method (x : Fin k) (m : Method T)
  /-- `x.Update(r, c, f)` where `f` makes these calls -/
  | updateWith (x : Fin k) (f : Prog k)
  /-- `x.Multiply(y)`, `x.Add(y)`, `x.Subtract(y)`, `x.Equal(y)` or `x.NotEqual(y)`, where the argument embeds the
  `MutexMatrix` number `y`: `x` wraps a plain matrix, and the method calls `At`, `ColumnsAt` or `Copy` of `y`
  `times` times -/
  | binary (x y : Fin k) (times : Nat)

/-- The locks of a method (mutexMatrix.go, each method's first two lines). -/
def lockOf {T : Type} (x : Fin k) (m : Method T) (inner rest : Prog k) : Prog k :=
  match m.mode with
  | .free => inner.append rest
  | .read => .call false x inner rest
  | .write => .call true x inner rest

/-- The calls as locks: a method takes its own (`lockOf`); `Update` (mutexMatrix.go:38-43) runs its callback
under `Lock`; `Multiply`, `Add`, `Subtract`, `Equal` and `NotEqual` (mutexMatrix.go:102-123 and 142-155) run
the method of the wrapped matrix, which calls the argument's methods (csrMatrix.go:253-271 and 288-295 and
the same in the other formats; operators.go:19-62 `ColumnsAt`, 170-212 and 492-549 `At`), under `RLock`. -/
def locks {T : Type} : List (Call T k) → Prog k
  | [] => .nil
  | .method x m :: l => lockOf x m .nil (locks l)
  | .updateWith x f :: l => .call true x f (locks l)
  | .binary x y times :: l => .call false x (.reads y times) (locks l)

end Locks
end GB
