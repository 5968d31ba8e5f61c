import Verif.Model.Reduce

/-!
# Model of the reductions with functions of the caller that remember and panic

binaryop/monoID.go:34-49 and operators.go:609-646 once more, for an operation (`BinaryOp.Apply`) whose answer may depend on
the calls before it and that may panic, and for a mask whose `Element` may panic. Both run in goroutines that the library has
started and that recover nothing, so their panic ends the program: `dead`. The reducer's receive (monoID.go:40) and its call
of the operation (41) are two steps here, since the other goroutines run in between.

Simplification: the operation and the mask share no state.
-/

namespace GB
namespace ReduceBy

variable {T : Type}

/-- What one turn of the producer's loop (operators.go:630-640) does once it has not found the context cancelled. -/
inductive Turn (T : Type) where
  /-- the mask answers false and the value is sent (636-637) -/
  | send (v : T)
  /-- the mask answers true (636) -/
  | skip
  /-- the mask panics (636) -/
  | boom
  deriving DecidableEq

/-- The producer goroutine (operators.go:629-642). -/
inductive Prod (T : Type) where
  /-- not started yet -/
  | idle
  /-- at the top of the loop, with the given turns to go -/
  | loop (rest : List (Turn T))
  /-- blocked in `slice <- value` (637) -/
  | sending (v : T) (rest : List (Turn T))
  /-- blocked in `done <- struct{}{}` (641) -/
  | signal
  /-- returned at its end -/
  | finished
  /-- returned because the context was cancelled (632-633) -/
  | stopped
  deriving DecidableEq

/-- The reducer goroutine (binaryop/monoID.go:36-48). -/
inductive Red (T : Type) where
  /-- blocked in the `select` (39) with the result so far -/
  | run (acc : T)
  /-- has received (40), is about to call the operation (41) -/
  | applying (acc v : T)
  /-- blocked in `out <- result` (43) -/
  | deliver (acc : T)
  /-- at `close(out)` (44) -/
  | closing
  /-- returned -/
  | finished
  deriving DecidableEq

/-- The three goroutines, the context, the two closable channels, the calls of the operation so far and whether a panic has
ended the program. The caller is `Reduce.Main`. -/
structure Sys (T : Type) where
  cancelled : Bool
  prod : Prod T
  red : Red T
  main : Reduce.Main T
  doneClosed : Bool
  sliceClosed : Bool
  log : List (T × T)
  dead : Bool
  deriving DecidableEq

/-- The state after `monoID.Reduce(done, slice)` (operators.go:615, binaryop/monoID.go:35-37). -/
def Sys.init (unit : T) (cancelled : Bool) : Sys T :=
  { cancelled, prod := .idle, red := .run unit, main := .start, doneClosed := false, sliceClosed := false, log := [],
    dead := false }

/-- One step of one of the goroutines. `op` is given the calls before, and the arguments; `none` is a panic. `fits`: the mask
has the matrix's shape. -/
inductive Step [Zero T] (op : List (T × T) → T → T → Option T) (script : List (Turn T)) (fits : Bool) : Sys T → Sys T → Prop
  /-- operators.go:617-629: the mask is accepted, the producer is started -/
  | accept {s} : s.dead = false → s.main = .start → fits = true →
      Step op script fits s { s with main := .waiting, prod := .loop script }
  /-- operators.go:622, 626: the mask is rejected -/
  | reject {s} : s.dead = false → s.main = .start → fits = false → Step op script fits s { s with main := .panicking }
  /-- operators.go:632-633 -/
  | pollStop {s e rest} : s.dead = false → s.prod = .loop (e :: rest) → s.cancelled = true →
      Step op script fits s { s with prod := .stopped }
  /-- operators.go:635-636, the cell is masked -/
  | masked {s rest} : s.dead = false → s.prod = .loop (.skip :: rest) → s.cancelled = false →
      Step op script fits s { s with prod := .loop rest }
  /-- operators.go:636, the mask panics -/
  | maskBoom {s rest} : s.dead = false → s.prod = .loop (.boom :: rest) → s.cancelled = false →
      Step op script fits s { s with dead := true }
  /-- operators.go:635-637, about to send -/
  | next {s v rest} : s.dead = false → s.prod = .loop (.send v :: rest) → s.cancelled = false →
      Step op script fits s { s with prod := .sending v rest }
  /-- operators.go:630, the loop ends -/
  | loopEnd {s} : s.dead = false → s.prod = .loop [] → Step op script fits s { s with prod := .signal }
  /-- operators.go:637 and binaryop/monoID.go:40 -/
  | send {s v rest acc} : s.dead = false → s.prod = .sending v rest → s.red = .run acc → s.sliceClosed = false →
      Step op script fits s { s with prod := .loop rest, red := .applying acc v }
  /-- binaryop/monoID.go:41, the operation answers -/
  | apply {s acc v x} : s.dead = false → s.red = .applying acc v → op s.log acc v = some x →
      Step op script fits s { s with red := .run x, log := s.log ++ [(acc, v)] }
  /-- binaryop/monoID.go:41, the operation panics -/
  | applyBoom {s acc v} : s.dead = false → s.red = .applying acc v → op s.log acc v = none →
      Step op script fits s { s with log := s.log ++ [(acc, v)], dead := true }
  /-- sending on a closed channel panics -/
  | sendClosed {s v rest} : s.dead = false → s.prod = .sending v rest → s.sliceClosed = true →
      Step op script fits s { s with dead := true }
  /-- operators.go:641 and binaryop/monoID.go:42-43 -/
  | signal {s acc} : s.dead = false → s.prod = .signal → s.red = .run acc → s.doneClosed = false →
      Step op script fits s { s with prod := .finished, red := .deliver acc }
  /-- sending on a closed channel panics -/
  | signalClosed {s} : s.dead = false → s.prod = .signal → s.doneClosed = true → Step op script fits s { s with dead := true }
  /-- binaryop/monoID.go:40 on a closed channel: the zero value is received -/
  | recvClosed {s acc} : s.dead = false → s.red = .run acc → s.sliceClosed = true →
      Step op script fits s { s with red := .applying acc 0 }
  /-- binaryop/monoID.go:42 on a closed channel -/
  | doneClosed {s acc} : s.dead = false → s.red = .run acc → s.doneClosed = true →
      Step op script fits s { s with red := .deliver acc }
  /-- binaryop/monoID.go:43 and operators.go:644 -/
  | deliver {s acc} : s.dead = false → s.red = .deliver acc → s.main = .waiting →
      Step op script fits s { s with red := .closing, main := .got acc }
  /-- binaryop/monoID.go:44-45 -/
  | closeOut {s} : s.dead = false → s.red = .closing → Step op script fits s { s with red := .finished }
  /-- operators.go:613 -/
  | closeDone {s v} : s.dead = false → s.main = .got v →
      Step op script fits s { s with main := .closing v, doneClosed := true }
  /-- operators.go:612 -/
  | closeSlice {s v} : s.dead = false → s.main = .closing v →
      Step op script fits s { s with main := .returned v, sliceClosed := true }
  /-- operators.go:613 during the panic -/
  | panicDone {s} : s.dead = false → s.main = .panicking →
      Step op script fits s { s with main := .panicking2, doneClosed := true }
  /-- operators.go:612 during the panic -/
  | panicSlice {s} : s.dead = false → s.main = .panicking2 →
      Step op script fits s { s with main := .panicked, sliceClosed := true }

/-- Any number of steps of the goroutines; the context does not change. -/
inductive Steps [Zero T] (op : List (T × T) → T → T → Option T) (script : List (Turn T)) (fits : Bool) :
    Sys T → Sys T → Prop
  | refl {s} : Steps op script fits s s
  | tail {s t u} : Steps op script fits s t → Step op script fits t u → Steps op script fits s u

/-- Any number of steps of the goroutines, and of someone who cancels the context. -/
inductive StepsEnv [Zero T] (op : List (T × T) → T → T → Option T) (script : List (Turn T)) (fits : Bool) :
    Sys T → Sys T → Prop
  | refl {s} : StepsEnv op script fits s s
  | step {s t u} : StepsEnv op script fits s t → Step op script fits t u → StepsEnv op script fits s u
  | cancel {s t} : StepsEnv op script fits s t → StepsEnv op script fits s { t with cancelled := true }

end ReduceBy
end GB
