import Verif.Model.Operators
import Verif.Model.OpPkg

/-!
# Model of the reductions: binaryop/monoID.go and operators.go:572-646

`ReduceMatrixToScalarWithMonoID` runs three goroutines: the caller (`main`), the reducer started by
`MonoID.Reduce`, and the producer. They communicate over three unbuffered channels (`slice`, `done`,
`out`). `Sys` is the state of the three, `Step` one step of any of them; an execution is any sequence of
steps, so every interleaving is covered. Communication on an unbuffered channel is one joint step.

What the producer does is fixed by its *script*: for each turn of its loop, the value it will send, or
`none` when the mask suppresses the cell. `Ops.reduceScript` computes it from the state of the program.
-/

namespace GB

namespace Reduce

variable {T : Type} [GoNum T]

/-- The producer goroutine (operators.go:629-642). -/
inductive Prod (T : Type) where
  /-- not started yet -/
  | idle
  /-- at the top of the loop, with the given turns to go -/
  | loop (rest : List (Option T))
  /-- blocked in `slice <- v` (637) -/
  | sending (v : T) (rest : List (Option T))
  /-- blocked in `done <- struct{}{}` (641) -/
  | signal
  /-- returned at its end -/
  | finished
  /-- returned because the context was cancelled (632-633) -/
  | stopped
  /-- panicked sending on a closed channel -/
  | crashed
  deriving DecidableEq

/-- The reducer goroutine (binaryop/monoID.go:36-48). -/
inductive Red (T : Type) where
  /-- blocked in the `select` (39) with the result so far -/
  | run (acc : T)
  /-- blocked in `out <- result` (43) -/
  | deliver (acc : T)
  /-- at `close(out)` (44) -/
  | closing
  /-- returned -/
  | finished
  deriving DecidableEq

/-- The caller (operators.go:609-646). -/
inductive Main (T : Type) where
  /-- after `monoID.Reduce` (615), about to check the mask's shape (617-627) -/
  | start
  /-- blocked in `<-out` (644) -/
  | waiting
  /-- received; about to run the deferred `close(done)` (613) -/
  | got (v : T)
  /-- about to run the deferred `close(slice)` (612) -/
  | closing (v : T)
  /-- returned -/
  | returned (v : T)
  /-- panicking at the mask check; about to run `close(done)` -/
  | panicking
  /-- panicking; about to run `close(slice)` -/
  | panicking2
  /-- left by the panic -/
  | panicked
  deriving DecidableEq

/-- The three goroutines, the context and the two closable channels. -/
structure Sys (T : Type) where
  cancelled : Bool
  prod : Prod T
  red : Red T
  main : Main T
  doneClosed : Bool
  sliceClosed : Bool
  deriving DecidableEq

/-- The state after `monoID.Reduce(done, slice)` (operators.go:615, binaryop/monoID.go:35-37). -/
def Sys.init (m : MonoID T) (cancelled : Bool) : Sys T :=
  { cancelled, prod := .idle, red := .run m.unit, main := .start, doneClosed := false, sliceClosed := false }

/-- One step of one of the goroutines. `fits`: the mask has the matrix's shape. -/
inductive Step (m : MonoID T) (script : List (Option T)) (fits : Bool) : Sys T → Sys T → Prop
  /-- operators.go:617-629: the mask is accepted, the producer is started -/
  | accept {s} : s.main = .start → fits = true →
      Step m script fits s { s with main := .waiting, prod := .loop script }
  /-- operators.go:622, 626: the mask is rejected -/
  | reject {s} : s.main = .start → fits = false → Step m script fits s { s with main := .panicking }
  /-- operators.go:632-633 -/
  | pollStop {s e rest} : s.prod = .loop (e :: rest) → s.cancelled = true →
      Step m script fits s { s with prod := .stopped }
  /-- operators.go:635-636, the cell is masked -/
  | masked {s rest} : s.prod = .loop (none :: rest) → s.cancelled = false →
      Step m script fits s { s with prod := .loop rest }
  /-- operators.go:635-637, about to send -/
  | next {s v rest} : s.prod = .loop (some v :: rest) → s.cancelled = false →
      Step m script fits s { s with prod := .sending v rest }
  /-- operators.go:630, the loop ends -/
  | loopEnd {s} : s.prod = .loop [] → Step m script fits s { s with prod := .signal }
  /-- operators.go:637 and binaryop/monoID.go:40-41 -/
  | send {s v rest acc} : s.prod = .sending v rest → s.red = .run acc → s.sliceClosed = false →
      Step m script fits s { s with prod := .loop rest, red := .run (m.op acc v) }
  /-- sending on a closed channel panics -/
  | sendClosed {s v rest} : s.prod = .sending v rest → s.sliceClosed = true →
      Step m script fits s { s with prod := .crashed }
  /-- operators.go:641 and binaryop/monoID.go:42-43 -/
  | signal {s acc} : s.prod = .signal → s.red = .run acc → s.doneClosed = false →
      Step m script fits s { s with prod := .finished, red := .deliver acc }
  /-- sending on a closed channel panics -/
  | signalClosed {s} : s.prod = .signal → s.doneClosed = true → Step m script fits s { s with prod := .crashed }
  /-- binaryop/monoID.go:40-41 on a closed channel: the zero value is received -/
  | recvClosed {s acc} : s.red = .run acc → s.sliceClosed = true →
      Step m script fits s { s with red := .run (m.op acc 0) }
  /-- binaryop/monoID.go:42 on a closed channel -/
  | doneClosed {s acc} : s.red = .run acc → s.doneClosed = true →
      Step m script fits s { s with red := .deliver acc }
  /-- binaryop/monoID.go:43 and operators.go:644 -/
  | deliver {s acc} : s.red = .deliver acc → s.main = .waiting →
      Step m script fits s { s with red := .closing, main := .got acc }
  /-- binaryop/monoID.go:44-45 -/
  | closeOut {s} : s.red = .closing → Step m script fits s { s with red := .finished }
  /-- operators.go:613 -/
  | closeDone {s v} : s.main = .got v → Step m script fits s { s with main := .closing v, doneClosed := true }
  /-- operators.go:612 -/
  | closeSlice {s v} : s.main = .closing v → Step m script fits s { s with main := .returned v, sliceClosed := true }
  /-- operators.go:613 during the panic -/
  | panicDone {s} : s.main = .panicking → Step m script fits s { s with main := .panicking2, doneClosed := true }
  /-- operators.go:612 during the panic -/
  | panicSlice {s} : s.main = .panicking2 → Step m script fits s { s with main := .panicked, sliceClosed := true }

/-- The context is cancelled by someone else. -/
inductive Env : Sys T → Sys T → Prop
  | cancel {s} : Env s { s with cancelled := true }

/-- Any number of steps of the goroutines; the context does not change. -/
inductive Steps (m : MonoID T) (script : List (Option T)) (fits : Bool) : Sys T → Sys T → Prop
  | refl {s} : Steps m script fits s s
  | tail {s t u} : Steps m script fits s t → Step m script fits t u → Steps m script fits s u

/-- Any number of steps of the goroutines and of the environment. -/
inductive StepsEnv (m : MonoID T) (script : List (Option T)) (fits : Bool) : Sys T → Sys T → Prop
  | refl {s} : StepsEnv m script fits s s
  | step {s t u} : StepsEnv m script fits s t → Step m script fits t u → StepsEnv m script fits s u
  | env {s t u} : StepsEnv m script fits s t → Env t u → StepsEnv m script fits s u

end Reduce

namespace Ops
open M

variable {T : Type} [GoNum T]

/-- operators.go:630-640, the producer's loop: the turns it takes, each with the value sent or `none` for
a masked cell; `none` when it found the context cancelled. -/
def loopScript (p : Ref) (mask : Mask) : Nat → Mat.Iter → List (Option T) → M T (Option (List (Option T)))
  | 0, it, acc => if it.hasNext then (fun w => .hang w) else pure (some acc)
  | g + 1, it, acc =>
    if it.hasNext then do
      let stop ← poll
      if stop then pure none
      else do
        let (it', r, c, value) ← ofObj p (fun m => m.step it)
        let e ← mask.element r c
        loopScript p mask g it' (acc ++ [if !e then some value else none])
    else pure (some acc)

/-- operators.go:630-640, with the gas the state grants. -/
def runScript (p : Ref) (mask : Mask) (it : Mat.Iter) : M T (Option (List (Option T))) :=
  fun w => loopScript p mask w.gas it [] w

/-- operators.go:617-640: the mask checks and the producer's loop. -/
def reduceScript (s : Ref) (mask : Mask) : M T (Option (List (Option T))) := do
  let mask ← mask.orEmpty s
  mask.check s
  let it ← iterOf s
  runScript s mask it

/-- operators.go:609-646 `ReduceMatrixToScalarWithMonoID` (and 592-600, 603-605, which call it): the
outcome of the three goroutines. When the producer runs to its end the reducer has folded the values it
sent (`C30`); when the producer returned on cancellation the call never returns (`C34_refuted_reduce`). -/
def reduceScalar (s : Ref) (monoID : MonoID T) (mask : Mask) : M T T := do
  match ← reduceScript s mask with
  | some script => pure ((script.filterMap id).foldl monoID.op monoID.unit)
  | none => fun w => .hang w

/-- operators.go:603-605 `ReduceMatrixToScalar`, 592-594 `ReduceVectorToScalar`. -/
def reduceMatrixToScalar (s : Ref) (mask : Mask) : M T T := reduceScalar s (MonoID.addition T) mask

/-- `SetVec` on an object that is a dense vector. -/
def setVec (p : Ref) (i : Nat) (v : T) : M T Unit := withObj p (fun m =>
  match m with
  | .dvec s => do let s' ← s.setVec i v; .ok ((), .dvec s')
  | _ => .panic)

/-- operators.go:579-589 `ReduceMatrixToVectorWithMonoID`. -/
def reduceVector (s : Ref) (monoID : MonoID T) (mask : Mask) : M T Ref := do
  let sc ← colsOf s
  let vector ← alloc (.dvec (DVec.new sc))
  let _ ← forN sc 0 (fun c => do
    let v ← ofObj s (fun x => x.columnsAt c)
    let p ← alloc v.toMat
    let scaler ← reduceScalar p monoID mask
    setVec vector c scaler
    pure (none : Option Unit))
  pure vector

/-- operators.go:573-575 `ReduceMatrixToVector`. -/
def reduceMatrixToVector (s : Ref) : M T Ref := reduceVector s (MonoID.maximum T) .nil

end Ops
end GB
