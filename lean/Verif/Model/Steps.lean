import Verif.Model.Operators
import Verif.SpecOps

/-!
# The operators one method call at a time

`Model/Operators.lean` gives each operator as one transition of the heap. Here the same bodies are written in a monad
whose programs stop between any two method calls, so that calls made by several goroutines can be interleaved. That the
two descriptions agree when nobody interferes is `OpCall.steps_run` (`Lemmas/Steps.lean`).

A method call on an object (`At`, `Set`, `Update`, `Next`, `RowsAt`, …) takes two steps: the object is read when the
call begins and stored when it ends, and other goroutines may run in between. Reads store too: `At` and `Element` of the
compressed formats write the value they found back into its place (csrMatrix.go:89, 99-106). Simplifications: an object
is read at one moment and stored at one moment; a panic ends the goroutine that raised it and no other.
-/

namespace GB

variable {T : Type} [GoNum T]

/-- A program that can be interrupted between method calls. -/
inductive Prog (T α : Type) : Type 1 where
  /-- return -/
  | ret (a : α)
  /-- `log.Panicf` -/
  | fail
  /-- still in a loop after all the iterations granted to it (`World.gas`) -/
  | hang
  /-- `select { case <-ctx.Done(): …; default: … }` -/
  | poll (k : Bool → Prog T α)
  /-- matrixRegistry.go:27-31: look a name up in the registry -/
  | names (k : List String → Prog T α)
  /-- a method call on the object `p` -/
  | call {β : Type} (p : Ref) (f : Mat T → Out (β × Mat T)) (k : β → Prog T α)

namespace Prog

/-- Sequencing. -/
def bind' {α β : Type} : Prog T α → (α → Prog T β) → Prog T β
  | ret a, g => g a
  | fail, _ => fail
  | hang, _ => hang
  | poll k, g => poll (fun b => bind' (k b) g)
  | names k, g => names (fun b => bind' (k b) g)
  | call p f k, g => call p f (fun b => bind' (k b) g)

instance : Monad (Prog T) where
  pure := ret
  bind := bind'

/-- The program as one transition of the heap. -/
def run {α : Type} : Prog T α → M T α
  | ret a => pure a
  | fail => M.fail
  | hang => fun w => .hang w
  | poll k => fun w => (M.poll >>= fun b => run (k b)) w
  | names k => fun w => run (k w.reg) w
  | call p f k => fun w => (M.withObj p f >>= fun b => run (k b)) w

/-- A method call that returns and changes the object. -/
def withObj {α : Type} (p : Ref) (f : Mat T → Out (α × Mat T)) : Prog T α := call p f ret

/-- A method call that does not change the object. -/
def ofObj {α : Type} (p : Ref) (f : Mat T → Out α) : Prog T α :=
  call p (fun m => do let a ← f m; .ok (a, m)) ret

/-- A local computation that may panic. -/
def lift {α : Type} : Out α → Prog T α
  | .ok a => ret a
  | .panic => fail
  | .hang => hang

/-- `Rows()`. -/
def rowsOf (p : Ref) : Prog T Nat := ofObj p (fun m => .ok m.rows)
/-- `Columns()`. -/
def colsOf (p : Ref) : Prog T Nat := ofObj p (fun m => .ok m.cols)
/-- `At`. -/
def at' (p : Ref) (r c : Nat) : Prog T T := withObj p (fun m => m.at' r c)
/-- `Set`. -/
def set (p : Ref) (r c : Nat) (v : T) : Prog T Unit := withObj p (fun m => do let m' ← m.set r c v; .ok ((), m'))
/-- `Update`. -/
def update (p : Ref) (r c : Nat) (f : T → T) : Prog T Unit :=
  withObj p (fun m => do let m' ← m.update r c f; .ok ((), m'))
/-- `Enumerate()` / `Map()`. -/
def iterOf (p : Ref) : Prog T Mat.Iter := ofObj p (fun m => .ok m.iter)
/-- matrixRegistry.go:27-31 `IsSparseMatrix`. -/
def isSparse (p : Ref) : Prog T Bool :=
  ofObj p (fun m => .ok m.typeName) >>= fun n => names (fun ns => ret (decide (n ∈ ns)))

/-- `for iterator.HasNext() { select { … } }`, as `M.loopIter`. -/
def loopIter {β : Type} (p : Ref) (onCancel : Option β) (body : Nat → Nat → T → Prog T (Option β)) :
    Nat → Mat.Iter → Prog T (Option β)
  | 0, it => if it.hasNext then hang else pure none
  | g + 1, it =>
    if it.hasNext then do
      let stop ← poll ret
      if stop then
        match onCancel with
        | some b => pure (some b)
        | none => loopIter p onCancel body g it
      else do
        let (it', r, c, v) ← ofObj p (fun m => m.step it)
        match ← body r c v with
        | some b => pure (some b)
        | none => loopIter p onCancel body g it'
    else pure none

/-- `for it := p.Enumerate(); it.HasNext(); { … }`, with `g` iterations granted. -/
def forEach {β : Type} (g : Nat) (p : Ref) (onCancel : Option β) (body : Nat → Nat → T → Prog T (Option β)) :
    Prog T (Option β) := do
  let it ← iterOf p
  loopIter p onCancel body g it

/-- `for it := p.Map(); it.HasNext(); { … it.Map(f) }`, as `M.loopMap`; the calls made by the callback are steps of
their own. -/
def loopMap (p : Ref) (onCancel : Bool) (f : Nat → Nat → T → Prog T T) : Nat → Mat.Iter → Prog T Bool
  | 0, it => if it.hasNext then hang else pure false
  | g + 1, it =>
    if it.hasNext then do
      let stop ← poll ret
      if stop then
        if onCancel then pure true else loopMap p onCancel f g it
      else do
        let (it', r, c, v) ← ofObj p (fun m => m.step it)
        let v' ← f r c v
        withObj p (fun m => do let m' ← m.put it' v'; .ok ((), m'))
        loopMap p onCancel f g it'
    else pure false

/-- `for it := p.Map(); it.HasNext(); { … }`. -/
def forMap (g : Nat) (p : Ref) (onCancel : Bool) (f : Nat → Nat → T → Prog T T) : Prog T Bool := do
  let it ← iterOf p
  loopMap p onCancel f g it

/-- `for i := i0; i < i0+n; i++ { body }`. -/
def forN {β : Type} : (n i0 : Nat) → (Nat → Prog T (Option β)) → Prog T (Option β)
  | 0, _, _ => pure none
  | n + 1, i0, body => do
    match ← body i0 with
    | some b => pure (some b)
    | none => forN n (i0 + 1) body

/-! ## Masks (mask.go, operators.go:24-34) -/

/-- `if mask == nil { mask = NewEmptyMask(…) }`. -/
def orEmpty (mask : Mask) (matrix : Ref) : Prog T Mask :=
  match mask with
  | .nil => do
    let r ← rowsOf matrix
    let c ← colsOf matrix
    pure (.empty r c)
  | m => pure m

/-- `mask.Rows()`. -/
def maskRows : Mask → Prog T Nat
  | .nil => fail
  | .empty r _ => pure r
  | .ref p => rowsOf p
  | .given r _ _ => pure r

/-- `mask.Columns()`. -/
def maskCols : Mask → Prog T Nat
  | .nil => fail
  | .empty _ c => pure c
  | .ref p => colsOf p
  | .given _ c _ => pure c

/-- `mask.Element(r, c)`. -/
def element : Mask → Nat → Nat → Prog T Bool
  | .nil, _, _ => fail
  | .empty _ _, _, _ => pure false
  | .ref p, r, c => withObj p (fun m => m.element r c)
  | .given _ _ el, r, c => match el r c with
    | some b => pure b
    | none => fail

/-- The mask shape checks. -/
def check (mask : Mask) (matrix : Ref) : Prog T Unit := do
  let mr ← maskRows mask
  let r ← rowsOf matrix
  if mr ≠ r then fail
  let mc ← maskCols mask
  let c ← colsOf matrix
  if mc ≠ c then fail

/-! ## operators.go -/

/-- operators.go:43-52. -/
def dot (rows column : Vec T) : (n l : Nat) → T → Prog T (Option T)
  | 0, _, sum => pure (some sum)
  | n + 1, l, sum => do
    let stop ← poll ret
    if stop then pure none
    else do
      let vC ← lift (column.atVec l)
      let vR ← lift (rows.atVec l)
      dot rows column n (l + 1) (sum + vR * vC)

/-- operators.go:19-60 `multiply`. -/
def multiply (s m : Ref) (mask : Mask) (matrix : Ref) : Prog T Unit := do
  let mr ← rowsOf m
  let sc ← colsOf s
  if mr ≠ sc then fail
  let mask ← orEmpty mask matrix
  check mask matrix
  let sr ← rowsOf s
  let _ ← forN sr 0 (fun r => do
    let rows ← ofObj s (fun x => x.rowsAt r)
    let mc ← colsOf m
    forN mc 0 (fun c => do
      let column ← ofObj m (fun x => x.columnsAt c)
      match ← dot rows column rows.length 0 0 with
      | none => pure (some ())
      | some sum => do
        let e ← element mask r c
        if !e then set matrix r c sum
        pure none))
  pure ()

/-- operators.go:99-106. -/
def eMulTarget (source matrix : Ref) (mask : Mask) (r c : Nat) (value : T) : Prog T Unit := do
  let v ← at' source r c
  if GoNum.geq value v then do
    let e ← element mask r c
    if !e then set matrix r c value

/-- operators.go:109-118. -/
def eMulSetSource (source : Ref) (mask : Mask) (r c : Nat) (value : T) : Prog T Unit := do
  let e ← element mask r c
  if !e then update source r c (fun v => if !GoNum.geq value v then 0 else v)

/-- operators.go:83-145 `elementWiseMultiply`. -/
def elementWiseMultiply (g : Nat) (s m : Ref) (mask : Mask) (matrix : Ref) : Prog T Unit := do
  let mask ← orEmpty mask matrix
  check mask matrix
  let run := fun (over : Ref) (target : Nat → Nat → T → Prog T Unit) => do
    let _ ← forEach g over (some ()) (fun r c v => do target r c v; pure none)
    pure ()
  if m = matrix then run s (eMulSetSource m mask)
  else if s = matrix then run m (eMulSetSource s mask)
  else do
    let sp ← isSparse s
    if sp then run s (eMulTarget m matrix mask)
    else run m (eMulTarget s matrix mask)

/-- operators.go:170-213 `Add`. -/
def add (g : Nat) (s m : Ref) (mask : Mask) (matrix : Ref) : Prog T Unit := do
  let sc ← colsOf s
  let mc ← colsOf m
  if sc ≠ mc then fail
  let sr ← rowsOf s
  let mr ← rowsOf m
  if sr ≠ mr then fail
  let mask ← orEmpty mask matrix
  check mask matrix
  let sp ← isSparse s
  let (over, source) := if sp then (s, m) else (m, s)
  let _ ← forEach g over (some ()) (fun r c v => do
    let value ← at' source r c
    let e ← element mask r c
    if !e then set matrix r c (value + v)
    pure none)
  pure ()

/-- operators.go:229-241 and 245-257. -/
def eAddLoop (g : Nat) (src : Ref) (mask : Mask) (matrix : Ref) : Prog T (Option Unit) :=
  forEach g src (some ()) (fun r c value => do
    if !isZero value then do
      let e ← element mask r c
      if !e then set matrix r c value
    pure none)

/-- operators.go:215-259 `elementWiseAdd`. -/
def elementWiseAdd (g : Nat) (s m : Ref) (mask : Mask) (matrix : Ref) : Prog T Unit := do
  let mask ← orEmpty mask matrix
  check mask matrix
  let stop ← if s ≠ matrix then eAddLoop g s mask matrix else pure none
  match stop with
  | some () => pure ()
  | none =>
    if m ≠ matrix then do
      let _ ← eAddLoop g m mask matrix
      pure ()
    else pure ()

/-- The shape check of operators.go:151-153 and 265-267 (`ElementWiseMatrix…`). -/
def guardMatrix (s m : Ref) (x : Prog T Unit) : Prog T Unit := do
  let mr ← rowsOf m
  let sc ← colsOf s
  if mr ≠ sc then fail
  x

/-- The shape check of operators.go:162-164 and 276-278 (`ElementWiseVector…`). -/
def guardVector (s m : Ref) (x : Prog T Unit) : Prog T Unit := do
  let mr ← rowsOf m
  let sr ← rowsOf s
  if mr ≠ sr then fail
  x

/-- operators.go:284-318 `Subtract`. -/
def subtract (g : Nat) (s m : Ref) (mask : Mask) (matrix : Ref) : Prog T Unit := do
  let sc ← colsOf s
  let mc ← colsOf m
  if sc ≠ mc then fail
  let sr ← rowsOf s
  let mr ← rowsOf m
  if sr ≠ mr then fail
  let mask ← orEmpty mask matrix
  check mask matrix
  let _ ← forEach g s (some ()) (fun r c value => do
    let e ← element mask r c
    if !e then update matrix r c (fun v => value - v)
    pure none)
  pure ()

/-- operators.go:323-366 `Apply`. -/
def apply (g : Nat) (inp : Ref) (mask : Mask) (u : T → T) (matrix : Ref) : Prog T Unit := do
  let mask ← orEmpty mask matrix
  check mask matrix
  if inp = matrix then do
    let _ ← forMap g inp true (fun r c value => do
      let e ← element mask r c
      if e then pure (u value) else pure value)
    pure ()
  else do
    let _ ← forEach g inp (some ()) (fun r c value => do
      let e ← element mask r c
      if !e then set matrix c r (u value)
      pure none)
    pure ()

/-- operators.go:369-396 `Negative`. -/
def negative (g : Nat) (mask : Mask) (matrix : Ref) : Prog T Unit := do
  let mask ← orEmpty mask matrix
  check mask matrix
  let _ ← forMap g matrix true (fun r c value => do
    let e ← element mask r c
    if !e then pure (-value) else pure value)
  pure ()

/-- operators.go:401-426 `Transpose`. -/
def transpose (g : Nat) (s : Ref) (mask : Mask) (matrix : Ref) : Prog T Unit := do
  let mask ← orEmpty mask matrix
  check mask matrix
  let _ ← forEach g s (some ()) (fun r c value => do
    let e ← element mask r c
    if !e then set matrix c r value
    pure none)
  pure ()

end Prog

/-- The call of an operator as an interruptible program; `g` iterations are granted to each loop. -/
def OpCall.steps (g : Nat) (mask : Mask) (out : Ref) : OpCall T → Prog T Unit
  | .mxm s m => Prog.multiply s m mask out
  | .mxv s m => Prog.multiply s m mask out
  | .vxm s m => Prog.multiply m s mask out
  | .add s m => Prog.add g s m mask out
  | .subtract s m => Prog.subtract g s m mask out
  | .eMulMatrix s m => Prog.guardMatrix s m (Prog.elementWiseMultiply g s m mask out)
  | .eMulVector s m => Prog.guardVector s m (Prog.elementWiseMultiply g s m mask out)
  | .eAddMatrix s m => Prog.guardMatrix s m (Prog.elementWiseAdd g s m mask out)
  | .eAddVector s m => Prog.guardVector s m (Prog.elementWiseAdd g s m mask out)
  | .apply s u => Prog.apply g s mask u out
  | .negative _ => Prog.negative g mask out
  | .transpose s => Prog.transpose g s mask out

/-! ## Goroutines -/

/-- A goroutine: the rest of its program, the store its current method call has still to make, and its context (as
`World.cancel`). -/
structure Thread (T : Type) where
  /-- what is left to do -/
  prog : Prog T Unit
  /-- the object and its contents to be stored before anything else is done -/
  store : Option (Ref × Mat T)
  /-- as `World.cancel` -/
  cancel : Option Nat

/-- The goroutine has nothing left to do. -/
def Thread.Done (t : Thread T) : Prop :=
  t.store = none ∧ (t.prog = .ret () ∨ t.prog = .fail ∨ t.prog = .hang)

/-- One step of a goroutine on the shared heap; `none` when it has ended. -/
def Thread.step (reg : List String) (h : Ref → Mat T) : Thread T → Option ((Ref → Mat T) × Thread T)
  | ⟨x, some (p, m), c⟩ => some (Function.update h p m, ⟨x, none, c⟩)
  | ⟨.ret _, none, _⟩ => none
  | ⟨.fail, none, _⟩ => none
  | ⟨.hang, none, _⟩ => none
  | ⟨.poll k, none, none⟩ => some (h, ⟨k false, none, none⟩)
  | ⟨.poll k, none, some 0⟩ => some (h, ⟨k true, none, some 0⟩)
  | ⟨.poll k, none, some (n + 1)⟩ => some (h, ⟨k false, none, some n⟩)
  | ⟨.names k, none, c⟩ => some (h, ⟨k reg, none, c⟩)
  | ⟨.call p f k, none, c⟩ =>
    match f (h p) with
    | .ok (b, m) => some (h, ⟨k b, some (p, m), c⟩)
    | .panic => some (h, ⟨.fail, none, c⟩)
    | .hang => some (h, ⟨.hang, none, c⟩)

/-- Several goroutines and the heap they share. -/
structure Conf (T : Type) (n : Nat) where
  /-- objects -/
  heap : Ref → Mat T
  /-- goroutines -/
  threads : Fin n → Thread T

/-- The scheduler lets any goroutine that has not ended take its next step. -/
def Conf.Step {n : Nat} (reg : List String) (c c' : Conf T n) : Prop :=
  ∃ i h t, (c.threads i).step reg c.heap = some (h, t) ∧ c' = ⟨h, Function.update c.threads i t⟩

/-- `k` steps, scheduled in any way. -/
inductive Conf.Exec {n : Nat} (reg : List String) : Nat → Conf T n → Conf T n → Prop
  | nil (c : Conf T n) : Conf.Exec reg 0 c c
  | snoc {k : Nat} {c c' c'' : Conf T n} : Conf.Exec reg k c c' → Conf.Step reg c' c'' → Conf.Exec reg (k + 1) c c''

/-- A call of an operator: its operands, mask, output and context. -/
structure Call (T : Type) where
  /-- the operator and its operands -/
  op : OpCall T
  /-- the mask -/
  mask : Mask
  /-- the output -/
  out : Ref
  /-- as `World.cancel` -/
  cancel : Option Nat

/-- `go op(ctx, …, mask, out)` for each of the calls. -/
def Conf.start {n : Nat} (gas : Nat) (h : Ref → Mat T) (calls : Fin n → Call T) : Conf T n :=
  ⟨h, fun i => ⟨(calls i).op.steps gas (calls i).mask (calls i).out, none, (calls i).cancel⟩⟩

end GB
