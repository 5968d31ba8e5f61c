import Verif.Model.Operators

/-!
# `MutexMatrix` (mutexMatrix.go)

Goroutines that call the methods of one `MutexMatrix`, as a transition system: one step is one access
to the lock or to the wrapped matrix.

Simplifications: the lock is the documented behaviour of `sync.RWMutex` (a `Lock` first announces
itself, which keeps new readers out, then waits for the readers inside to leave); it does not record
who waits in which order, so every order is possible. Memory is sequentially consistent. A call that
panics leaves (the unlock is deferred) and its goroutine goes on, as if it recovered.
-/

namespace GB
namespace Mutex

/-- What a call does to the state `S` it shares with others: a sequence of atomic accesses. `act f k`
replaces the state `s` by `f s` and goes on as `k s`. -/
inductive Prog (S R : Type) where
  | done (r : R)
  | act (f : S → S) (k : S → Prog S R)

/-- The call alone: its result and the state after it. -/
def Prog.run {S R : Type} : Prog S R → S → R × S
  | .done r, s => (r, s)
  | .act f k, s => (k s).run (f s)

/-- `Lock`, `RLock` or nothing. -/
inductive Mode where
  | write | read | free
  deriving DecidableEq, Repr

/-- Where a goroutine is. -/
inductive Phase (μ S R : Type) where
  /-- between calls -/
  | idle
  /-- in `Lock`, announced -/
  | waiting (m : μ)
  /-- past the lock, with this left to do -/
  | inside (m : μ) (p : Prog S R)

/-- A goroutine: the calls it is yet to make, where it is, and what its calls returned. -/
structure Thread (μ S R : Type) where
  todo : List μ
  phase : Phase μ S R
  res : List (μ × R)

/-- The whole system. `pending`: some `Lock` is announced or held. `order` records who acquired the
lock and when; no step reads it. -/
structure Conf (n : Nat) (μ S R : Type) where
  mat : S
  pending : Bool
  readers : Nat
  thr : Fin n → Thread μ S R
  order : List (Fin n × μ)

variable {n : Nat} {μ S R : Type}

/-- The lock after the call leaves (the deferred `Unlock` or `RUnlock`). -/
def Conf.release (c : Conf n μ S R) : Mode → Conf n μ S R
  | .write => { c with pending := false }
  | .read => { c with readers := c.readers - 1 }
  | .free => c

/-- One goroutine changed. -/
def Conf.put (c : Conf n μ S R) (i : Fin n) (t : Thread μ S R) : Conf n μ S R :=
  { c with thr := Function.update c.thr i t }

/-- One step. -/
inductive Step (mode : μ → Mode) (body : μ → Prog S R) : Conf n μ S R → Conf n μ S R → Prop
  /-- `Lock`, first half -/
  | announce {c : Conf n μ S R} (i : Fin n) {m rest res} : c.thr i = ⟨m :: rest, .idle, res⟩ → mode m = .write →
      c.pending = false →
      Step mode body c ({ c with pending := true }.put i ⟨rest, .waiting m, res⟩)
  /-- `Lock`, second half -/
  | lock {c : Conf n μ S R} (i : Fin n) {m rest res} : c.thr i = ⟨rest, .waiting m, res⟩ → c.readers = 0 →
      Step mode body c ({ c with order := c.order ++ [(i, m)] }.put i ⟨rest, .inside m (body m), res⟩)
  /-- `RLock` -/
  | rlock {c : Conf n μ S R} (i : Fin n) {m rest res} : c.thr i = ⟨m :: rest, .idle, res⟩ → mode m = .read →
      c.pending = false →
      Step mode body c ({ c with readers := c.readers + 1, order := c.order ++ [(i, m)] }.put i
        ⟨rest, .inside m (body m), res⟩)
  /-- a method without lock -/
  | enter {c : Conf n μ S R} (i : Fin n) {m rest res} : c.thr i = ⟨m :: rest, .idle, res⟩ → mode m = .free →
      Step mode body c (c.put i ⟨rest, .inside m (body m), res⟩)
  /-- an access to the wrapped matrix -/
  | act {c : Conf n μ S R} (i : Fin n) {m rest res f k} : c.thr i = ⟨rest, .inside m (.act f k), res⟩ →
      Step mode body c ({ c with mat := f c.mat }.put i ⟨rest, .inside m (k c.mat), res⟩)
  /-- the return -/
  | leave {c : Conf n μ S R} (i : Fin n) {m rest res r} : c.thr i = ⟨rest, .inside m (.done r), res⟩ →
      Step mode body c ((c.release (mode m)).put i ⟨rest, .idle, res ++ [(m, r)]⟩)

/-- Before any call. -/
def Conf.init (s : S) (calls : Fin n → List μ) : Conf n μ S R :=
  { mat := s, pending := false, readers := 0, thr := fun i => ⟨calls i, .idle, []⟩, order := [] }

/-- An execution. -/
inductive Steps (mode : μ → Mode) (body : μ → Prog S R) : Conf n μ S R → Conf n μ S R → Prop
  | refl {c} : Steps mode body c c
  | tail {c c' c''} : Steps mode body c c' → Step mode body c' c'' → Steps mode body c c''

/-! ## The methods -/

variable {T : Type}

/-- The methods of `MutexMatrix`; and `mapNext`: the method `Map` of the iterator that the method
`Map` returns (map.go:10-13), which writes to the wrapped matrix and takes no lock. -/
inductive Method (T : Type) where
  | columns | rows | update (r c : Int) (f : T → T) | at' (r c : Int) | set (r c : Int) (value : T)
  | columnsAt (c : Int) | rowsAt (r : Int) | rowsAtToArray (r : Int) | copy
  | scalar (alpha : T) | multiply (m : Mat T) | add (m : Mat T) | subtract (m : Mat T)
  | negative | transpose | equal (m : Mat T) | notEqual (m : Mat T)
  | size | values | clear | enumerate | map | element (r c : Int)
  | mapNext (it : Mat.Iter) (f : Nat → Nat → T → T)

/-- mutexMatrix.go:28-35, 158-165 and 176-183 take no lock; 38-43 and 54-59 `Lock`; the others
`RLock`: 46-51, 62-155, 168-173 (`Clear`), 186-191. -/
def Method.mode : Method T → Mode
  | .columns | .rows | .size | .values | .enumerate | .map | .mapNext _ _ => .free
  | .update _ _ _ | .set _ _ _ => .write
  | _ => .read

/-- What a method returns. A result that is a new matrix is given by its state. -/
inductive Val (T : Type) where
  | unit | num (v : T) | bool (b : Bool) | nat (k : Nat) | int (k : Int) | vec (v : Vec T) | arr (l : List T) | mat (m : Mat T)
  | iter (it : Mat.Iter)
  deriving DecidableEq

variable [GoNum T]

/-- The result of a method of the package that returns a matrix. -/
def matVal : Res T Ref → Out (Val T)
  | .ok p w => .ok (.mat (w.heap p))
  | .panic _ => .panic
  | .hang _ => .hang

/-- The result of a method of the package that returns a boolean. -/
def boolVal : Res T Bool → Out (Val T)
  | .ok b _ => .ok (.bool b)
  | .panic _ => .panic
  | .hang _ => .hang

/-- The outcome of a method that returns the new state; the old one if it panics (in a reachable
state all panics come before the first write). -/
def effect {α : Type} (s : Mat T) (val : α → Val T) : Out (α × Mat T) → Out (Val T) × Mat T
  | .ok (a, s') => (.ok (val a), s')
  | .panic => (.panic, s)
  | .hang => (.hang, s)

/-- What a method does when called alone, on the wrapped matrix: the method of the same name. The
methods that make a new matrix, and those that take one, are run on objects 0 (the wrapped matrix)
and 1 (the argument); `gas` bounds their iterator loops. -/
def Method.alone (gas : Nat) : Method T → Mat T → Out (Val T) × Mat T
  | .columns, s => (.ok (.nat s.cols), s)
  | .rows, s => (.ok (.nat s.rows), s)
  | .update r c f, s => effect s (fun _ => .unit) (do let s' ← s.update r c f; .ok ((), s'))
  | .at' r c, s => effect s .num (s.at' r c)
  | .set r c v, s => effect s (fun _ => .unit) (do let s' ← s.set r c v; .ok ((), s'))
  | .columnsAt c, s => effect s .vec (do let v ← s.columnsAt c; .ok (v, s))
  | .rowsAt r, s => effect s .vec (do let v ← s.rowsAt r; .ok (v, s))
  | .rowsAtToArray r, s => effect s .arr (do let v ← s.rowsAtToArray r; .ok (v, s))
  | .copy, s => effect s .mat (do let v ← s.copy; .ok (v, s))
  | .scalar alpha, s =>
    let x := Meth.scalar 0 alpha (World.of gas [s])
    (matVal x, x.world.heap 0)
  | .multiply m, s =>
    let x := Meth.multiply 0 1 (World.of gas [s, m])
    (matVal x, x.world.heap 0)
  | .add m, s =>
    let x := Meth.add 0 1 (World.of gas [s, m])
    (matVal x, x.world.heap 0)
  | .subtract m, s =>
    let x := Meth.subtract 0 1 (World.of gas [s, m])
    (matVal x, x.world.heap 0)
  | .negative, s =>
    let x := Meth.negative 0 (World.of gas [s])
    (matVal x, x.world.heap 0)
  | .transpose, s =>
    let x := Meth.transpose 0 (World.of gas [s])
    (matVal x, x.world.heap 0)
  | .equal m, s =>
    let x := Meth.equal 0 1 (World.of gas [s, m])
    (boolVal x, x.world.heap 0)
  | .notEqual m, s =>
    let x := Meth.notEqual 0 1 (World.of gas [s, m])
    (boolVal x, x.world.heap 0)
  | .size, s => (.ok (.int s.size), s)
  | .values, s => (.ok (.nat s.nvalues), s)
  | .clear, s => (.ok .unit, s.clear)
  | .enumerate, s => (.ok (.iter s.iter), s)
  | .map, s => (.ok (.iter s.iter), s)
  | .element r c, s => effect s .bool (s.element r c)
  | .mapNext it f, s => effect s .iter (do
      let (it', r, c, v) ← s.step it
      let s' ← s.put it' (f r c v)
      .ok (it', s'))

/-! ## Calls as sequences of accesses

The methods `At`, `Set`, `Update`, `Element` and `Clear` of `CSRMatrix` and `CSCMatrix`, access by access:
one step reads or writes one field, or one element of one field. -/

/-- A read of the CSR matrix: a run-time panic ends the call. -/
def rdCSR {α : Type} (get : CSR T → Out α) (k : α → Prog (Mat T) (Out (Val T))) : Prog (Mat T) (Out (Val T)) :=
  .act id (fun s => match s with
    | .csr s => match get s with
      | .ok a => k a
      | .panic => .done .panic
      | .hang => .done .hang
    | _ => .done .panic)

/-- A write to the CSR matrix: a run-time panic ends the call and writes nothing. -/
def wrCSR (put : CSR T → Out (CSR T)) (k : Prog (Mat T) (Out (Val T))) : Prog (Mat T) (Out (Val T)) :=
  .act
    (fun s => match s with
      | .csr s => match put s with
        | .ok s' => .csr s'
        | _ => .csr s
      | s => s)
    (fun s => match s with
      | .csr s => match put s with
        | .ok _ => k
        | .panic => .done .panic
        | .hang => .done .hang
      | _ => .done .panic)

/-- csrMatrix.go:184-186 and 195-197: `rowStart[i]++` or `rowStart[i]--`, one at a time. -/
def bumpProg (f : Nat → Nat) (k : Prog (Mat T) (Out (Val T))) : (n i : Nat) → Prog (Mat T) (Out (Val T))
  | 0, _ => k
  | n + 1, i => wrCSR (fun s => do
      let x ← idx s.rowStart i
      let l ← setIdx s.rowStart i (f x)
      .ok { s with rowStart := l }) (bumpProg f k n (i + 1))

/-- csrMatrix.go:176-189 `insert`. -/
def insertProg (sr pointer r c : Nat) (value : T) (k : Prog (Mat T) (Out (Val T))) : Prog (Mat T) (Out (Val T)) :=
  if isZero value then k
  else
    wrCSR (fun s => do let l ← splice s.cols pointer c; .ok { s with cols := l }) <|
    wrCSR (fun s => do let l ← splice s.values pointer value; .ok { s with values := l }) <|
    bumpProg (· + 1) k (sr - r) (r + 1)

/-- csrMatrix.go:191-198 `remove`. -/
def removeProg (sr pointer r : Nat) (k : Prog (Mat T) (Out (Val T))) : Prog (Mat T) (Out (Val T)) :=
  wrCSR (fun s => do let l ← unsplice s.cols pointer; .ok { s with cols := l }) <|
  wrCSR (fun s => do let l ← unsplice s.values pointer; .ok { s with values := l }) <|
  bumpProg (· - 1) k (sr - r) (r + 1)

/-- csrMatrix.go:213-224, the loop of `columnIndex`. -/
def searchProg (c : Nat) (k : Nat → Nat → Prog (Mat T) (Out (Val T))) : (fuel s e : Nat) → Prog (Mat T) (Out (Val T))
  | 0, s, e => if s < e then .done .hang else k s e
  | fuel + 1, s, e =>
    if s < e then
      rdCSR (fun m => idx m.cols ((s + e) / 2)) fun x =>
        if x > c then searchProg c k fuel s ((s + e) / 2)
        else if x < c then searchProg c k fuel ((s + e) / 2 + 1) e
        else k ((s + e) / 2) e
    else k s e

/-- csrMatrix.go:200-225 `columnIndex`. -/
def indexProg (r c : Nat) (k : Nat → Nat → Prog (Mat T) (Out (Val T))) : Prog (Mat T) (Out (Val T)) :=
  rdCSR (fun m => idx m.rowStart r) fun start =>
  rdCSR (fun m => idx m.rowStart (r + 1)) fun stop =>
    if start = stop then k start stop
    else rdCSR (fun m => idxPred m.cols stop) fun last =>
      if c > last then k stop stop
      else searchProg c k (stop - start) start stop

/-- csrMatrix.go:84-95. -/
def storeProg {β : Type} (sr r c : Nat) (f : T → β × T) (val : β → Val T) (pStart pEnd : Nat) :
    Prog (Mat T) (Out (Val T)) :=
  let miss := insertProg sr pStart r c (f 0).2 (.done (.ok (val (f 0).1)))
  if pStart < pEnd then
    rdCSR (fun m => idx m.cols pStart) fun x =>
      if x = c then
        rdCSR (fun m => idx m.values pStart) fun old =>
          if isZero (f old).2 then removeProg sr pStart r (.done (.ok (val (f old).1)))
          else wrCSR (fun m => do let l ← setIdx m.values pStart (f old).2; .ok { m with values := l })
            (.done (.ok (val (f old).1)))
      else miss
  else miss

/-- csrMatrix.go:69-96 `Update`. `s.r` and `s.c` are never written. -/
def updateProg {β : Type} (r c : Int) (f : T → β × T) (val : β → Val T) : Prog (Mat T) (Out (Val T)) :=
  rdCSR (fun m => .ok (m.r, m.c)) fun (sr, sc) =>
    if inRange r sr then
      if inRange c sc then indexProg r.toNat c.toNat (storeProg sr r.toNat c.toNat f val)
      else .done .panic
    else .done .panic

/-- csrMatrix.go:308-312 `Clear`. -/
def clearProg : Prog (Mat T) (Out (Val T)) :=
  wrCSR (fun s => .ok { s with values := [] }) <|
  wrCSR (fun s => .ok { s with cols := [] }) <|
  wrCSR (fun s => .ok { s with rowStart := List.replicate (s.r + 1) 0 }) <|
  .done (.ok .unit)

/-! The same for `CSCMatrix`. -/

/-- A read of the CSC matrix: a run-time panic ends the call. -/
def rdCSC {α : Type} (get : CSC T → Out α) (k : α → Prog (Mat T) (Out (Val T))) : Prog (Mat T) (Out (Val T)) :=
  .act id (fun s => match s with
    | .csc s => match get s with
      | .ok a => k a
      | .panic => .done .panic
      | .hang => .done .hang
    | _ => .done .panic)

/-- A write to the CSC matrix: a run-time panic ends the call and writes nothing. -/
def wrCSC (put : CSC T → Out (CSC T)) (k : Prog (Mat T) (Out (Val T))) : Prog (Mat T) (Out (Val T)) :=
  .act
    (fun s => match s with
      | .csc s => match put s with
        | .ok s' => .csc s'
        | _ => .csc s
      | s => s)
    (fun s => match s with
      | .csc s => match put s with
        | .ok _ => k
        | .panic => .done .panic
        | .hang => .done .hang
      | _ => .done .panic)

/-- cscMatrix.go:191-193 and 202-204: `colStart[i]++` or `colStart[i]--`, one at a time. -/
def bumpProgC (f : Nat → Nat) (k : Prog (Mat T) (Out (Val T))) : (n i : Nat) → Prog (Mat T) (Out (Val T))
  | 0, _ => k
  | n + 1, i => wrCSC (fun s => do
      let x ← idx s.colStart i
      let l ← setIdx s.colStart i (f x)
      .ok { s with colStart := l }) (bumpProgC f k n (i + 1))

/-- cscMatrix.go:183-196 `insert`. -/
def insertProgC (sc pointer r c : Nat) (value : T) (k : Prog (Mat T) (Out (Val T))) : Prog (Mat T) (Out (Val T)) :=
  if isZero value then k
  else
    wrCSC (fun s => do let l ← splice s.rows pointer r; .ok { s with rows := l }) <|
    wrCSC (fun s => do let l ← splice s.values pointer value; .ok { s with values := l }) <|
    bumpProgC (· + 1) k (sc - c) (c + 1)

/-- cscMatrix.go:198-205 `remove`. -/
def removeProgC (sc pointer c : Nat) (k : Prog (Mat T) (Out (Val T))) : Prog (Mat T) (Out (Val T)) :=
  wrCSC (fun s => do let l ← unsplice s.rows pointer; .ok { s with rows := l }) <|
  wrCSC (fun s => do let l ← unsplice s.values pointer; .ok { s with values := l }) <|
  bumpProgC (· - 1) k (sc - c) (c + 1)

/-- cscMatrix.go:220-231, the loop of `rowIndex`. -/
def searchProgC (r : Nat) (k : Nat → Nat → Prog (Mat T) (Out (Val T))) : (fuel s e : Nat) → Prog (Mat T) (Out (Val T))
  | 0, s, e => if s < e then .done .hang else k s e
  | fuel + 1, s, e =>
    if s < e then
      rdCSC (fun m => idx m.rows ((s + e) / 2)) fun x =>
        if x > r then searchProgC r k fuel s ((s + e) / 2)
        else if x < r then searchProgC r k fuel ((s + e) / 2 + 1) e
        else k ((s + e) / 2) e
    else k s e

/-- cscMatrix.go:207-232 `rowIndex`. -/
def indexProgC (r c : Nat) (k : Nat → Nat → Prog (Mat T) (Out (Val T))) : Prog (Mat T) (Out (Val T)) :=
  rdCSC (fun m => idx m.colStart c) fun start =>
  rdCSC (fun m => idx m.colStart (c + 1)) fun stop =>
    if start = stop then k start stop
    else rdCSC (fun m => idxPred m.rows stop) fun last =>
      if r > last then k stop stop
      else searchProgC r k (stop - start) start stop

/-- cscMatrix.go:90-103. -/
def storeProgC {β : Type} (sc r c : Nat) (f : T → β × T) (val : β → Val T) (pStart pEnd : Nat) :
    Prog (Mat T) (Out (Val T)) :=
  let miss := insertProgC sc pStart r c (f 0).2 (.done (.ok (val (f 0).1)))
  if pStart < pEnd then
    rdCSC (fun m => idx m.rows pStart) fun x =>
      if x = r then
        rdCSC (fun m => idx m.values pStart) fun old =>
          if isZero (f old).2 then removeProgC sc pStart c (.done (.ok (val (f old).1)))
          else wrCSC (fun m => do let l ← setIdx m.values pStart (f old).2; .ok { m with values := l })
            (.done (.ok (val (f old).1)))
      else miss
  else miss

/-- cscMatrix.go:75-104 `Update`. `s.r` and `s.c` are never written. -/
def updateProgC {β : Type} (r c : Int) (f : T → β × T) (val : β → Val T) : Prog (Mat T) (Out (Val T)) :=
  rdCSC (fun m => .ok (m.r, m.c)) fun (sr, sc) =>
    if inRange r sr then
      if inRange c sc then indexProgC r.toNat c.toNat (storeProgC sc r.toNat c.toNat f val)
      else .done .panic
    else .done .panic

/-- cscMatrix.go:318-322 `Clear`. -/
def clearProgC : Prog (Mat T) (Out (Val T)) :=
  wrCSC (fun s => .ok { s with values := [] }) <|
  wrCSC (fun s => .ok { s with rows := [] }) <|
  wrCSC (fun s => .ok { s with colStart := List.replicate (s.c + 1) 0 }) <|
  .done (.ok .unit)

/-! `Clear` of `DenseMatrix` and `SparseVector`. (That of `DenseVector`, denseVector.go:275-277, is one
access.) -/

/-- A write to the dense matrix: a run-time panic ends the call and writes nothing. -/
def wrDense (put : Dense T → Out (Dense T)) (k : Prog (Mat T) (Out (Val T))) : Prog (Mat T) (Out (Val T)) :=
  .act
    (fun s => match s with
      | .dense s => match put s with
        | .ok s' => .dense s'
        | _ => .dense s
      | s => s)
    (fun s => match s with
      | .dense s => match put s with
        | .ok _ => k
        | .panic => .done .panic
        | .hang => .done .hang
      | _ => .done .panic)

/-- denseMatrix.go:275-277: the rows from `i` on, one at a time. -/
def fillProgD : (n i : Nat) → Prog (Mat T) (Out (Val T))
  | 0, _ => .done (.ok .unit)
  | n + 1, i => wrDense (fun s => do
      let l ← setIdx s.data i (List.replicate s.c 0)
      .ok { s with data := l }) (fillProgD n (i + 1))

/-- denseMatrix.go:273-278 `Clear`: first a slice of `r` rows that are all nil. `r` is `s.r`, which is never
written. -/
def clearProgD (r : Nat) : Prog (Mat T) (Out (Val T)) :=
  wrDense (fun s => .ok { s with data := List.replicate s.r [] }) (fillProgD r 0)

/-- A write to the sparse vector. -/
def wrSVec (put : SVec T → SVec T) (k : Prog (Mat T) (Out (Val T))) : Prog (Mat T) (Out (Val T)) :=
  .act
    (fun s => match s with
      | .svec s => .svec (put s)
      | s => s)
    (fun s => match s with
      | .svec _ => k
      | _ => .done .panic)

/-- sparseVector.go:293-297 `Clear`. -/
def clearProgS : Prog (Mat T) (Out (Val T)) :=
  wrSVec (fun s => { s with values := [] }) <|
  wrSVec (fun s => { s with indices := [] }) <|
  .done (.ok .unit)

/-- The method in one access. -/
def Method.atomic (gas : Nat) (m : Method T) : Prog (Mat T) (Out (Val T)) :=
  .act (fun s => (m.alone gas s).2) (fun s => .done (m.alone gas s).1)

/-- On a CSR matrix `p`, on a CSC matrix `q`, on another `m` in one access. -/
def Method.byFormat (gas : Nat) (m : Method T) (p q : Prog (Mat T) (Out (Val T))) : Prog (Mat T) (Out (Val T)) :=
  .act id (fun s => match s with
    | .csr _ => p
    | .csc _ => q
    | _ => m.atomic gas)

/-- `Update` with a callback that delivers a result. -/
def Method.updating {β : Type} (gas : Nat) (m : Method T) (r c : Int) (f : T → β × T) (val : β → Val T) :
    Prog (Mat T) (Out (Val T)) :=
  m.byFormat gas (updateProg r c f val) (updateProgC r c f val)

/-- `Clear`, field by field and row by row. -/
def Method.clearing (gas : Nat) : Prog (Mat T) (Out (Val T)) :=
  .act id (fun s => match s with
    | .csr _ => clearProg
    | .csc _ => clearProgC
    | .dense s => clearProgD s.r
    | .dvec _ => Method.clear.atomic gas
    | .svec _ => clearProgS)

/-- The methods: `Clear` access by access, and the others named above when the wrapped matrix is a CSR or CSC
matrix. A cell of a dense matrix or a vector is looked up in one access. -/
def Method.fine (gas : Nat) : Method T → Prog (Mat T) (Out (Val T))
  | .at' r c => (Method.at' r c).updating gas r c (fun v => (v, v)) .num
  | .element r c => (Method.element r c).updating gas r c (fun v => (GoNum.glt 0 v, v)) .bool
  | .set r c v => (Method.set r c v).updating gas r c (fun _ => ((), v)) (fun _ => .unit)
  | .update r c f => (Method.update r c f).updating gas r c (fun v => ((), f v)) (fun _ => .unit)
  | .clear => Method.clearing gas
  | m => m.atomic gas

end Mutex
end GB
