# Formal model of rossmerr/graphblas — design

## 1. Shape of the model

Everything is Lean 4; the model is a set of total computable functions.

* `Out α` — outcome of a Go call on values: `ok a`, `panic` (an explicit `log.Panicf`
  or a run-time index/division panic), `hang` (the loop does not terminate).
* `GoNum T` — the operations the Go code uses on an element type (`==`, `<`, `+`, `-`, `*`,
  unary `-`, `/`, zero value, the printed type name).  No laws.  Storage theorems use only
  `0 == 0` (true of every Go number type, IEEE floats included: NaN and -0 are allowed values).
  Order/arithmetic theorems use `GoLawful` (`==` is equality) and `GoRing` (commutative ring);
  both are instantiated by every Go integer type at its true width, with wrap-around
  (`SInt w`, `USInt w` over `BitVec w`), and by `ℤ`/`ℚ` as exact arithmetic.
* One Lean structure and one Lean function per Go type and method: `CSR`, `CSC`, `Dense`,
  `DVec`, `SVec`; iterators are explicit state machines with the same fields as in Go.
* `Mat T` — sum of the five formats: the dynamic type behind the Go interface `Matrix[T]`.
* `World T` — heap (`Ref → Mat T`), number of context polls left before cancellation
  (`Option Nat`), sparse registry, loop gas.  Operators are `World → Res`, reading and writing
  objects through references, so aliasing (`matrix == s`) and mutation during iteration are real.
  A panic keeps the world it happened in.
* Goroutine code (`Reduce`, `MutexMatrix`, Strassen's workers) — transition systems over explicit
  steps, all interleavings.

Modelling decisions: see section 4.

## 2. How each property is modelled and proved

| id | modelled as | proof |
|----|-------------|-------|
| C01,C02 | `CSR`/`CSC` with slices as lists, `Op` histories, abstract `Nat→Nat→T` | representation relation to a list of sorted rows; binary search correctness; induction on history. CSC by an isomorphism with CSR of the mirrored structure |
| C03 | `Dense`, `DVec` | invariant + induction on history |
| C04 | `SVec` with the exact `index` | refuted by a concrete history; `_partial` under the exact condition under which lookup works; exact characterisation of what `AtVec` returns |
| C05 | count over all cells | from the representation |
| C06 | API with `Int` indices | iff theorems |
| C07 | `At`/`Element` return the new state | state unchanged under the reachable invariant |
| C08 | `fromArray` folds of `Set` | induction |
| C09 | iterator state machines | `IterAt` relation: iterator + remaining list; run-to-end theorem |
| C10 | extraction functions | induction, sorted insertion into `SVec` |
| C11 | a second model at the level of slice headers and backing arrays (`Model/Share.lean`), refined by the value model | simulation: objects in pairwise disjoint arrays; per-object call histories |
| C12 | direct | |
| C13 | corollary of C01–C03; for floats equal up to the sign of zero without `Update` | with `Update` false for floats (`C13_refuted_float`) |
| C14 | `Map` driven to the end | `_partial` for f zero at most on the last non-zero cell of a row (CSR) or column (CSC); refuted otherwise; right for every f iff no line has two non-zeros; exact for sparse vectors |
| C15–C21, C24–C26 | heap operators | loop lemma: iterator loop = fold over the entry list; cell-wise induction |
| C22, C23, C33, C48 | heap operators with any mask and any cancellation point (C33 for sparse vectors as outputs: `Props/CancelledSparse.lean`) | invariants of the loop; for sparse vectors the prefix of the calls (C95) and the exact reads (C04_iff) |
| C27, C37, C38 | `Equal` loop with early exit | entry list characterisation, pigeonhole on counts |
| C28, C29 | UTF-8 encoder on code points, strings as byte lists | order-preservation of UTF-8; exchange-sort induction |
| C30, C34 (reduce) | transition system producer/reducer/consumer | invariant over reachable states, progress, measure; stuck-state invariant for the cancelled case |
| C31, C32 | fold over enumeration | permutation-invariance of sums |
| C34 (scalar) | gas-indexed loop | for every gas the loop is still running |
| C35 | RW-lock transition system over any program list | invariant; refutation trace for `Clear` |
| C36 | `Search` in the world model | level-set invariant: the frontier holds the sums over shortest walks, in any ring |
| C39 | `Reduced` over a field | loop invariants |
| C40, C41 | recursion with 7 worker results, any arrival permutation | ring identities, induction on recursion depth |
| C42–C45, C49 | direct | |
| C46 | heap operators with equal references | dedicated lemmas / refutation |
| C47 | the same array-level model, with the caller's own arrays and assignments to them | simulation / refutation |
| C50 | sparse vector iterator | as C04, C09 |
| C51 | the transition system of C30 | invariant; refutation for a rejected mask |
| C52 | heap operators on reachable objects (`Lemmas/Safe*.lean`, `Props/Total.lean`) | total-correctness triples: every step keeps the representation invariant and reachability |
| C54 | the same operators; exact final contents, and iff conditions for C18–C20, C27 (`Props/Exact.lean`) | from the loop lemmas; uniqueness of the result |
| C55 | the array-level model, with extraction and `RawMatrix` (`Props/Handout.lean`) | simulation: what is returned is made of fresh arrays |
| C56, C57 | two runs side by side (`Lemmas/Rel.lean`, `Props/Local.lean`) | relational calculus: same outcome, related states |
| C58–C62, C65 | the same operators over IEEE floats (`Model/Float.lean`, `SpecFloat.lean`, `Lemmas/Float.lean`, `Props/Float.lean`, `Props/FloatSum.lean`, `Props/FloatScalar.lean`, `Props/FloatSparse.lean`) | rounding lemmas, induction over the sums; witnesses evaluated in the kernel |
| C63, C64 | several locks, nested calls (`Model/Locks.lean`, `SpecLocks.lean`, `Props/Locks.lean`) | counting invariants; a chain of busy locks contradicts the order; reachable stuck states |
| C66 | programs that are expressions over dense matrices (`SpecExpr.lean`, `Props/Expr.lean`) | induction on the expression; the laws follow from Mathlib's matrices |
| C67, C68 | constructors, access and `ReSize` with arguments of any sign (`Model/Signed.lean`, `Props/Signed.lean`) | case analysis; the signed model refines to the natural one |
| C69 | `FromArray` on arrays with rows of different lengths (`Props/Ragged.lean`) | loop invariants up to the first short row |
| C70 | `Reduced` as a decision procedure for row equivalence and as a solver (`Props/Solve.lean`) | uniqueness of the reduced row echelon form, run through C39 and C27; Mathlib's matrix inverse |
| C71 | `BubbleRow`, `BubbleColumns` give a normal form (`Props/SortCanon.lean`) | two sorted permutations of one list are equal |
| C72 | distances and numbers of shortest walks from `Search` (`Props/Distance.lean`) | C36; bijection between sums of 0/1 weights and lists of vertices |
| C73 | nil interfaces as arguments (`Model/Nil.lean`, `Props/Nil.lean`) | case analysis on which argument is used first |
| C74, C75 | `Size()` with 64-bit overflow; `String` and the comparisons on every format (`Props/Size.lean`) | residues; two lists in one strict order with the same members are equal |
| C76 | An iterator over a matrix that is written to: sessions of `Next`, `Map` and `Set` (`SpecLive.lean`, `Props/LiveIter.lean`) | simulation: writes that keep the pattern preserve the iterator's position; counting of deliveries |
| C77 | `Transpose` of a square matrix into itself, exactly when it is right (`Props/InPlace.lean`) | loop induction over an iterator on the matrix being written; order of enumeration; entries are never removed |
| C78 | operators in several goroutines (`Model/Steps.lean`, `Lemmas/Steps.lean`, `Lemmas/Conc.lean`, `Props/Conc.lean`) | stepwise operators simulate the big-step ones; invariant: each goroutine is where it would be alone; a serial run is one of the schedules |
| C79 | the same expressions over CSR, CSC and dense matrices (`SpecExprAny.lean`, `Props/ExprAny.lean`) | induction on the expression with the exact results of C17–C20 |
| C80 | `Equal` across formats (`Props/EqualRel.lean`) | case analysis over the storage classes from the exact answers of C27 |
| C81 | reductions with a caller's operation (`Props/ReduceAny.lean`) | the enumeration as an explicit list (`Lemmas/Ordered.lean`); necessity from one- and two-row arrays |
| C82 | order of floats, `Minimum`, `Maximum`, `ReduceMatrixToVector` on floats (`Props/FloatOrder.lean`) | case analysis on the data of a float; induction on the column |
| C83 | sums of floats across formats (`Props/FloatReduce.lean`) | a running sum that begins with +0 never is -0; the folds of C81 |
| C84 | overflow and underflow of floats (`Props/FloatLimits.lean`) | where rounding to nearest gives infinity or zero; the limits of the two formats as numerals |
| C85 | type and dimensions of an object (`Props/Dims.lean`) | a relation closed under the methods is kept by every program of the monad, by every schedule of `Conf` and by every execution of `Mutex` |
| C86 | `MutexMatrix` against a table (`SpecTable.lean`, `Props/MutexTable.lean`) | the serial order of C35 replayed on a table of cells; one goroutine: an invariant on the calls that have returned |
| C87 | products on machines that fuse `x*y + z` (`Model/Fused.lean`, `Lemmas/Fused.lean`, `Props/Fused.lean`) | `multiply` with the accumulating statement left open; one step, fused or not, has the same error bound; induction over the sum |
| C88 | data races in a `MutexMatrix` (`SpecRace.lean`, `Lemmas/Race.lean`, `Lemmas/Race2.lean`, `Props/Race.lean`) | what an access reads and writes is defined by its effect on all matrices of the type and dimensions; the trace of `At` access by access, CSC as the mirror image of CSR (`Lemmas/MutexCSC.lean`); invariant over executions |
| C89 | a shared matrix without a lock (`Lemmas/Readers.lean`, `Props/Readers.lean`) | the transition system of C35 with no lock; invariant: nothing changes and what is left of a call delivers the right result |
| C90 | calls of `Clear` that overlap (`SpecClear.lean`, `Lemmas/Clear.lean`, `Props/Clear.lean`) | the transition system of C35; invariant: some call of `Clear` inside will leave the state the acquired calls explain; each access of a `Clear` keeps that true of another call or makes it true of its own |
| C91 | the operators with an empty sparse vector as output (`Lemmas/IntoSVec.lean`, `Props/IntoSVec.lean`) | the positions written rise (the order of `Enumerate`, or the row loop), and writing above everything stored appends |
| C92 | the arithmetic of `MutexMatrix` against a table (`SpecTable.lean`, `Lemmas/MutexArith.lean`, `Props/MutexArith.lean`) | the serial order of C35 replayed on a table, the single calls from C16 to C20 and C27 |
| C93 | the moment at which a cancelled operation stops (`SpecLook.lean`, `Lemmas/Look*.lean`, `Props/Look.lean`) | the stepwise programs: what they do when told that the context is cancelled, what they write between two looks, how often they look |
| C94 | the operators as lists of `Set` calls on the output (`SpecReplay.lean`, `Lemmas/Replay*.lean`, `Props/Replay.lean`) | each loop body, from any contents of the output, does what its part of the list does (`Follows`), composed over the loops |
| C95, C96 | the same lists cut off at a look at the context; repeated calls (`SpecRetry.lean`, `Lemmas/Cancelled.lean`, `Lemmas/Retry.lean`, `Lemmas/RetryNeg.lean`, `Props/Cancelled.lean`) | `Follows` for every context at once, over lists of calls and looks; a list of writes after a prefix of itself makes the same table; for C96 exactly, the lists of the calls one after the other, and how often each cell occurs in them |
| C97 | comparisons and a context that is cancelled (`Lemmas/CancelCompare.lean`, `Props/CancelCompare.lean`) | the loops of `Equal` and `String` by induction over what `Enumerate` delivers, the looks that are left included; a prefix of a string is not above it |
| C98 | interfaces that hold a nil pointer (`Model/NilPtr.lean`, `Props/NilPtr.lean`) | the checks of the operators are steps without effect; the calls without nil pointers are those of C73 |
| C99 | in-place operators whose results are zero (`Props/InPlaceZero.lean`) | the iterator of a compressed matrix looks each line up anew, so the removal of the last entry of a line does it no harm (`Lemmas/RowEnd.lean`); after any other removal a one-line iterator expects more entries than there are (`Lemmas/LateIter.lean`) |
| C100 | an object does not remember how it came about (`Props/Canonical.lean`) | the invariant makes the stored form canonical: a compressed matrix or a dense object is determined by its type, its shape and the answers of `At`; a sparse vector by what its iterator delivers |
| C101 | masks that are changed during the call (`Props/Amid.lean`, `Props/AmidSum.lean`, model `Model/Amid.lean`) | the stepwise operators run while the mask is `μ t` at the moment `t`, for any `μ`; a program that asks about every cell at most once does what it does with the mask made of the answers (`Lemmas/Amid.lean`: `Does`, a judgement closed under sequencing and loops) |
| C102 | powers of a matrix count walks (`Props/Power.lean`) | powers by C66, sums over walks by `walkSum_pow`, numbers of walks by `walkSum_paths`; a walk of `n` edges on `n` vertices repeats a vertex (`Lemmas/Power.lean`) |
| C103 | masks of any type (`Props/AnyMask.lean`) | `Mask.given` in the model; C56 for the comparison, C54 for predicates and complements |
| C104 | panics and memory (`Props/Recover.lean`) | the simulation of C11 for success; the index check for failure; induction over programs that recover |
| C105 | `Apply` with a function that remembers and panics (`Model/Caller.lean`, `Props/Caller.lean`) | induction over the entries the iterator delivers; in place the entries not yet visited are still the old ones |
| C106 | the reductions with an operation that remembers and panics, and a mask that panics (`Model/CallerReduce.lean`, `Props/CallerReduce.lean`) | three goroutines, an invariant saying that what is left to do continues to the plain loop's outcome, a measure that every step lowers |
| C107 | `Update` with a function that uses, or writes, the matrix itself, panics or does not return (`Model/Reenter.lean`, `Props/Reenter.lean`) | the look-up and the write as two steps with the function between them; the position looked up is the number of non-zero cells before (C53); writing at two different positions cannot agree for two values |
| C108 | `Search` with a predicate that writes the vector or the graph, panics or does not return (`Model/Steer.lean`, `SpecSteer.lean`, `Props/Steer.lean`) | an inductive relation says how a search with so many rounds to go may end; induction on the rounds, with the state the predicate left in place of the one it was given; erasing vertices is deleting the edges into them |
| C109 | `Search` with a context that is cancelled before or during it (`Props/SearchCut.lean`) | each multiplication and addition is cut short or is the uncancelled one (C93); from the first that is cut short on, no cell changes; induction on the rounds with these two phases |
| C110 | `Map` with functions that use the matrix, panic or do not return (`Model/MapBy.lean`, `SpecMapBy.lean`, `Props/MapBy.lean`) | the loop is a loop of `At` and `Set` over the stored cells; any two matrices with the same stored cells are joined by `Set` calls that move no entry, so the iterator cannot tell them apart; `_partial` for functions that keep the stored cells, or answer zero at the end of a line (the iterator's state is then described from the lines alone, `Lemmas/MapByEnds.lean`); refuted otherwise |
| C111 | `Search` with a predicate that cancels its context (`Props/Quit.lean`, model of C108) | two phases: exact levels up to the round in which the predicate cancels (C108), and only zero vectors after it (C109) |
| C21, C32, C43, C44, C46, C50, exactly when | (`Props/Iff.lean`, `Props/AliasIff.lean`, `Props/SparseEnum.lean`) | the final contents are determined; strong induction over the rows overwritten; invariant of the list of stored pairs |
| C53 | `updateRP`/`setRP` results (`Props/Pointer.lean`) | enumeration split at the cell |

## 3. Trusted base

Lean 4.33.0 kernel; axioms `propext`, `Classical.choice`, `Quot.sound` (as reported by
`#print axioms`); Mathlib definitions used in statements (`CommRing`, `Finset.sum`, `List.Perm`, ...);
the reading of the Go source recorded in the doc comment of each model definition.
No code of the repository is executed.

## 4. What is and is not modelled

Modelled, function by function, with the Go lines in each comment: `csrMatrix.go`, `cscMatrix.go`,
`denseMatrix.go`, `denseVector.go`, `sparseVector.go`, `operators.go`, `mask.go`, `default.go`,
`context.go`, `matrixRegistry.go`, `mutexMatrix.go`, `binaryop/`, `unaryop/`, `operators/`,
`breadthfirst/`, `sort/`, `math/symmetric`, `math/skewsymmetric`, `math/reduced`, `math/strassen`.
`centrality/`, `clustering/` and `shortestPath/` contain package clauses only.

General:

* Numbers. Integer types are `BitVec w`, wrap-around included. `float32` and `float64` are
  modelled as IEEE 754 prescribes (`Model/Float.lean`: the exact rational result rounded to nearest, ties
  to even, with infinities, signed zeros and one NaN) and are the subject of C58–C62, C65 and C82–C84; there no two operations
  are fused; machines that fuse `x*y + z`, as the Go specification allows, are the subject of C87 (`Model/Fused.lean`). Storage theorems hold for any
  `==` with `0 == 0` (NaN and -0 included); the other arithmetic theorems hold over commutative rings or
  exact fields, with `ℚ` under the name `float64` (exact arithmetic). `ℤ` under the name `int` is used for
  concrete cases.
* Indices passed by the caller are `Int`; internal indices and dimensions are `Nat`. Negative
  dimensions (`NewCSRMatrix(-1, 2)`) and negative sizes of `ReSize` are in `Model/Signed.lean` (C67, C68), which
  agrees with the rest on non-negative ones. Dense matrices made from arrays that are not rectangular are the
  subject of C69 and are left out elsewhere. `nil` interfaces as matrix arguments are the subject of C73 (`Model/Nil.lean`) and are left out elsewhere; interfaces that hold a nil pointer are the subject of C98 (`Model/NilPtr.lean`).
* `int` has 64 bits. The only product of dimensions, `Size()`, wraps (C74, C75); elsewhere dimensions do not overflow.
  Running out of memory is not modelled.
* `DenseMatrix`/`DenseMatrixNumber` and `DenseVector`/`DenseVectorNumber` have the same methods and
  are one type each.
* A method that panics keeps the object as it was (`withObj`). Every panic of a reachable object comes
  before the first write, except the ones exhibited in the refutations; for the methods of C104 this is
  proved on the level of backing arrays. `Out.panic` carries no state, `Res.panic` carries the world.
* In C35 and C88 memory is sequentially consistent and an access of a CSR or CSC matrix is the read of one element or the
  assignment of one element or slice (`append` and `splice` count as one). A race in the sense of C88 is a state in which
  two conflicting accesses are next; the lock is the only synchronisation.
* `append(l[:p], append([]A{a}, l[p:]...)...)` (`splice`) panics when `p > len(l)`, as `l[p:]` does.
* A mask is nil, an `EmptyMask`, an object of the operands' element type, or any other value of the interface (`Mask.given`: its shape and its answers, where `none` is a panic). A value of the last sort answers a question alike whenever it is asked during one call, and has no negative shape.
* The function given to `Apply` is a function of its argument; functions that remember their calls or panic are the subject
  of C105 (`Model/Caller.lean`), for the operation of a reduction of C106 (`Model/CallerReduce.lean`),
  and for the function given to `Update` of C107 (`Model/Reenter.lean`), the predicate of C108 (`Model/Steer.lean`) and the function given to `Map` of C110 (`Model/MapBy.lean`).
* In `Ops.reduceScalar` a panic of the producer goroutine is a panic of the call. In Go it ends the program, as in C106; with
  masks that fit and answer (every theorem about `reduceScalar`) there is none.
* The row and column vectors inside `multiply` are fresh local objects and are kept as values.
* Loops over iterators get `gas` turns and answer `hang` when they run out. "Never returns" means:
  `hang` for every gas. "Returns" is stated with an explicit bound on the gas.
* Context: the point of cancellation is the number of polls of `ctx.Done()` that still find it
  open. Contexts of other packages are abstract values with or without a parent.
* Registry: the set of names. The map values are never used by the code.

Concurrency:

* `Reduce`: three goroutines, unbuffered channels as joint steps, any interleaving, cancellation at any
  moment. What the producer sends is computed from the state of the program.
* Strassen: a tree of calls. A stretch between two synchronisations is one step, since the workers
  share nothing but read-only operands. Cancellation is chosen anew for every stretch. A worker that
  panics stays as a stuck child (Go would end the program).
* `*MutexMatrix` satisfies `Mask` but neither `MatrixLogical` nor `Matrix` (no `CopyLogical`; `Copy` returns a
  `MatrixLogical`), so the compiler rejects it as an operand, as an output and as the matrix of another
  `MutexMatrix`. Calls that nest through an argument (C63, C64) need a type of the caller that embeds it and adds
  the two methods; calls that nest through a callback of `Update` do not.
* `MutexMatrix`: one step is one access to the lock or to a field (or one element of a field) of the
  wrapped matrix. `sync.RWMutex` is its documented behaviour. Memory is sequentially consistent.
  `Model/Locks.lean` has several locks and nested calls, and leaves out what the calls do to the matrices.
  A call that panics unlocks and its goroutine goes on.
* Operators in goroutines of their own (C78, `Model/Steps.lean`): a method call reads its object at one moment and
  stores it at a later one. The accesses to memory inside a call are not interleaved; Go's race detector would report
  `At` on a shared compressed matrix, because it stores what it read (csrMatrix.go:89), but the value stored is the one
  that is there. A panic ends its own goroutine only; in Go an unrecovered one ends the program.

Backing arrays (`Model/Share.lean`):

* Three stores (numbers, integers, row headers) share one address counter. A slice is array, offset,
  length. `append` writes in place when the array has room, otherwise it allocates; the spare
  capacity is an arbitrary function. A nil slice is a fresh empty array.
* Searches and reads are taken from the value model, applied to the present contents.
* A panicking call ends the program. The array of `RowsAtToArray` is observed through a dense vector
  made of it with `NewDenseVectorFromArray`, which keeps the array.

Others: `strings.Builder.WriteRune` and `<` on strings are taken from the language specification
(UTF-8, U+FFFD for invalid code points, bytewise order); `Grow` panics on a negative number and has no other effect. The predicate of the breadth-first search
may depend on everything it has seen; it does not write to the matrices of the search. The pivot
search of `Reduced` has its own gas.

Replay of the repository's tests (`Conformance/Upstream.lean`): every test table of `*_test.go` (benchmarks and the
no-op method calls of `operators_test.go` apart) is run on the model with IEEE doubles as elements, and the model gives
every answer the Go tests ask for. This is a check of the transcription, not a proof of any property.
`TestVector_Subtract` passes for the sparse vector although the difference is wrong; the file shows why.

## 5. Reading the theorems

Property theorems are in `lean/Verif/Props/`, specification vocabulary in `lean/Verif/Spec*.lean`,
helper lemmas in `lean/Verif/Lemmas/`. A name ending in `_partial` proves the statement under an extra
hypothesis; the accompanying `_refuted` theorem gives a concrete program on which the full
statement fails. Concrete cases are evaluated by the kernel (`rfl`, `decide +kernel`, `kernel_rfl`); none
uses `native_decide`. Mutation tests are recorded in `seeded/LOG.jsonl`.
