import Verif.SpecMutex
import Verif.Lemmas.Mat

/-!
# Specification vocabulary for data races

Two accesses of different goroutines that can both come next, at least one of which writes a place in memory
that the other reads or writes. The lock is the only synchronisation there is in a `MutexMatrix`, so these are
the data races of the Go memory model: an execution with two such accesses in a row has no synchronisation
between them.
-/

namespace GB

variable {T : Type}

/-- A place in the memory of a matrix. The fields `r`, `c` and `l`, which no method writes (C85), are left out. -/
inductive Loc where
  /-- the slice of rows of a `DenseMatrix` -/
  | slices
  /-- the header of slice `a` -/
  | len (a : Nat)
  /-- element `i` of slice `a` -/
  | elem (a i : Nat)
  deriving DecidableEq, Repr

/-- The slices of a matrix. csrMatrix.go:21-27: 0 is `rowStart`, 1 `cols`, 2 `values`; cscMatrix.go:22-28: 0 is
`colStart`, 1 `rows`, 2 `values`; denseMatrix.go:16-20: `a` is `data[a]`; denseVector.go:16-19: `values`;
sparseVector.go:25-29: 0 is `indices`, 1 `values`. -/
def Mat.arrays : Mat T → List (List (Nat ⊕ T))
  | .csr s => [s.rowStart.map .inl, s.cols.map .inl, s.values.map .inr]
  | .csc s => [s.colStart.map .inl, s.rows.map .inl, s.values.map .inr]
  | .dense s => s.data.map (fun row => row.map .inr)
  | .dvec s => [s.values.map .inr]
  | .svec s => [s.indices.map .inl, s.values.map .inr]

/-- What is at a place, if it exists. -/
def Mat.look (m : Mat T) : Loc → Option (Nat ⊕ T)
  | .slices => some (.inl m.arrays.length)
  | .len a => m.arrays[a]?.map (fun l => .inl l.length)
  | .elem a i => m.arrays[a]?.bind (fun l => l[i]?)

/-- The same at every place that both have, but for `l`. -/
def Mat.AgreeOff (l : Loc) (s s' : Mat T) : Prop :=
  ∀ l' ≠ l, ∀ x ∈ s.look l', ∀ y ∈ s'.look l', x = y

namespace Mutex

variable {n : Nat} {R : Type} [GoNum T]

/-- `.act f k` writes the place `l`: on some matrix of the type and dimensions of `m` it leaves there what was not
there. -/
def Puts (m : Mat T) (f : Mat T → Mat T) (l : Loc) : Prop :=
  ∃ s, Mat.Same s m ∧ ∃ x, (f s).look l = some x ∧ s.look l ≠ some x

/-- `.act f k` reads the place `l`: what it does next, or what it leaves elsewhere, depends on what is there. -/
def Takes (m : Mat T) (f : Mat T → Mat T) (k : Mat T → Prog (Mat T) R) (l : Loc) : Prop :=
  ∃ s s', Mat.Same s m ∧ Mat.Same s' m ∧ Mat.AgreeOff l s s' ∧ (k s ≠ k s' ∨ ¬ Mat.AgreeOff l (f s) (f s'))

/-- The calls of C88: those that read or write cells, rows, columns or the whole, and those that read dimensions. -/
def Method.Direct : Method T → Prop
  | .at' _ _ | .element _ _ | .set _ _ _ | .update _ _ _ | .rowsAtToArray _ | .rowsAt _ | .columnsAt _ | .copy
  | .rows | .columns | .size => True
  | _ => False

/-- The call is `At(r, c)` or `Element(r, c)`. -/
def Method.Looks (r c : Int) (m : Method T) : Prop := m = .at' r c ∨ m = .element r c

/-- The next access of goroutine `i`, in its call of `m`. -/
def Conf.Next {μ : Type} (c : Conf n μ (Mat T) R) (i : Fin n) (m : μ) (f : Mat T → Mat T) (k : Mat T → Prog (Mat T) R) : Prop :=
  (c.thr i).phase = .inside m (.act f k)

/-- The calls `m` of `i` and `m'` of `j` race: `i` is about to write a place that `j` is about to read or write. -/
def Conf.Races {μ : Type} (c : Conf n μ (Mat T) R) (i j : Fin n) (m m' : μ) : Prop :=
  i ≠ j ∧ ∃ f k g h l, c.Next i m f k ∧ c.Next j m' g h ∧ Puts c.mat f l ∧ (Puts c.mat g l ∨ Takes c.mat g h l)

/-! `Puts` and `Takes` ask for some matrix of the type and dimensions, so an access counts as touching whatever it may touch. The
next three ask for a matrix that differs from the present one at the place in question and nowhere else: what the access touches
if it comes now. -/

/-- `.act f k`, if it comes now, writes the place `l`. -/
def PutsNow (m : Mat T) (f : Mat T → Mat T) (l : Loc) : Prop :=
  ∃ s, Mat.Same s m ∧ Mat.AgreeOff l s m ∧ ∃ x, (f s).look l = some x ∧ s.look l ≠ some x

/-- `.act f k`, if it comes now, reads the place `l`. -/
def TakesNow (m : Mat T) (f : Mat T → Mat T) (k : Mat T → Prog (Mat T) R) (l : Loc) : Prop :=
  ∃ s s', Mat.Same s m ∧ Mat.Same s' m ∧ Mat.AgreeOff l s m ∧ Mat.AgreeOff l s' m ∧
    Mat.AgreeOff l s s' ∧ (k s ≠ k s' ∨ ¬ Mat.AgreeOff l (f s) (f s'))

/-- The calls race whichever of the accesses comes first, on a place that both touch as things are. -/
def Conf.RacesNow {μ : Type} (c : Conf n μ (Mat T) R) (i j : Fin n) (m m' : μ) : Prop :=
  i ≠ j ∧ ∃ f k g h l, c.Next i m f k ∧ c.Next j m' g h ∧ PutsNow c.mat f l ∧ (PutsNow c.mat g l ∨ TakesNow c.mat g h l)

end Mutex
end GB
