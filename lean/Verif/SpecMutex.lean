import Verif.Model.Mutex
import Verif.SpecMat

/-!
# Specification vocabulary for concurrent calls
-/

namespace GB
namespace Mutex

variable {n : Nat} {μ S R : Type}

/-- The calls of a list made one after the other from `s`: the final state, and who got what. `f m s`
is what the call `m` returns in the state `s`, and the state it leaves. -/
def serial (f : μ → S → R × S) : S → List (Fin n × μ) → S × List (Fin n × μ × R)
  | s, [] => (s, [])
  | s, (i, m) :: l =>
    let x := f m s
    let y := serial f x.2 l
    (y.1, (i, m, x.1) :: y.2)

/-- The calls of goroutine `i` in a list, and what they returned. -/
def ofThread (i : Fin n) (l : List (Fin n × μ × R)) : List (μ × R) :=
  (l.filter (fun x => x.1 = i)).map (fun x => x.2)

/-- Goroutine `i` is past the lock in a call of `m`. -/
def Conf.Inside (c : Conf n μ S R) (i : Fin n) (m : μ) : Prop := ∃ p, (c.thr i).phase = .inside m p

/-- Every goroutine has made all its calls. -/
def Conf.Finished (c : Conf n μ S R) : Prop := ∀ i, (c.thr i).todo = [] ∧ (c.thr i).phase = .idle

/-- The call leaves the state `s` as it is, in each of its accesses. -/
def Prog.Quiet : Prog S R → S → Prop
  | .done _, _ => True
  | .act f k, s => f s = s ∧ (k s).Quiet s

/-- The call leaves every state as it is, in each of its accesses, whatever others do meanwhile. -/
def Prog.Silent : Prog S R → Prop
  | .done _ => True
  | .act f k => (∀ s, f s = s) ∧ ∀ s, (k s).Silent

variable {T : Type} [GoNum T]

/-- Calls the locks of `MutexMatrix` are right for: not `Clear`, and not the `Map` of an iterator; matrix
arguments are matrices a program can obtain. -/
def Method.Sound : Method T → Prop
  | .clear | .mapNext _ _ => False
  | .multiply m | .add m | .subtract m | .equal m | .notEqual m => Reach m
  | _ => True

/-- `body` splits the methods into accesses: alone, each has the outcome of the method; the methods
that do not change the matrix write only what is there already; those without a lock do not write. -/
structure Splits (gas : Nat) (body : Method T → Prog (Mat T) (Out (Val T))) : Prop where
  run : ∀ m : Method T, m.Sound → ∀ s, Reach s → (body m).run s = m.alone gas s
  quiet : ∀ m : Method T, m.Sound → m.mode = .read → ∀ s, Reach s → (body m).Quiet s
  silent : ∀ m : Method T, m.Sound → m.mode = .free → (body m).Silent

end Mutex
end GB
