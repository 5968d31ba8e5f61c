import Verif.SpecMat
import Verif.Lemmas.Mat

/-!
# Enumerating a matrix while writing to it

An iterator holds a pointer to its matrix, so a program may interleave `Next` (or `Map`) with
`Set` on the same matrix. A session is any such interleaving over one iterator.
-/

namespace GB

set_option linter.unusedSectionVars false

variable {T : Type} [GoNum T]

/-- What a program holding a matrix and one iterator over it may do. -/
inductive IAct (T : Type) where
  /-- `if it.HasNext() { it.Next() }` -/
  | next
  /-- `if it.HasNext() { it.Map(f) }` -/
  | map (f : Nat → Nat → T → T)
  /-- `m.Set(i, j, v)` -/
  | set (i j : Nat) (v : T)

/-- Run a session. The result is the matrix, the iterator, and what was delivered (to the caller of
`Next` or to the callback of `Map`), in order. -/
def Mat.session : List (IAct T) → Mat T → Mat.Iter → Out (Mat T × Mat.Iter × List (Nat × Nat × T))
  | [], m, it => .ok (m, it, [])
  | .next :: as, m, it =>
    if it.hasNext then do
      let (it', e) ← m.step it
      let (m'', it'', es) ← Mat.session as m it'
      .ok (m'', it'', e :: es)
    else Mat.session as m it
  | .map f :: as, m, it =>
    if it.hasNext then do
      let (it', e) ← m.step it
      let m' ← m.put it' (f e.1 e.2.1 e.2.2)
      let (m'', it'', es) ← Mat.session as m' it'
      .ok (m'', it'', e :: es)
    else Mat.session as m it
  | .set i j v :: as, m, it => do
    let m' ← m.set i j v
    Mat.session as m' it

/-- Coordinates of delivered entries. -/
def placesOf (es : List (Nat × Nat × T)) : List (Nat × Nat) := es.map (fun e => (e.1, e.2.1))

/-- What a session should deliver: the cells of the list, in order, each with its value at the
moment it is delivered. -/
def delivered (kp : T → T) : List (IAct T) → (Nat → Nat → T) → List (Nat × Nat) → List (Nat × Nat × T)
  | [], _, _ => []
  | .set i j v :: as, t, ps => delivered kp as (put2 t i j (kp v)) ps
  | .next :: as, t, [] => delivered kp as t []
  | .map _ :: as, t, [] => delivered kp as t []
  | .next :: as, t, p :: ps => (p.1, p.2, t p.1 p.2) :: delivered kp as t ps
  | .map f :: as, t, p :: ps =>
    (p.1, p.2, t p.1 p.2) :: delivered kp as (put2 t p.1 p.2 (f p.1 p.2 (t p.1 p.2))) ps

/-- The table at the end of a session. -/
def tableAfter (kp : T → T) : List (IAct T) → (Nat → Nat → T) → List (Nat × Nat) → (Nat → Nat → T)
  | [], t, _ => t
  | .set i j v :: as, t, ps => tableAfter kp as (put2 t i j (kp v)) ps
  | .next :: as, t, ps => tableAfter kp as t ps.tail
  | .map _ :: as, t, [] => tableAfter kp as t []
  | .map f :: as, t, p :: ps => tableAfter kp as (put2 t p.1 p.2 (f p.1 p.2 (t p.1 p.2))) ps

/-- The writes of a session are in range and, in the formats that store only non-zero entries, do
not change which cells are zero. -/
def Steady (k : Kind) (r c : Nat) (kp : T → T) : List (IAct T) → (Nat → Nat → T) → List (Nat × Nat) → Prop
  | [], _, _ => True
  | .set i j v :: as, t, ps =>
    i < r ∧ j < c ∧ (k = .dense ∨ k = .dvec ∨ isZero (t i j) = isZero v) ∧ Steady k r c kp as (put2 t i j (kp v)) ps
  | .next :: as, t, ps => Steady k r c kp as t ps.tail
  | .map _ :: as, t, [] => Steady k r c kp as t []
  | .map f :: as, t, p :: ps =>
    (k = .dense ∨ k = .dvec ∨ isZero (f p.1 p.2 (t p.1 p.2)) = false) ∧
      Steady k r c kp as (put2 t p.1 p.2 (f p.1 p.2 (t p.1 p.2))) ps

/-- No `Map` in the session. -/
def IAct.reads : IAct T → Bool
  | .map _ => false
  | _ => true

end GB
