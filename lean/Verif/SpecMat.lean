import Verif.Model.Mat

/-!
# Specification vocabulary: histories of calls, and the plain table they describe

A history is a list of calls. `Mat.run` performs them on a model matrix; `specRun` performs them on
a plain function `row → column → value`, which knows nothing about storage formats.
-/

namespace GB

variable {T : Type} [GoNum T]

/-- A call on a matrix. -/
inductive Op (T : Type) where
  | set (i j : Nat) (v : T)
  | update (i j : Nat) (f : T → T)
  | clear
  | read (i j : Nat)
  | element (i j : Nat)

/-- The indices of the call lie in an `r × c` table. -/
def Op.InRange (r c : Nat) : Op T → Prop
  | .set i j _ => i < r ∧ j < c
  | .update i j _ => i < r ∧ j < c
  | .clear => True
  | .read i j => i < r ∧ j < c
  | .element i j => i < r ∧ j < c

/-- Perform the call on a model matrix. -/
def Op.apply (m : Mat T) : Op T → Out (Mat T)
  | .set i j v => m.set i j v
  | .update i j f => m.update i j f
  | .clear => .ok m.clear
  | .read i j => do let (_, m') ← m.at' i j; .ok m'
  | .element i j => do let (_, m') ← m.element i j; .ok m'

/-- Perform a history. -/
def Mat.run : Mat T → List (Op T) → Out (Mat T)
  | m, [] => .ok m
  | m, o :: os => do let m' ← o.apply m; m'.run os

/-- Overwrite one cell of a table. -/
def put2 (f : Nat → Nat → T) (i j : Nat) (v : T) : Nat → Nat → T :=
  fun a b => if a = i ∧ b = j then v else f a b

/-- The call on a plain table; `keep` is what the format keeps of a written value. -/
def Op.spec (keep : T → T) (f : Nat → Nat → T) : Op T → (Nat → Nat → T)
  | .set i j v => put2 f i j (keep v)
  | .update i j g => put2 f i j (keep (g (f i j)))
  | .clear => fun _ _ => 0
  | .read _ _ => f
  | .element _ _ => f

/-- The history on a plain table. -/
def specRun (keep : T → T) (f : Nat → Nat → T) (ops : List (Op T)) : Nat → Nat → T :=
  ops.foldl (fun f o => o.spec keep f) f

/-- Does the call write cell `(i, j)`? -/
def Op.Touches (i j : Nat) : Op T → Prop
  | .set a b _ => a = i ∧ b = j
  | .update a b _ => a = i ∧ b = j
  | .clear => True
  | .read _ _ => False
  | .element _ _ => False

/-- The cells of an `r × c` table, as a list. -/
def cells (r c : Nat) : List (Nat × Nat) :=
  (List.range r).flatMap (fun i => (List.range c).map (fun j => (i, j)))

/-- The array is rectangular: `c` values in every row. -/
def Rect (data : List (List T)) (c : Nat) : Prop := ∀ row ∈ data, row.length = c

/-- Element `(i, j)` of an array. -/
def arr (data : List (List T)) (i j : Nat) : T := (data.getD i []).getD j 0

/-- Matrices and vectors a program can obtain: constructors, then any calls that return
normally, and copies. -/
inductive Reach : Mat T → Prop
  | newCSR (r c : Nat) : Reach (.csr (CSR.new r c))
  | newCSC (r c : Nat) : Reach (.csc (CSC.new r c))
  | newDense (r c : Nat) : Reach (.dense (Dense.new r c))
  | newDVec (l : Nat) : Reach (.dvec (DVec.new l))
  | newSVec (l : Nat) : Reach (.svec (SVec.new l))
  | arrCSR {data : List (List T)} {c : Nat} {s : CSR T} (h : Rect data c)
      (e : CSR.fromArray data = .ok s) : Reach (.csr s)
  | arrCSC {data : List (List T)} {c : Nat} {s : CSC T} (h : Rect data c)
      (e : CSC.fromArray data = .ok s) : Reach (.csc s)
  | arrDense {data : List (List T)} {c : Nat} {s : Dense T} (h : Rect data c)
      (e : Dense.fromArray data = .ok s) : Reach (.dense s)
  | arrDVec (data : List T) : Reach (.dvec (DVec.fromArray data))
  | arrSVec {data : List T} {s : SVec T} (e : SVec.fromArray data = .ok s) : Reach (.svec s)
  | call {m m' : Mat T} (o : Op T) (h : Reach m) (e : o.apply m = .ok m') : Reach m'
  | copy {m m' : Mat T} (h : Reach m) (e : m.copy = .ok m') : Reach m'

end GB
