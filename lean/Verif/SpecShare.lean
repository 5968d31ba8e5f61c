import Verif.Model.Share

/-!
# Specification vocabulary: what an object holds, and the caller's own arrays
-/

namespace GB.Share

variable {T : Type} [GoNum T]

/-- The contents of an object, as a value: follow the slice headers. -/
def LMat.view (o : LMat) (m : Mem T) : Mat T :=
  match o with
  | .csr o => .csr { r := o.r, c := o.c, values := o.values.get numF m, cols := o.cols.get intF m,
                     rowStart := o.rowStart.get intF m }
  | .csc o => .csc { r := o.r, c := o.c, values := o.values.get numF m, rows := o.rows.get intF m,
                     colStart := o.colStart.get intF m }
  | .dense o => .dense { r := o.r, c := o.c, data := (o.data.get rowF m).map (fun s => s.get numF m) }
  | .dvec o => .dvec { l := o.l, values := o.values.get numF m }
  | .svec o => .svec { l := o.l, values := o.values.get numF m, indices := o.indices.get intF m }

/-- The program assigns only to elements of arrays below address `n`. -/
def Below (n : Nat) (as : List (Act T)) : Prop := ∀ a i x, Act.poke a i x ∈ as → a < n

/-- The array at address `a` after the program's own assignments to it, in order. -/
def poked (a : Nat) (l : List T) : List (Act T) → List T
  | [] => l
  | .poke b i x :: as => poked a (if b = a then l.set i x else l) as
  | _ :: as => poked a l as

/-- The calls a program makes on object `k`. -/
def callsOn (k : Nat) : List (Act T) → List (Call T)
  | [] => []
  | .call j f :: as => if j = k then f :: callsOn k as else callsOn k as
  | _ :: as => callsOn k as

/-- Perform calls on a value, one after the other. -/
def runCalls (v : Mat T) : List (Call T) → Out (Mat T)
  | [] => .ok v
  | f :: fs => do let v' ← f.high v; runCalls v' fs

/-- A slice of an allocated array. -/
def Slice.Valid {α : Type} (φ : Fld T α) (m : Mem T) (s : Slice) : Prop :=
  s.arr < m.next ∧ s.off + s.len ≤ (φ.get m s.arr).length

/-- The caller's `[][]T` holds these rows. The rows may overlap. -/
structure Held (m : Mem T) (data : Slice) (d : List (List T)) : Prop where
  valid : data.Valid rowF m
  rows : ∀ s ∈ data.get rowF m, s.Valid numF m
  eq : (data.get rowF m).map (fun s => s.get numF m) = d

/-- The arrays an object is made of. -/
def LMat.Uses (o : LMat) (m : Mem T) (t : Tag) (a : Nat) : Prop :=
  match o with
  | .csr o => t = .num ∧ a = o.values.arr ∨ t = .int ∧ (a = o.cols.arr ∨ a = o.rowStart.arr)
  | .csc o => t = .num ∧ a = o.values.arr ∨ t = .int ∧ (a = o.rows.arr ∨ a = o.colStart.arr)
  | .dense o => t = .row ∧ a = o.data.arr ∨ t = .num ∧ ∃ s ∈ o.data.get rowF m, a = s.arr
  | .dvec o => t = .num ∧ a = o.values.arr
  | .svec o => t = .num ∧ a = o.values.arr ∨ t = .int ∧ a = o.indices.arr

/-- The slices of an object lie in allocated arrays, no two of them in the same array. -/
def LMat.Good (o : LMat) (m : Mem T) : Prop :=
  match o with
  | .csr o => o.values.Valid numF m ∧ o.cols.Valid intF m ∧ o.rowStart.Valid intF m ∧ o.cols.arr ≠ o.rowStart.arr
  | .csc o => o.values.Valid numF m ∧ o.rows.Valid intF m ∧ o.colStart.Valid intF m ∧ o.rows.arr ≠ o.colStart.arr
  | .dense o => o.data.Valid rowF m ∧ (∀ s ∈ o.data.get rowF m, s.Valid numF m) ∧
      ((o.data.get rowF m).map (·.arr)).Nodup
  | .dvec o => o.values.Valid numF m
  | .svec o => o.values.Valid numF m ∧ o.indices.Valid intF m

/-- The objects stand apart: each is made of arrays of its own, none of them below `N`. -/
structure Apart (m : Mem T) (N : Nat) (os : List LMat) : Prop where
  le : N ≤ m.next
  good : ∀ o ∈ os, o.Good m
  above : ∀ o ∈ os, ∀ t a, o.Uses m t a → N ≤ a
  apart : ∀ (j k : Nat) (o p : LMat) (t : Tag) (a : Nat), os[j]? = some o → os[k]? = some p →
    o.Uses m t a → p.Uses m t a → j = k

/-- The calls of a program are all `Set`, `Update`, `Clear`, `At` or `Element`. -/
def Plain (as : List (Act T)) : Prop := ∀ k f, Act.call k f ∈ as → ∃ op, f = .op op

/-- The object `o`, created between memories `m` and `m1` and holding `v`, shares nothing with what
was there before: creating it changed no old array; and whatever the program does next - calls on
the object, new objects, assignments to elements of old arrays - the object ends up holding what
its own calls make of `v`, and the old arrays hold what was assigned to them. -/
def Separate (m m1 : Mem T) (o : LMat) (v : Mat T) : Prop :=
  o.view m1 = v ∧
  (∀ a, a < m.next → m1.num a = m.num a ∧ m1.int a = m.int a ∧ m1.row a = m.row a) ∧
  ∀ (as : List (Act T)) (os : List LMat) (m2 : Mem T), Below m.next as → runLow [o] as m1 = .ok os m2 →
    (∃ o', os[0]? = some o' ∧ runCalls v (callsOn 0 as) = .ok (o'.view m2)) ∧
    ∀ a, a < m.next → m2.num a = poked a (m.num a) as ∧ m2.int a = m.int a ∧ m2.row a = m.row a

/-- What the objects hold after a program, if it ends normally. -/
def after (r : HRes T (List LMat)) : Option (List (Mat T)) :=
  match r with
  | .ok os m => some (os.map fun o => o.view m)
  | _ => none

end GB.Share
