import Verif.Props.Share
import Verif.Props.Access

/-!
# C55: what RowsAt, ColumnsAt and RowsAtToArray hand out is a snapshot; RawMatrix is the matrix
-/

namespace GB

open Share

variable {T : Type} [GoNum T]

/-- What is taken out of a matrix: a row, a column, a row as an array. -/
inductive Part where
  | row (i : Int)
  | column (j : Int)
  | array (i : Int)

/-- Take it out of object `k`. The array of `RowsAtToArray` is observed through a dense vector made
of it, which is the array. -/
def Part.take (k : Nat) : Part → Act T
  | .row i => .rowsAt k i
  | .column j => .columnsAt k j
  | .array i => .rowArray k i

/-- What comes out of a matrix that is a value. -/
def Part.of (v : Mat T) : Part → Out (Mat T)
  | .row i => do let w ← v.rowsAt i; .ok w.toMat
  | .column j => do let w ← v.columnsAt j; .ok w.toMat
  | .array i => do let l ← v.rowsAtToArray i; .ok (.dvec { l := l.length, values := l })

theorem Part.high {p : Part} {k : Nat} {vs : List (Mat T)} {as : List (Act T)} {vs' : List (Mat T)} :
    runHigh vs (p.take k :: as) = .ok vs' ↔
      ∃ v w, vs[k]? = some v ∧ p.of v = .ok w ∧ runHigh (vs ++ [w]) as = .ok vs' := by
  constructor
  · intro h
    cases p with
    | row i => obtain ⟨v, w, h1, h2, h3⟩ := grow_ok (u := Vec.toMat) h; exact ⟨v, _, h1, by simp [Part.of, h2], h3⟩
    | column i => obtain ⟨v, w, h1, h2, h3⟩ := grow_ok (u := Vec.toMat) h; exact ⟨v, _, h1, by simp [Part.of, h2], h3⟩
    | array i =>
      obtain ⟨v, w, h1, h2, h3⟩ := grow_ok (u := fun l => .dvec (DVec.fromArray l)) h
      exact ⟨v, _, h1, by simp [Part.of, h2]; rfl, h3⟩
  · rintro ⟨v, w, h1, h2, h3⟩
    have hk : k < vs.length := (List.getElem?_eq_some_iff.1 h1).1
    have e : vs[k] = v := by simpa [hk] using h1
    cases p with
    | row i =>
      obtain ⟨u, g1, g2⟩ := out_bind h2; cases g2
      simpa [runHigh, Part.take, Act.high, idx_ok hk, e, g1] using h3
    | column i =>
      obtain ⟨u, g1, g2⟩ := out_bind h2; cases g2
      simpa [runHigh, Part.take, Act.high, idx_ok hk, e, g1] using h3
    | array i =>
      obtain ⟨u, g1, g2⟩ := out_bind h2; cases g2
      have h3 : runHigh (vs ++ [.dvec (DVec.fromArray u)]) as = .ok vs' := h3
      simpa [runHigh, Part.take, Act.high, idx_ok hk, e, g1] using h3

/-- C55, the snapshot: taking a row, a column or a row array out of object `k` changes no object,
and what comes out is a new object that holds what the row or column holds at that moment. -/
theorem C55_snapshot {m : Mem T} {N : Nat} {os : List LMat} (h0 : Apart m N os) {k : Nat} {o : LMat}
    (hk : os[k]? = some o) {p : Part} {w : Mat T} (hw : p.of (o.view m) = .ok w) :
    ∃ os' m', runLow os [p.take k] m = .ok os' m' ∧
      os'.map (fun q => q.view m') = os.map (fun q => q.view m) ++ [w] ∧ Apart m' N os' ∧
      ∀ a, a < N → m'.num a = m.num a ∧ m'.int a = m.int a ∧ m'.row a = m.row a := by
  have hv : (os.map fun p => p.view m)[k]? = some (o.view m) := by rw [List.getElem?_map, hk]; rfl
  have h2 := run_sim [p.take k] h0.pool (fun a i x hm => by cases p <;> simp [Part.take] at hm)
  rw [Part.high.2 ⟨_, w, hv, hw, rfl⟩] at h2
  obtain ⟨os', m2, e2, ⟨hp2, hq⟩, -⟩ := sim_ok' h2
  exact ⟨os', m2, e2, hp2.view, hp2.apart, fun a ha => by
    have := hq a ha
    cases p <;> exact this⟩

/-- C55, and it stays one: whatever the program does next, to the matrix, to what was taken out, and
to anything else, in any interleaving, what was taken out ends up holding what its own calls make of
the snapshot, and every object that was there before (the matrix among them) what its own calls make
of what it held. -/
theorem C55_independent {m m' : Mem T} {N : Nat} {os os' : List LMat} (h0 : Apart m N os) {p : Part} {k : Nat}
    {as : List (Act T)} (hb : Below N as) (h : runLow os (p.take k :: as) m = .ok os' m') :
    (∃ o w q, os[k]? = some o ∧ p.of (o.view m) = .ok w ∧ os'[os.length]? = some q ∧
      runCalls w (callsOn os.length as) = .ok (q.view m')) ∧
    ∀ (j : Nat) o, os[j]? = some o → ∃ q, os'[j]? = some q ∧ runCalls (o.view m) (callsOn j as) = .ok (q.view m') := by
  have hb' : Below N (p.take k :: as) := fun a i x hm => by
    rcases List.mem_cons.1 hm with e | e
    · cases p <;> cases e
    · exact hb a i x e
  have hc : ∀ j, callsOn j (p.take k :: as) = callsOn j as := fun j => by cases p <;> rfl
  refine ⟨?_, fun j o hj => by rw [← hc]; exact C11_independent h0 hb' h hj⟩
  obtain ⟨vs', e, ⟨hp', -⟩, -⟩ := sim_ok (run_sim _ h0.pool hb') h
  obtain ⟨v, w, h1, h2, h3⟩ := Part.high.1 e
  obtain ⟨w', g1, g2⟩ := runHigh_calls (k := os.length) (v := w) as (by simp) h3
  rw [List.getElem?_map] at h1
  rw [← hp'.view, List.getElem?_map] at g1
  cases e1 : os[k]? with
  | none => rw [e1] at h1; simp at h1
  | some o =>
    rw [e1] at h1; simp at h1; subst h1
    cases e2 : os'[os.length]? with
    | none => rw [e2] at g1; simp at g1
    | some q => rw [e2] at g1; simp at g1; subst g1; exact ⟨o, w, q, rfl, h2, rfl, g2⟩

/-- C55, on a reachable matrix in memory the snapshot is the row (the column, the row as an array),
cell by cell. -/
theorem C55_cells [GoStore T] {m : Mem T} {N : Nat} {os : List LMat} (h0 : Apart m N os) {k : Nat} {o : LMat}
    (hk : os[k]? = some o) (hr : Reach (o.view m))
    (hkind : (o.view m).kind = .csr ∨ (o.view m).kind = .csc ∨ (o.view m).kind = .dense) :
    ∃ val : Nat → Nat → T,
      (∀ i j : Nat, i < (o.view m).rows → j < (o.view m).cols → (o.view m).at' i j = .ok (val i j, o.view m)) ∧
      (∀ i : Nat, i < (o.view m).rows → ∃ os' m' q w, runLow os [.rowsAt k i] m = .ok os' m' ∧ os'[os.length]? = some q ∧
        q.view m' = w.toMat ∧ VecHolds w (o.view m).cols (fun j => val i j)) ∧
      (∀ j : Nat, j < (o.view m).cols → ∃ os' m' q w, runLow os [.columnsAt k j] m = .ok os' m' ∧ os'[os.length]? = some q ∧
        q.view m' = w.toMat ∧ VecHolds w (o.view m).rows (fun i => val i j)) ∧
      (∀ i : Nat, i < (o.view m).rows → ∃ os' m' q, runLow os [.rowArray k i] m = .ok os' m' ∧ os'[os.length]? = some q ∧
        q.view m' = .dvec { l := (o.view m).cols, values := (List.range (o.view m).cols).map fun j => val i j }) := by
  obtain ⟨val, h1, h2, h3, h4⟩ := C10_rows_and_columns hr hkind
  have new : ∀ (p : Part) (w : Mat T), p.of (o.view m) = .ok w →
      ∃ os' m' q, runLow os [p.take k] m = .ok os' m' ∧ os'[os.length]? = some q ∧ q.view m' = w := by
    intro p w hw
    obtain ⟨os', m', e1, e2, -⟩ := C55_snapshot h0 hk hw
    have e3 : (os'.map fun q => q.view m')[os.length]? = some w := by rw [e2]; simp
    rw [List.getElem?_map] at e3
    cases e4 : os'[os.length]? with
    | none => rw [e4] at e3; simp at e3
    | some q => rw [e4] at e3; simp at e3; exact ⟨os', m', q, e1, e4, e3⟩
  refine ⟨val, h1, ?_, ?_, ?_⟩
  · intro i hi
    obtain ⟨w, e, hw⟩ := h2 i hi
    obtain ⟨os', m', q, e1, e2, e3⟩ := new (.row i) w.toMat (by simp [Part.of, e])
    exact ⟨os', m', q, w, e1, e2, e3, hw⟩
  · intro j hj
    obtain ⟨w, e, hw⟩ := h3 j hj
    obtain ⟨os', m', q, e1, e2, e3⟩ := new (.column j) w.toMat (by simp [Part.of, e])
    exact ⟨os', m', q, w, e1, e2, e3, hw⟩
  · intro i hi
    obtain ⟨os', m', q, e1, e2, e3⟩ := new (.array i) _ (by rw [Part.of, h4 i hi]; rfl)
    exact ⟨os', m', q, e1, e2, by simpa using e3⟩

/-! ## RawMatrix -/

/-- C55, `RawMatrix` is no snapshot: the slice it returns is what the matrix is made of. At any
later time, whatever has been written through the one or the other, the matrix holds what the slice
holds. -/
theorem C55_raw {m m1 : Mem T} {o : LDense} {s : Slice} (e : o.rawMatrix m = .ok s m1) :
    m1 = m ∧ ∀ m' : Mem T, (LMat.dense o).view m' =
      .dense { r := o.r, c := o.c, data := (s.get rowF m').map (fun row => row.get numF m') } := by
  cases e
  exact ⟨rfl, fun _ => rfl⟩

/-- C55, a write through `RawMatrix` shows: after `m.RawMatrix()[i][j] = x`, `m.At(i, j)` is `x`. -/
theorem C55_raw_write {m : Mem T} {o : LDense} (hg : (LMat.dense o).Good m) {i j : Nat} (hi : i < o.r) (hj : j < o.c)
    {x : T} {m' : Mem T}
    (e : (do let s ← o.rawMatrix (T := T); let row ← hIdx rowF s i; hSet numF row j x) m = .ok () m') :
    o.at' i j m' = .ok x m' := by
  obtain ⟨hs, h1, h2⟩ : ∃ hs, Sl rowF m (fun t a => (LMat.dense o).Uses m t a) o.data hs ∧ _ := by
    have := hg.own
    cases this with
    | dense h => exact h.data
  obtain ⟨row, m2, e1, e2⟩ := bind_okE (show ((hIdx rowF o.data i : H T Slice) >>= fun row => hSet numF row j x) m = .ok () m' from e)
  obtain ⟨d, -, ⟨rfl, g1, g2, g3⟩, -⟩ := sim_ok (LDense.row_sim (G := fun _ _ => True) h1 h2 i) e1
  obtain ⟨d', e3, ⟨g4, g5⟩, k⟩ := sim_ok (Sim.set numF_ok g1 j x) e2
  have g6 : Sl rowF m' (fun t a => (LMat.dense o).Uses m2 t a) o.data hs := h1.keep rowF_ok k (by
    rintro (⟨e, -⟩ | e)
    · cases e
    · exact absurd h1.lt (not_lt.2 e))
  have hj' : j < d.length := by
    by_contra hc
    simp [setIdx, hc] at e3
  rw [setIdx_ok hj'] at e3
  cases e3
  have hhs : i < hs.length := (List.getElem?_eq_some_iff.1 g2).1
  have a1 : hIdx rowF o.data i m' = .ok row m' := by
    have := Sim.idx (G := fun _ _ => True) g6 i
    rw [idx_ok hhs] at this
    obtain ⟨a, m3, b1, ⟨rfl, rfl⟩, -⟩ := sim_ok' this
    have : hs[i] = row := by simpa [hhs] using g2
    rw [b1, this]
  have a2 : hIdx numF row j m' = .ok x m' := by
    have := Sim.idx (G := fun _ _ => True) g4 j
    rw [idx_ok (by simpa using hj')] at this
    obtain ⟨a, m3, b1, ⟨rfl, rfl⟩, -⟩ := sim_ok' this
    rw [b1]; simp
  have hi' : inRange (i : Int) o.r = true := by simp [inRange, hi]
  have hj' : inRange (j : Int) o.c = true := by simp [inRange, hj]
  have : (o.at' i j : H T T) = (do let row ← hIdx rowF o.data i; hIdx numF row j) := by
    unfold LDense.at'
    rw [if_pos hi', if_pos hj']
    rfl
  rw [this, bind_ok a1, a2]

/-- C55, until `Clear`: `Clear` makes a new array of new rows, and leaves the old one to whoever
holds it. From then on the matrix and everything that was there before it share nothing. -/
theorem C55_raw_clear {m m1 : Mem T} {o o' : LDense} (e : o.clear m = .ok o' m1) :
    Separate m m1 (.dense o') (.dense { r := o.r, c := o.c, data := List.replicate o.r (List.replicate o.c 0) }) := by
  obtain ⟨v, e1, h, hk⟩ := sim_ok (LDense.clear_fresh (F := fresh m.next) (fun _ _ e => e) o) e
  cases e1
  exact separate_of (.dense h) hk

/-! ### Instances -/

/-- `m := NewDenseMatrix(2, 2); m.Set(0, 1, 5); m.Set(1, 1, 6); r := m.RowsAt(0); c := m.ColumnsAt(1);
a := m.RowsAtToArray(1)`. -/
def handProg : List (Act ℤ) :=
  [.newDense 2 2, .call 0 (.op (.set 0 1 5)), .call 0 (.op (.set 1 1 6)), .rowsAt 0 0, .columnsAt 0 1, .rowArray 0 1]

/-- Then `m.Set(0, 1, 9); r.Set(0, 0, 1); m.Set(1, 1, 0); a[0] = 4`. -/
def handProg2 : List (Act ℤ) :=
  [.call 0 (.op (.set 0 1 9)), .call 1 (.op (.set 0 0 1)), .call 0 (.op (.set 1 1 0)), .call 3 (.op (.set 0 0 4))]

example : after (runLow [] handProg mem0) =
    some [.dense { r := 2, c := 2, data := [[0, 5], [0, 6]] }, .dvec { l := 2, values := [0, 5] },
      .dvec { l := 2, values := [5, 6] }, .dvec { l := 2, values := [0, 6] }] := by
  decide +kernel

example : after (runLow [] (handProg ++ handProg2) mem0) =
    some [.dense { r := 2, c := 2, data := [[0, 9], [0, 0]] }, .dvec { l := 2, values := [1, 5] },
      .dvec { l := 2, values := [5, 6] }, .dvec { l := 2, values := [4, 6] }] := by
  decide +kernel

/-- A compressed matrix: its row is a sparse vector of its own. -/
example : after (runLow [] [.newCSR 2 2, .call 0 (.op (.set 0 1 5)), .rowsAt 0 0, .call 0 (.op (.set 0 1 9)), .call 1 (.op (.set 0 0 7))] mem0) =
    some [.csr { r := 2, c := 2, values := [9], cols := [1], rowStart := [0, 1, 1] }, .svec { l := 2, values := [7, 5], indices := [0, 1] }] := by
  decide +kernel

/-- `m` holds `{{1, 2}, {3, 4}}`. `m.RawMatrix()[0][1] = 7` shows in `m`; after `m.Clear()` the raw
array still holds what it held, and `m` is zero. -/
def rawProg (clear : Bool) : Option (Mat ℤ × List (List ℤ)) :=
  match (do
    let o ← LDense.fromArray ⟨2, 0, 2⟩
    let s ← o.rawMatrix (T := ℤ)
    let row ← hIdx rowF s 0
    hSet numF row 1 7
    let o' ← if clear then o.clear else pure o
    pure (o', s) : H ℤ (LDense × Slice)) mem1 with
  | .ok (o, s) m => some ((LMat.dense o).view m, (s.get rowF m).map fun row => row.get numF m)
  | _ => none

example : rawProg false = some (.dense { r := 2, c := 2, data := [[1, 7], [3, 4]] }, [[1, 7], [3, 4]]) := by decide +kernel

example : rawProg true = some (.dense { r := 2, c := 2, data := [[0, 0], [0, 0]] }, [[1, 7], [3, 4]]) := by decide +kernel

end GB
