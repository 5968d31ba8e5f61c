import Verif.Props.SparseVec

/-!
# Building, enumerating, extracting, mapping: C08, C09, C10, C14
-/

namespace GB

set_option linter.unusedSectionVars false

variable {T : Type} [GoNum T] [GoStore T]

/-! ## C08: building from an array -/

/-- C08, cells: the three constructors succeed on every non-empty rectangular array, with the
array's dimensions, and `At(i,j)` is the array element (`norm` replaces a negative float zero in
the compressed formats). -/
theorem C08_fromArray_cells {data : List (List T)} {c : Nat} (hne : data ≠ []) (hc : Rect data c) :
    (∃ s, CSR.fromArray data = .ok s ∧ s.r = data.length ∧ s.c = c ∧
      ∀ i j : Nat, i < data.length → j < c → s.at' i j = .ok (norm (arr data i j), s)) ∧
    (∃ s, CSC.fromArray data = .ok s ∧ s.r = data.length ∧ s.c = c ∧
      ∀ i j : Nat, i < data.length → j < c → s.at' i j = .ok (norm (arr data i j), s)) ∧
    (∃ s, Dense.fromArray data = .ok s ∧ s.r = data.length ∧ s.c = c ∧
      ∀ i j : Nat, i < data.length → j < c → s.at' i j = .ok (arr data i j)) := by
  refine ⟨?_, ?_, ?_⟩
  · obtain ⟨s, h1, ⟨rows, h2⟩, h3, h4, h5⟩ := Mat.csr_fromArray_ok hne hc
    refine ⟨s, h1, h3, h4, fun i j hi hj => ?_⟩
    have hi' : i < s.r := by rw [h3]; exact hi
    have hj' : j < s.c := by rw [h4]; exact hj
    rw [h2.at_ok hi' hj', ← h5 i j hi hj, Mat.val_csr h2 hi' hj']
  · obtain ⟨s, h1, ⟨rows, h2⟩, h3, h4, h5⟩ := Mat.csc_fromArray_ok hne hc
    refine ⟨s, h1, h3, h4, fun i j hi hj => ?_⟩
    have hi' : i < s.r := by rw [h3]; exact hi
    have hj' : j < s.c := by rw [h4]; exact hj
    rw [CSC.Rep.at_ok h2 hi' hj', ← h5 i j hi hj, Mat.val_csc h2 hi' hj']
  · obtain ⟨s, h1, h2, h3, h4, h5⟩ := Mat.dense_fromArray_ok hne hc
    refine ⟨s, h1, h3, h4, fun i j hi hj => ?_⟩
    rw [Dense.at_ok h2 (by rw [h3]; exact hi) (by rw [h4]; exact hj), h5]

theorem arr_row {data : List (List T)} {c : Nat} (hc : Rect data c) {i : Nat} (hi : i < data.length) :
    (List.range c).map (fun j => arr data i j) = data[i] := by
  have hl : (data[i]).length = c := hc _ (List.getElem_mem hi)
  have e : data.getD i [] = data[i] := by simp [List.getD, hi]
  have := map_range_getElem (data[i]) (0 : T)
  rw [hl] at this
  conv => rhs; rw [← this]
  unfold arr
  rw [e]

/-- C08, rows: `RowsAtToArray(i)` gives back row `i` of the array. -/
theorem C08_fromArray_rows {data : List (List T)} {c : Nat} (hne : data ≠ []) (hc : Rect data c) :
    (∃ s, CSR.fromArray data = .ok s ∧ ∀ (i : Nat) (hi : i < data.length),
      s.rowsAtToArray i = .ok ((data[i]).map norm)) ∧
    (∃ s, CSC.fromArray data = .ok s ∧ ∀ (i : Nat) (hi : i < data.length),
      s.rowsAtToArray i = .ok ((data[i]).map norm)) ∧
    (∃ s, Dense.fromArray data = .ok s ∧ ∀ (i : Nat) (hi : i < data.length),
      s.rowsAtToArray i = .ok (data[i])) := by
  refine ⟨?_, ?_, ?_⟩
  · obtain ⟨s, h1, h2, h3, h4, h5⟩ := Mat.csr_fromArray_ok hne hc
    refine ⟨s, h1, fun i hi => ?_⟩
    have := rowsAtToArray_of_wf h2 (by simp [Mat.kind]) (i := i) (by simp only [Mat.rows]; rw [h3]; exact hi)
    rw [show s.rowsAtToArray i = _ from this, ← arr_row hc hi, List.map_map]
    simp only [Mat.cols, h4]
    congr 1
    exact List.map_congr_left (fun j hj => h5 i j hi (by simpa using hj))
  · obtain ⟨s, h1, h2, h3, h4, h5⟩ := Mat.csc_fromArray_ok hne hc
    refine ⟨s, h1, fun i hi => ?_⟩
    have := rowsAtToArray_of_wf h2 (by simp [Mat.kind]) (i := i) (by simp only [Mat.rows]; rw [h3]; exact hi)
    rw [show s.rowsAtToArray i = _ from this, ← arr_row hc hi, List.map_map]
    simp only [Mat.cols, h4]
    congr 1
    exact List.map_congr_left (fun j hj => h5 i j hi (by simpa using hj))
  · obtain ⟨s, h1, h2, h3, h4, h5⟩ := Mat.dense_fromArray_ok hne hc
    refine ⟨s, h1, fun i hi => ?_⟩
    rw [Dense.rowsAtToArray_ok h2 (by rw [h3]; exact hi), ← arr_row hc hi, h4]
    congr 1
    exact List.map_congr_left (fun j hj => h5 i j)

/-- C08, sparse vector: the enumeration is exactly the non-zero entries of the array, in order. -/
theorem C08_svec_fromArray (data : List T) :
    ∃ s, SVec.fromArray data = .ok s ∧ s.l = data.length ∧
      Yields SVec.Iter.hasNext s.step s.iter
        (((List.range data.length).filter (fun i => !isZero (data.getD i 0))).map
          (fun i => (i, 0, data.getD i 0))) := by
  obtain ⟨s, h1, h2, h3⟩ := SVec.fromArray_ok data
  refine ⟨s, h1, h2, ?_⟩
  have := h3.yields
  rwa [nz_map] at this

/-- C08, dense vector. -/
theorem C08_dvec_fromArray (data : List T) : (DVec.fromArray data).l = data.length ∧
    ∀ (i : Nat) (hi : i < data.length), (DVec.fromArray data).atVec i = .ok data[i] := by
  refine ⟨rfl, fun i hi => ?_⟩
  simp [DVec.atVec, hi, DVec.fromArray, DVec.new, idx_ok hi]

example : Rect [[1, 0, 2], [0, 0, 3]] 3 ∧ CSR.fromArray [[1, 0, 2], [0, 0, (3 : ℤ)]] =
    .ok { r := 2, c := 3, values := [1, 2, 3], cols := [0, 2, 2], rowStart := [0, 2, 3] } ∧
    SVec.fromArray [0, 4, 0, (6 : ℤ)] = .ok { l := 4, values := [4, 6], indices := [1, 3] } := by
  refine ⟨?_, by decide, by decide⟩
  intro row hr
  simp at hr
  rcases hr with rfl | rfl <;> rfl

/-! ## C09: enumeration -/

/-- C09. On every reachable matrix or dense vector, `Enumerate` terminates without a panic and
yields a faithful list: coordinates in range, pairwise distinct, the values `At` returns, no non-zero
cell missing. -/
theorem C09_enumerate {m : Mat T} (h : Reach m) (hk : m.kind ≠ .svec) :
    ∃ es, Yields Mat.Iter.hasNext m.step m.iter es ∧
      ∃ val : Nat → Nat → T, (∀ i j : Nat, i < m.rows → j < m.cols → m.at' i j = .ok (val i j, m)) ∧
        Faithful m.rows m.cols val es := by
  have hw := h.wf hk
  obtain ⟨es, h1, h2, -⟩ := Mat.entries_ok hw
  exact ⟨es, h1.yields, m.val, fun i j hi hj => Mat.at_ok hw hi hj, h2⟩

/-- C09, order: CSR and dense row by row, CSC column by column; compressed formats yield no zero,
dense formats yield every cell. -/
theorem C09_enumerate_order {m : Mat T} (h : Reach m) :
    (∀ s, m = .csr s → ∃ es, Yields CSR.Iter.hasNext s.step s.iter es ∧ RowMajor es ∧
      ∀ e ∈ es, isZero e.2.2 = false) ∧
    (∀ s, m = .csc s → ∃ es, Yields CSC.Iter.hasNext s.step s.iter es ∧ ColMajor es ∧
      ∀ e ∈ es, isZero e.2.2 = false) ∧
    (∀ s, m = .dense s → ∃ es, Yields Dense.Iter.hasNext s.step s.iter es ∧ RowMajor es ∧
      es.length = s.r * s.c) ∧
    (∀ s, m = .dvec s → ∃ es, Yields DVec.Iter.hasNext s.step s.iter es ∧ RowMajor es ∧
      es.length = s.l) := by
  have hi := h.inv
  refine ⟨?_, ?_, ?_, ?_⟩ <;> rintro s rfl
  · obtain ⟨rows, hr⟩ := hi
    exact ⟨_, hr.yields, hr.rowMajor, hr.entries_nz⟩
  · obtain ⟨rows, hr⟩ := hi
    exact ⟨_, CSC.Rep.yields hr, CSC.Rep.colMajor hr, CSC.Rep.entries_nz hr⟩
  · exact ⟨_, Dense.yields hi, Dense.rowMajor s, by simp [Dense.entries]⟩
  · refine ⟨_, DVec.yields hi, ?_, by simp [DVec.entries]⟩
    unfold RowMajor DVec.entries
    rw [List.pairwise_map]
    exact List.pairwise_lt_range.imp (fun hab => Or.inl hab)

/-- Empty first row, empty column, empty last row. -/
example : ∃ s : CSR ℤ, Reach (.csr s) ∧ s.r = 4 ∧
    Yields CSR.Iter.hasNext s.step s.iter [(1, 0, 5), (1, 2, 6), (2, 2, 7)] := by
  refine ⟨{ r := 4, c := 3, values := [5, 6, 7], cols := [0, 2, 2], rowStart := [0, 0, 2, 3, 3] },
    Reach.arrCSR (data := [[0, 0, 0], [5, 0, 6], [0, 0, 7], [0, 0, 0]]) (c := 3) ?_ (by decide), rfl, ?_⟩
  · intro row hr; simp at hr; rcases hr with rfl | rfl | rfl | rfl <;> rfl
  · refine ⟨by decide, ⟨3, 1, 0, 1, 1, 0, 1, 2⟩, by decide, by decide,
      ⟨3, 2, 2, 1, 3, 1, 2, 2⟩, by decide, by decide, ⟨3, 3, 2, 2, 3, 2, 3, 3⟩, by decide, ?_⟩
    unfold Yields; decide

/-! ## C10: rows and columns -/

/-- The vector holds exactly the values `g 0 … g (n-1)`: a dense vector by `AtVec`, a sparse
vector by enumerating exactly the non-zero ones in order. -/
def VecHolds (v : Vec T) (n : Nat) (g : Nat → T) : Prop :=
  v.length = n ∧
  match v with
  | .dvec d => ∀ i : Nat, i < n → d.atVec i = .ok (g i)
  | .svec s => Yields SVec.Iter.hasNext s.step s.iter
      (((List.range n).filter (fun i => !isZero (g i))).map (fun i => (i, 0, g i)))

theorem holds_svec {s : SVec T} {es : List (Nat × T)} {n : Nat} {g : Nat → T} (hl : s.l = n)
    (hr : SVec.Rep s es) (hg : ∀ i, i < n → rowGet es i = g i) : VecHolds (.svec s) n g := by
  refine ⟨hl, ?_⟩
  have h5 := hr.yields
  rw [row_eq_nz hr.sorted (fun e he => by have := hr.bound e he; rw [hl] at this; exact this) hr.nz,
    nz_congr hg, nz_map] at h5
  exact h5

theorem holds_dvec {n : Nat} {g : Nat → T} :
    VecHolds (.dvec { l := n, values := (List.range n).map g } : Vec T) n g := by
  refine ⟨rfl, fun i hi => ?_⟩
  have hl : i < ((List.range n).map g).length := by simpa using hi
  simp [DVec.atVec, hi, idx_ok hl]

/-- C10, in range: on every reachable matrix the row, the column and the row array hold exactly the
cells. -/
theorem C10_rows_and_columns {m : Mat T} (h : Reach m)
    (hk : m.kind = .csr ∨ m.kind = .csc ∨ m.kind = .dense) :
    ∃ val : Nat → Nat → T, (∀ i j : Nat, i < m.rows → j < m.cols → m.at' i j = .ok (val i j, m)) ∧
      (∀ i : Nat, i < m.rows → ∃ v, m.rowsAt i = .ok v ∧ VecHolds v m.cols (fun j => val i j)) ∧
      (∀ j : Nat, j < m.cols → ∃ v, m.columnsAt j = .ok v ∧ VecHolds v m.rows (fun i => val i j)) ∧
      (∀ i : Nat, i < m.rows → m.rowsAtToArray i = .ok ((List.range m.cols).map (fun j => val i j))) := by
  have hk' : m.kind ≠ .svec := by rcases hk with hk | hk | hk <;> simp [hk]
  have hw := h.wf hk'
  refine ⟨m.val, fun i j hi hj => Mat.at_ok hw hi hj, ?_, ?_, fun i hi => rowsAtToArray_of_wf hw hk hi⟩
  · intro i hi
    cases m with
    | csr s =>
      obtain ⟨rows, hr⟩ := hw
      obtain ⟨sv, h1, h2, h3⟩ := hr.rowsAt_ok hi
      refine ⟨.svec sv, by simp [Mat.rowsAt, h1], holds_svec h2 h3 (fun j hj => ?_)⟩
      rw [Mat.val_csr hr hi hj, hr.cell_eq hi]
    | csc s =>
      obtain ⟨cols, hr⟩ := hw
      obtain ⟨sv, h1, h2, h3⟩ := CSC.Rep.rowsAt_ok hr hi
      refine ⟨.svec sv, by simp [Mat.rowsAt, h1], holds_svec h2 h3 (fun j hj => ?_)⟩
      rw [Mat.val_csc hr hi hj, CSR.colEntries_get cols s.c i j hj]
      exact CSR.Rep.norm_cell (s := CSC.mir s) hr hj
    | dense s =>
      refine ⟨.dvec _, by simp [Mat.rowsAt, Dense.rowsAt_ok hw hi]; rfl, ?_⟩
      have e : (List.range s.c).map (fun j => s.cell i j) =
          (List.range s.c).map (fun j => Mat.val (.dense s) i j) :=
        List.map_congr_left (fun j hj => (Mat.val_dense hw hi (by simpa using hj)).symm)
      rw [e]
      exact holds_dvec
    | dvec s => simp [Mat.kind] at hk
    | svec s => simp [Mat.kind] at hk
  · intro j hj
    cases m with
    | csr s =>
      obtain ⟨rows, hr⟩ := hw
      obtain ⟨sv, h1, h2, h3⟩ := hr.columnsAt_ok hj
      refine ⟨.svec sv, by simp [Mat.columnsAt, h1], holds_svec h2 h3 (fun i hi => ?_)⟩
      rw [Mat.val_csr hr hi hj, CSR.colEntries_get rows s.r j i hi]
      exact hr.norm_cell hi
    | csc s =>
      obtain ⟨cols, hr⟩ := hw
      obtain ⟨sv, h1, h2, h3⟩ := CSC.Rep.columnsAt_ok hr hj
      refine ⟨.svec sv, by simp [Mat.columnsAt, h1], holds_svec h2 h3 (fun i hi => ?_)⟩
      rw [Mat.val_csc hr hi hj]
      exact (CSR.Rep.cell_eq (s := CSC.mir s) hr hj i).symm
    | dense s =>
      refine ⟨.dvec _, by simp [Mat.columnsAt, Dense.columnsAt_ok hw hj]; rfl, ?_⟩
      have e : (List.range s.r).map (fun i => s.cell i j) =
          (List.range s.r).map (fun i => Mat.val (.dense s) i j) :=
        List.map_congr_left (fun i hi => (Mat.val_dense hw (by simpa using hi) hj).symm)
      rw [e]
      exact holds_dvec
    | dvec s => simp [Mat.kind] at hk
    | svec s => simp [Mat.kind] at hk

/-- C10, out of range: a panic. -/
theorem C10_out_of_range (m : Mat T) (i : Int) :
    (¬ (0 ≤ i ∧ i < m.rows) → m.rowsAt i = .panic ∧ m.rowsAtToArray i = .panic) ∧
    (¬ (0 ≤ i ∧ i < m.cols) → m.columnsAt i = .panic) := by
  constructor
  · intro h
    have hn : ¬ inRange i m.rows = true := fun hc => h (inRange_iff.1 hc)
    cases m <;> simp only [Mat.rows] at hn <;>
      simp [Mat.rowsAt, Mat.rowsAtToArray, CSR.rowsAt, CSC.rowsAt, Dense.rowsAt, DVec.rowsAt, SVec.rowsAt,
        CSR.rowsAtToArray, CSC.rowsAtToArray, Dense.rowsAtToArray, DVec.rowsAtToArray, SVec.rowsAtToArray, hn]
  · intro h
    have hn : ¬ inRange i m.cols = true := fun hc => h (inRange_iff.1 hc)
    cases m <;> simp only [Mat.cols] at hn <;>
      simp [Mat.columnsAt, CSR.columnsAt, CSC.columnsAt, Dense.columnsAt, DVec.columnsAt, SVec.columnsAt, hn]

example : (Mat.csr ({ r := 2, c := 3, values := [1, 2, 3], cols := [0, 2, 2], rowStart := [0, 2, 3] } : CSR ℤ)).columnsAt 2 =
    .ok (.svec { l := 2, values := [2, 3], indices := [0, 1] }) := by decide

/-! ## C14: Map -/

/-- `for it := m.Map(); it.HasNext(); { it.Map(f) }`, at most `n` turns (`hang` if not finished). -/
def Mat.drive (f : Nat → Nat → T → T) : Nat → Mat T → Mat.Iter → Out (Mat T)
  | 0, m, it => if it.hasNext then .hang else .ok m
  | n + 1, m, it =>
    if it.hasNext then do
      let (it', r, c, v) ← m.step it
      let m' ← m.put it' (f r c v)
      Mat.drive f n m' it'
    else .ok m

theorem drive_ok (f : Nat → Nat → T → T) : ∀ (rest : List (Nat × Nat × T)) (n : Nat) (m : Mat T) (it : Mat.Iter),
    Mat.MapAt m it rest → rest.length ≤ n →
    rest.Pairwise (fun a b => ¬ (a.1 = b.1 ∧ a.2.1 = b.2.1)) →
    (∀ e ∈ rest, Mat.Storable m.kind (f e.1 e.2.1 e.2.2)) →
    ∃ m', Mat.drive f n m it = .ok m' ∧ m'.WF ∧ Mat.Same m' m ∧
      (∀ e ∈ rest, m'.val e.1 e.2.1 = f e.1 e.2.1 e.2.2) ∧
      (∀ i j, i < m.rows → j < m.cols → (∀ e ∈ rest, ¬ (i = e.1 ∧ j = e.2.1)) → m'.val i j = m.val i j) := by
  intro rest
  induction rest with
  | nil =>
    intro n m it h hn hd hs
    refine ⟨m, ?_, h.wf, Mat.Same.refl m, by simp, fun _ _ _ _ _ => rfl⟩
    cases n <;> simp [Mat.drive, h.nil]
  | cons e rest ih =>
    intro n m it h hn hd hs
    obtain ⟨h1, it', h2, h3, hr, hc, h4, h5⟩ := h.cons
    obtain ⟨m1, g1, g2, g3⟩ := h5 (f e.1 e.2.1 e.2.2) (hs e (by simp))
    obtain ⟨n, rfl⟩ : ∃ k, n = k + 1 := ⟨n - 1, by simp at hn; omega⟩
    have hd' := List.pairwise_cons.1 hd
    obtain ⟨m2, k1, k2, k3, k4, k5⟩ := ih n m1 it' g2 (by simp at hn; omega) hd'.2
      (fun x hx => by rw [g3.same.1]; exact hs x (by simp [hx]))
    refine ⟨m2, ?_, k2, k3.trans g3.same, ?_, ?_⟩
    · simp only [Mat.drive, h1, if_true, h2, Out.ok_bind, g1, k1]
    · intro x hx
      rcases List.mem_cons.1 hx with rfl | hx
      · rw [k5 _ _ (by rw [g3.same.2.1]; exact hr) (by rw [g3.same.2.2]; exact hc)
          (fun y hy hxy => hd'.1 y hy hxy), g3.hit]
      · exact k4 x hx
    · intro i j hi hj hne
      rw [k5 i j (by rw [g3.same.2.1]; exact hi) (by rw [g3.same.2.2]; exact hj)
        (fun y hy => hne y (by simp [hy])), g3.miss i j hi hj (hne e (by simp))]

/-- C14 for dense matrices and vectors: full. Every cell `v` at `(r,c)` becomes `f(r,c,v)`. -/
theorem C14_map_dense {m : Mat T} (h : Reach m) (hk : m.kind = .dense ∨ m.kind = .dvec)
    (f : Nat → Nat → T → T) (n : Nat) (hn : m.nvalues ≤ n) :
    ∃ (val : Nat → Nat → T) (m' : Mat T), (∀ i j : Nat, i < m.rows → j < m.cols → m.at' i j = .ok (val i j, m)) ∧
      m.drive f n m.iter = .ok m' ∧ m'.rows = m.rows ∧ m'.cols = m.cols ∧
      ∀ i j : Nat, i < m.rows → j < m.cols → m'.at' i j = .ok (f i j (val i j), m') := by
  have hw := h.wf (by rcases hk with hk | hk <;> simp [hk])
  obtain ⟨es, h1, h2, h3, h4, -⟩ := Mat.entries_ok hw
  obtain ⟨m', g1, g2, g3, g4, -⟩ := drive_ok f es n m m.iter h1 (by omega) h2.distinct
    (fun e _ => by rcases hk with hk | hk <;> simp [Mat.Storable, hk])
  refine ⟨m.val, m', fun i j hi hj => Mat.at_ok hw hi hj, g1, g3.2.1, g3.2.2, fun i j hi hj => ?_⟩
  rw [Mat.at_ok g2 (by rw [g3.2.1]; exact hi) (by rw [g3.2.2]; exact hj), g4 _ (h4 hk i j hi hj)]

/-- C14 for compressed matrices, the part that holds: when `f` gives no zero on the stored entries,
every non-zero cell `v` becomes `f(r,c,v)` and the zero cells stay zero. (Missing: functions that
return zero on some stored entry, where the code removes under its own iterator.) -/
theorem C14_map_compressed_partial {m : Mat T} (h : Reach m) (hk : m.kind = .csr ∨ m.kind = .csc)
    (f : Nat → Nat → T → T) (n : Nat) (hn : m.nvalues ≤ n)
    (hf : ∀ (i j : Nat) (v : T), isZero v = false → m.at' i j = .ok (v, m) → isZero (f i j v) = false) :
    ∃ (val : Nat → Nat → T) (m' : Mat T), (∀ i j : Nat, i < m.rows → j < m.cols → m.at' i j = .ok (val i j, m)) ∧
      m.drive f n m.iter = .ok m' ∧ m'.rows = m.rows ∧ m'.cols = m.cols ∧
      ∀ i j : Nat, i < m.rows → j < m.cols →
        m'.at' i j = .ok (if isZero (val i j) then val i j else f i j (val i j), m') := by
  have hw := h.wf (by rcases hk with hk | hk <;> simp [hk])
  obtain ⟨es, h1, h2, h3, -, h5⟩ := Mat.entries_ok hw
  have hz := h5 (by rcases hk with hk | hk <;> simp [hk])
  obtain ⟨m', g1, g2, g3, g4, g5⟩ := drive_ok f es n m m.iter h1 (by omega) h2.distinct
    (fun e he => by
      have hr := h2.range e he
      have : isZero (f e.1 e.2.1 e.2.2) = false := hf e.1 e.2.1 e.2.2 (hz e he)
        (by rw [Mat.at_ok hw hr.1 hr.2, h2.value e he])
      rcases hk with hk | hk <;> simp [Mat.Storable, hk, this])
  refine ⟨m.val, m', fun i j hi hj => Mat.at_ok hw hi hj, g1, g3.2.1, g3.2.2, fun i j hi hj => ?_⟩
  rw [Mat.at_ok g2 (by rw [g3.2.1]; exact hi) (by rw [g3.2.2]; exact hj)]
  congr 2
  split
  · rename_i hv
    refine g5 i j hi hj (fun e he hij => ?_)
    have := hz e he
    rw [← h2.value e he, ← hij.1, ← hij.2, hv] at this
    simp at this
  · rename_i hv
    have hne : m.val i j ≠ 0 := by intro h0; rw [h0, isZero_zero] at hv; simp at hv
    exact g4 _ (h2.complete i j hi hj hne)

/-- C14, full statement for CSR: false. Mapping everything to zero on a 1×2 matrix with two stored
values panics. -/
theorem C14_refuted : ∃ s : CSR ℤ, Reach (.csr s) ∧
    ∀ n, 2 ≤ n → (Mat.csr s).drive (fun _ _ _ => 0) n (Mat.csr s).iter = .panic := by
  refine ⟨{ r := 1, c := 2, values := [1, 2], cols := [0, 1], rowStart := [0, 2] },
    Reach.arrCSR (data := [[1, 2]]) (c := 2) (by intro row hr; simp at hr; subst hr; rfl) (by decide), ?_⟩
  intro n hn
  obtain ⟨n, rfl⟩ : ∃ k, n = k + 2 := ⟨n - 2, by omega⟩
  rfl

/-- … and on a 1×3 matrix with two stored values that the function maps selectively, the second
value is skipped or the wrong one removed: a map that should only zero the first entry. -/
theorem C14_refuted_panics_later : ∃ s : CSR ℤ, Reach (.csr s) ∧
    ∀ n, 3 ≤ n → (Mat.csr s).drive (fun _ c v => if c = 0 then 0 else v) n (Mat.csr s).iter ≠
      .ok (.csr { r := 1, c := 3, values := [2, 3], cols := [1, 2], rowStart := [0, 2] }) := by
  refine ⟨{ r := 1, c := 3, values := [1, 2, 3], cols := [0, 1, 2], rowStart := [0, 3] },
    Reach.arrCSR (data := [[1, 2, 3]]) (c := 3) (by intro row hr; simp at hr; subst hr; rfl) (by decide), ?_⟩
  intro n hn
  obtain ⟨n, rfl⟩ : ∃ k, n = k + 3 := ⟨n - 3, by omega⟩
  intro hc
  have : (Mat.csr { r := 1, c := 3, values := [1, 2, 3], cols := [0, 1, 2], rowStart := [0, 3] : CSR ℤ }).drive
    (fun _ c v => if c = 0 then 0 else v) (n + 3) (Mat.iter (.csr { r := 1, c := 3, values := [1, 2, 3], cols := [0, 1, 2], rowStart := [0, 3] : CSR ℤ })) = .panic := rfl
  rw [this] at hc
  simp at hc

example : (Mat.csr ({ r := 1, c := 3, values := [1, 2], cols := [0, 2], rowStart := [0, 2] } : CSR ℤ)).drive
    (fun _ _ v => v * 10) 2 (Mat.iter (.csr { r := 1, c := 3, values := [1, 2], cols := [0, 2], rowStart := [0, 2] : CSR ℤ })) =
    .ok (.csr { r := 1, c := 3, values := [10, 20], cols := [0, 2], rowStart := [0, 2] }) := by decide

end GB
