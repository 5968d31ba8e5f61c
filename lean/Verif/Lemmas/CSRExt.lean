import Verif.Lemmas.CSRIter
import Verif.Lemmas.SVec

/-!
# CSR: copies, rows, columns, arrays, mapping
-/

namespace GB

set_option linter.unusedSectionVars false

variable {T : Type} [GoNum T]

namespace CSR

/-- `Copy` is field-for-field equal. -/
theorem Rep.copy_ok {s : CSR T} {rows : List (List (Nat × T))} (h : Rep s rows) :
    s.copy = .ok s := by
  have hcl := h.cols_length
  have hvl := h.values_length
  have hrl := h.rowStart_length
  unfold copy
  obtain ⟨m, h1, h2⟩ := loop_inv
    (f := fun i (m : CSR T) => do
      let x ← idx s.values i
      let vals ← setIdx m.values i x
      let y ← idx s.cols i
      let cols ← setIdx m.cols i y
      .ok { m with values := vals, cols := cols })
    (Inv := fun i m => m.r = s.r ∧ m.c = s.c ∧ m.rowStart = List.replicate (s.r + 1) 0 ∧
      m.values = s.values.take i ++ List.replicate (s.values.length - i) 0 ∧
      m.cols = s.cols.take i ++ List.replicate (s.cols.length - i) 0)
    s.values.length 0 (newL s.r s.c s.values.length) (by simp [newL]; omega)
    (by
      intro i m _ hi ⟨e0, e1, e2, e3, e4⟩
      have hi' : i < s.values.length := by omega
      have hi2 : i < s.cols.length := by omega
      simp only [idx_ok hi', idx_ok hi2, Out.ok_bind, e3, e4, copy_step _ _ hi', copy_step _ _ hi2]
      exact ⟨_, rfl, e0, e1, e2, rfl, rfl⟩)
  rw [h1]
  obtain ⟨e0, e1, e2, e3, e4⟩ := h2
  simp only [Out.ok_bind]
  obtain ⟨m', h1', h2'⟩ := loop_inv
    (f := fun i (m : CSR T) => do
      let x ← idx s.rowStart i
      let rs ← setIdx m.rowStart i x
      .ok { m with rowStart := rs })
    (Inv := fun i m' => m'.r = s.r ∧ m'.c = s.c ∧ m'.values = m.values ∧ m'.cols = m.cols ∧
      m'.rowStart = s.rowStart.take i ++ List.replicate (s.rowStart.length - i) 0)
    s.rowStart.length 0 m (by simp [e0, e1, e2, hrl])
    (by
      intro i m _ hi ⟨e0, e1, e2, e3, e4⟩
      have hi' : i < s.rowStart.length := by omega
      simp only [idx_ok hi', Out.ok_bind, e4, copy_step _ _ hi']
      exact ⟨_, rfl, e0, e1, e2, e3, rfl⟩)
  rw [h1']
  obtain ⟨f0, f1, f2, f3, f4⟩ := h2'
  have e3' : m'.values = s.values := by rw [f2, e3]; simp
  have e4' : m'.cols = s.cols := by rw [f3, e4, hvl, ← hcl]; simp
  have e5' : m'.rowStart = s.rowStart := by rw [f4]; simp
  cases m'; cases s
  simp only at f0 f1 e3' e4' e5'
  rw [f0, f1, e3', e4', e5']

/-- The positions of row `i` in the flat arrays. -/
theorem Rep.row_get {s : CSR T} {rows : List (List (Nat × T))} (h : Rep s rows) {i : Nat}
    (hi : i < s.r) {q : Nat} (hq : q < (rows[i]'(by rw [h.len]; exact hi)).length) :
    idx s.cols (offs rows i + q) = .ok ((rows[i]'(by rw [h.len]; exact hi))[q]).1 ∧
    idx s.values (offs rows i + q) = .ok ((rows[i]'(by rw [h.len]; exact hi))[q]).2 := by
  have hi' : i < rows.length := by rw [h.len]; exact hi
  have e : rows.flatten = ((rows.take i).flatten ++ rows[i].take q) ++
      rows[i][q] :: (rows[i].drop (q + 1) ++ (rows.drop (i + 1)).flatten) := by
    have hrow : rows[i] = rows[i].take q ++ rows[i][q] :: rows[i].drop (q + 1) := by
      conv => lhs; rw [← List.take_append_drop q rows[i], List.drop_eq_getElem_cons hq]
    rw [h.flat hi]
    conv => lhs; rw [hrow]
    simp only [List.append_assoc, List.cons_append]
  have hl : offs rows i + q = ((rows.take i).flatten ++ rows[i].take q).length := by
    simp only [offs, List.length_append, List.length_take]; omega
  constructor
  · rw [h.cols, e, List.map_append, List.map_cons, hl]
    have := idx_append (((rows.take i).flatten ++ rows[i].take q).map Prod.fst)
      ((rows[i].drop (q + 1) ++ (rows.drop (i + 1)).flatten).map Prod.fst) rows[i][q].1
    rw [List.length_map] at this
    exact this
  · rw [h.values, e, List.map_append, List.map_cons, hl]
    have := idx_append (((rows.take i).flatten ++ rows[i].take q).map Prod.snd)
      ((rows[i].drop (q + 1) ++ (rows.drop (i + 1)).flatten).map Prod.snd) rows[i][q].2
    rw [List.length_map] at this
    exact this

theorem mem_take_lt {row : List (Nat × T)} (h : RowSorted row) {q : Nat} (hq : q < row.length) :
    ∀ e ∈ row.take q, e.1 < row[q].1 := by
  intro e he
  obtain ⟨n, hn, rfl⟩ := List.getElem_of_mem he
  simp only [List.length_take] at hn
  rw [List.getElem_take]
  exact List.pairwise_iff_getElem.1 h _ _ _ _ (by omega)

/-- `RowsAt`. -/
theorem Rep.rowsAt_ok {s : CSR T} {rows : List (List (Nat × T))} (h : Rep s rows) {i : Nat}
    (hi : i < s.r) :
    ∃ sv, s.rowsAt i = .ok sv ∧ sv.l = s.c ∧
      SVec.Rep sv (rows[i]'(by rw [h.len]; exact hi)) := by
  have hi' : i < rows.length := by rw [h.len]; exact hi
  unfold rowsAt
  simp only [inRange_natCast, hi, decide_true, if_true, Int.toNat_natCast]
  rw [h.rowStart_get (by omega), h.rowStart_get (by omega)]
  simp only [Out.ok_bind]
  have hstop := offs_succ rows i hi'
  obtain ⟨sv, h1, h2⟩ := loop_inv
    (f := fun k (sv : SVec T) => do
      let c ← idx s.cols k
      let v ← idx s.values k
      sv.setVec c v)
    (Inv := fun k sv => sv.l = s.c ∧ SVec.Rep sv (rows[i].take (k - offs rows i)))
    (offs rows (i + 1) - offs rows i) (offs rows i) (SVec.new s.c)
    ⟨rfl, by simpa using SVec.rep_new s.c⟩
    (by
      intro k sv hk1 hk2 ⟨e0, e1⟩
      have hq : k - offs rows i < rows[i].length := by omega
      have hk : k = offs rows i + (k - offs rows i) := by omega
      obtain ⟨g1, g2⟩ := h.row_get hi hq
      rw [← hk] at g1 g2
      simp only [g1, g2, Out.ok_bind]
      have hm := List.getElem_mem hq
      obtain ⟨sv', p1, p2, p3⟩ := e1.push (i := rows[i][k - offs rows i].1)
        (by rw [e0]; exact h.bound _ (List.getElem_mem hi') _ hm)
        (mem_take_lt (h.sorted _ (List.getElem_mem hi')) hq) (rows[i][k - offs rows i].2)
      refine ⟨sv', p1, by rw [p2, e0], ?_⟩
      have hz := h.nz _ (List.getElem_mem hi') _ hm
      have e : k + 1 - offs rows i = (k - offs rows i) + 1 := by omega
      rw [e, ← List.take_concat_get' _ _ hq]
      simpa [midOf, hz] using p3)
  refine ⟨sv, h1, h2.1, ?_⟩
  have h3 := h2.2
  rw [List.take_of_length_le (by omega)] at h3
  exact h3

/-- `RowsAtToArray`. -/
theorem Rep.rowsAtToArray_ok {s : CSR T} {rows : List (List (Nat × T))} (h : Rep s rows) {i : Nat}
    (hi : i < s.r) :
    s.rowsAtToArray i = .ok ((List.range s.c).map (fun j => cellOf rows i j)) := by
  have hi' : i < rows.length := by rw [h.len]; exact hi
  unfold rowsAtToArray
  simp only [inRange_natCast, hi, decide_true, if_true, Int.toNat_natCast]
  rw [h.rowStart_get (by omega), h.rowStart_get (by omega)]
  simp only [Out.ok_bind]
  have hstop := offs_succ rows i hi'
  have hsort := h.sorted _ (List.getElem_mem hi')
  obtain ⟨l, h1, h2⟩ := loop_inv
    (f := fun k (l : List T) => do
      let c ← idx s.cols k
      let v ← idx s.values k
      setIdx l c v)
    (Inv := fun k l => l = (List.range s.c).map (fun j => rowGet (rows[i].take (k - offs rows i)) j))
    (offs rows (i + 1) - offs rows i) (offs rows i) (List.replicate s.c 0)
    (by
      apply List.ext_getElem
      · simp
      · intro n a b; simp [rowGet])
    (by
      intro k l hk1 hk2 e1
      have hq : k - offs rows i < rows[i].length := by omega
      have hk : k = offs rows i + (k - offs rows i) := by omega
      obtain ⟨g1, g2⟩ := h.row_get hi hq
      rw [← hk] at g1 g2
      simp only [g1, g2, Out.ok_bind]
      have hm := List.getElem_mem hq
      have hb := h.bound _ (List.getElem_mem hi') _ hm
      have hz := h.nz _ (List.getElem_mem hi') _ hm
      have e : k + 1 - offs rows i = (k - offs rows i) + 1 := by omega
      rw [setIdx_ok (by rw [e1]; simpa using hb)]
      refine ⟨_, rfl, ?_⟩
      rw [e, ← List.take_concat_get' _ _ hq]
      have hp := SVec.rowGet_push (mem_take_lt hsort hq) (rows[i][k - offs rows i].2)
      simp only [midOf, hz] at hp
      apply List.ext_getElem
      · rw [e1]; simp
      · intro n a b
        simp only [e1, List.getElem_set, List.getElem_map, List.getElem_range]
        have := hp n
        simp only [Bool.false_eq_true, if_false] at this
        rw [this]
        by_cases hn : rows[i][k - offs rows i].1 = n
        · rw [if_pos hn, if_pos hn.symm]; simp [norm, hz]
        · rw [if_neg hn, if_neg (Ne.symm hn)])
  rw [h1, h2, List.take_of_length_le (by omega)]
  congr 1
  apply List.map_congr_left
  intro j _
  rw [h.cell_eq hi]

/-- The stored entries of column `j`, as a sparse vector's entries. -/
def colEntries (rows : List (List (Nat × T))) (n j : Nat) : List (Nat × T) :=
  (List.range n).flatMap (fun i => midOf i (cellOf rows i j))

theorem colEntries_succ (rows : List (List (Nat × T))) (n j : Nat) :
    colEntries rows (n + 1) j = colEntries rows n j ++ midOf n (cellOf rows n j) := by
  simp [colEntries, List.range_succ]

theorem colEntries_lt (rows : List (List (Nat × T))) (n j : Nat) :
    ∀ e ∈ colEntries rows n j, e.1 < n := by
  intro e he
  unfold colEntries at he
  obtain ⟨i, hi, he⟩ := List.mem_flatMap.1 he
  unfold midOf at he
  split at he
  · simp at he
  · simp at he; rw [he]; simpa using hi

theorem Rep.norm_cell [GoStore T] {s : CSR T} {rows : List (List (Nat × T))} (h : Rep s rows) {i j : Nat}
    (hi : i < s.r) : norm (cellOf rows i j) = cellOf rows i j := by
  have hi' : i < rows.length := by rw [h.len]; exact hi
  obtain ⟨L, M, R, old, hs⟩ := rowSplit_exists (h.sorted _ (List.getElem_mem hi')) j
  rw [h.cell_eq hi, hs.get]
  rcases hs.mid with ⟨rfl, rfl⟩ | rfl
  · simp [norm]
  · have : isZero old = false := h.nz _ (List.getElem_mem hi') (j, old) (by rw [hs.eq]; simp)
    simp [norm, this]

theorem colEntries_get (rows : List (List (Nat × T))) (n j i : Nat) (hi : i < n) :
    rowGet (colEntries rows n j) i = norm (cellOf rows i j) := by
  induction n with
  | zero => omega
  | succ n ih =>
    rw [colEntries_succ, SVec.rowGet_push (colEntries_lt rows n j)]
    by_cases hc : i = n
    · subst hc; rw [if_pos rfl]
    · rw [if_neg hc]; exact ih (by omega)

/-- `ColumnsAt`. -/
theorem Rep.columnsAt_ok [GoStore T] {s : CSR T} {rows : List (List (Nat × T))} (h : Rep s rows) {j : Nat}
    (hj : j < s.c) :
    ∃ sv, s.columnsAt j = .ok sv ∧ sv.l = s.r ∧ SVec.Rep sv (colEntries rows s.r j) := by
  unfold columnsAt
  simp only [inRange_natCast, hj, decide_true, if_true, Int.toNat_natCast]
  obtain ⟨sv, h1, h2⟩ := loop_inv
    (f := fun r (columns : SVec T) => do
      let (pStart, pEnd) ← s.columnIndex r j
      let found ← s.hit pStart pEnd j
      if found then do
        let v ← idx s.values pStart
        columns.setVec r v
      else .ok columns)
    (Inv := fun k sv => sv.l = s.r ∧ SVec.Rep sv (colEntries rows k j))
    s.r 0 (SVec.new s.r) ⟨rfl, by simpa [colEntries] using SVec.rep_new s.r⟩
    (by
      intro i sv _ hi ⟨e0, e1⟩
      have hi : i < s.r := by omega
      have hi' : i < rows.length := by rw [h.len]; exact hi
      obtain ⟨L, M, R, old, hs⟩ := rowSplit_exists (h.sorted _ (List.getElem_mem hi')) j
      obtain ⟨e', g1, g2⟩ := h.columnIndex_ok hi hs
      simp only [g1, Out.ok_bind, g2]
      have hold : cellOf rows i j = old := by rw [h.cell_eq hi, hs.get]
      rw [colEntries_succ, hold]
      rcases hs.mid with ⟨hM, h0⟩ | hM
      · subst hM
        refine ⟨sv, by simp, e0, ?_⟩
        have hz : isZero old = true := by rw [h0]; exact isZero_zero
        simpa [midOf, hz] using e1
      · subst hM
        have hq : L.length < rows[i].length := by rw [hs.eq]; simp
        have g3 := (h.row_get hi hq).2
        have : rows[i][L.length] = (j, old) := by simp only [hs.eq]; simp
        rw [this] at g3
        simp only [g3, Out.ok_bind]
        obtain ⟨sv', p1, p2, p3⟩ := e1.push (i := i) (by omega) (colEntries_lt rows i j) old
        exact ⟨sv', by simpa using p1, by omega, p3⟩)
  refine ⟨sv, h1, h2.1, ?_⟩
  simpa using h2.2

/-! ## Mapping: storing a non-zero value under the iterator -/

theorem entriesFrom_set (rows : List (List (Nat × T))) (i0 i : Nat) (hi : i < rows.length)
    (L R : List (Nat × T)) (x y : Nat × T) (h : rows[i] = L ++ y :: R) :
    entriesFrom i0 (rows.set i (L ++ x :: R)) =
      (entriesFrom i0 rows).set (offs rows i + L.length) (i0 + i, x.1, x.2) := by
  induction rows generalizing i0 i with
  | nil => simp at hi
  | cons row rest ih =>
    cases i with
    | zero =>
      simp only [List.getElem_cons_zero] at h
      subst h
      simp [entriesFrom, offs]
    | succ i =>
      simp only [List.getElem_cons_succ] at h
      simp only [List.set_cons_succ, entriesFrom]
      rw [ih (i0 + 1) i (by simpa using hi) h]
      have : offs (row :: rest) (i + 1) = row.length + offs rest i := by
        simp only [offs, List.take_succ_cons, List.flatten_cons, List.length_append]
      rw [this, List.set_append_right _ _ (by simp; omega)]
      congr 2
      · simp; omega
      · congr 1; omega

theorem Rep.put_ok {s : CSR T} {rows : List (List (Nat × T))} (h : Rep s rows) {it' : Iter} {k : Nat}
    (hk : k < (entriesFrom 0 rows).length) (hit : IterAt s rows it' (k + 1)) (hidx : it'.index = k)
    (hr : it'.r.toNat = (entriesFrom 0 rows)[k].1) {v : T} (hv : isZero v = false) :
    ∃ s' rows', s.put it' v = .ok s' ∧ Rep s' rows' ∧ s'.r = s.r ∧ s'.c = s.c ∧
      IterAt s' rows' it' (k + 1) ∧
      entriesFrom 0 rows' = (entriesFrom 0 rows).set k
        ((entriesFrom 0 rows)[k].1, (entriesFrom 0 rows)[k].2.1, v) ∧
      cellOf rows' (entriesFrom 0 rows)[k].1 (entriesFrom 0 rows)[k].2.1 = v ∧
      ∀ i' j', i' < s.r →
        ¬ (i' = (entriesFrom 0 rows)[k].1 ∧ j' = (entriesFrom 0 rows)[k].2.1) →
        cellOf rows' i' j' = cellOf rows i' j' := by
  have hk' : k < rows.flatten.length := by rw [entriesFrom_length] at hk; exact hk
  have hkv : k < s.values.length := by rw [h.values_length]; exact hk'
  obtain ⟨hir, hjc⟩ := h.faithful.range _ (List.getElem_mem hk)
  -- the row and the position in it
  obtain ⟨i, hi⟩ : ∃ i, i = (entriesFrom 0 rows)[k].1 := ⟨_, rfl⟩
  have hi1 : i < s.r := by omega
  have hi' : i < rows.length := by rw [h.len]; exact hi1
  have hlo : offs rows i ≤ k := by
    by_contra hcon
    -- find the row that holds position `k`
    have key : ∀ n, n ≤ rows.length → k < offs rows n → ∃ r, r < n ∧ offs rows r ≤ k ∧ k < offs rows (r + 1) := by
      intro n
      induction n with
      | zero => intro _ h0; simp [offs] at h0
      | succ n ihn =>
        intro hn hlt
        by_cases hc : offs rows n ≤ k
        · exact ⟨n, by omega, hc, hlt⟩
        · obtain ⟨r, a, b, c⟩ := ihn (by omega) (by omega)
          exact ⟨r, by omega, b, c⟩
    obtain ⟨r, a, b, c⟩ := key i (by omega) (by omega)
    have := entriesFrom_row 0 rows r k (by omega) b c hk
    omega
  have hhi : k < offs rows (i + 1) := by
    by_contra hcon
    have key : ∀ n, n ≤ rows.length → k < offs rows n → ∃ r, r < n ∧ offs rows r ≤ k ∧ k < offs rows (r + 1) := by
      intro n
      induction n with
      | zero => intro _ h0; simp [offs] at h0
      | succ n ihn =>
        intro hn hlt
        by_cases hc : offs rows n ≤ k
        · exact ⟨n, by omega, hc, hlt⟩
        · obtain ⟨r, a, b, c⟩ := ihn (by omega) (by omega)
          exact ⟨r, by omega, b, c⟩
    obtain ⟨r, a, b, c⟩ := key rows.length (by omega) (by rw [offs_length]; exact hk')
    have := entriesFrom_row 0 rows r k (by omega) b c hk
    have : r = i := by omega
    subst this
    omega
  rw [offs_succ _ _ hi'] at hhi
  have hq : k - offs rows i < rows[i].length := by omega
  obtain ⟨q, hqe⟩ : ∃ q, q = k - offs rows i := ⟨_, rfl⟩
  have hkq : k = offs rows i + q := by omega
  rw [← hqe] at hq
  have hsort := h.sorted _ (List.getElem_mem hi')
  have hrow : rows[i] = rows[i].take q ++ rows[i][q] :: rows[i].drop (q + 1) := by
    conv => lhs; rw [← List.take_append_drop q rows[i], List.drop_eq_getElem_cons hq]
  have hent : (entriesFrom 0 rows)[k].2 = rows[i][q] := by
    have e1 : ((entriesFrom 0 rows).map (fun e => e.2))[k]'(by simpa using hk) = rows.flatten[k] := by
      simp only [entriesFrom_map_snd]
    simp only [List.getElem_map] at e1
    rw [e1]
    have g := h.row_get hi1 hq
    rw [← hkq] at g
    have hkc : k < s.cols.length := by rw [h.cols_length]; exact hk'
    rw [idx_ok hkc, idx_ok hkv] at g
    have hc : s.cols[k] = (rows.flatten[k]).1 := by simp only [h.cols, List.getElem_map]
    have hv : s.values[k] = (rows.flatten[k]).2 := by simp only [h.values, List.getElem_map]
    apply Prod.ext
    · rw [← hc]; simpa using g.1
    · rw [← hv]; simpa using g.2
  have hsplit : RowSplit rows[i] (rows[i].take q) [rows[i][q]] (rows[i].drop (q + 1)) rows[i][q].1
      rows[i][q].2 := by
    refine ⟨by simp, mem_take_lt hsort hq, ?_, Or.inr rfl⟩
    intro e he
    unfold RowSorted at hsort
    rw [hrow, List.pairwise_append] at hsort
    exact (List.pairwise_cons.1 hsort.2.1).1 e he
  have hj : rows[i][q].1 < s.c := h.bound _ (List.getElem_mem hi') _ (List.getElem_mem hq)
  obtain ⟨s', a, b, u1, u2, u3, u4, u5, -⟩ := h.updateRP_ok hi1 hj hsplit (fun _ => ((), v))
  have hs' := u5 (by simp) hv
  have hLlen : offs rows i + (rows[i].take q).length = k := by
    rw [List.length_take, Nat.min_eq_left (by omega)]; omega
  simp only at u2 hs'
  rw [hLlen] at hs'
  have hmid : midOf rows[i][q].1 v = [(rows[i][q].1, v)] := by simp [midOf, hv]
  rw [hmid, List.append_assoc, List.singleton_append] at u2
  have hset := entriesFrom_set rows 0 i hi' (rows[i].take q) (rows[i].drop (q + 1))
    (rows[i][q].1, v) rows[i][q] hrow
  rw [hLlen] at hset
  have hE : (entriesFrom 0 rows)[k] = (i, rows[i][q].1, rows[i][q].2) := by
    apply Prod.ext
    · exact hi.symm
    · rw [hent]
  have hlen2 : ∀ m, m ≤ rows.length → offs (rows.set i (rows[i].take q ++ (rows[i][q].1, v) ::
      rows[i].drop (q + 1))) m = offs rows m := by
    intro m hm
    have := offs_set rows i (rows[i].take q ++ (rows[i][q].1, v) :: rows[i].drop (q + 1)) hi' m hm
    have hl2 : (rows[i].take q ++ (rows[i][q].1, v) :: rows[i].drop (q + 1)).length = rows[i].length := by
      simp; omega
    rw [hl2] at this
    omega
  refine ⟨s', _, ?_, u2, u3, u4, ?_, ?_, ?_, ?_⟩
  · unfold put
    rw [hidx, hs', setIdx_ok hkv]
    simp [hv]
  · have hrows := hit.rhi
    refine ⟨?_, hit.last, hit.ps, hit.rlo, by omega, ?_, ?_, hit.hi, ?_⟩
    · rw [← entriesFrom_length 0, hset, List.length_set, entriesFrom_length]; exact hit.size
    · rw [hlen2 _ (by rw [h.len]; omega)]; exact hit.pe
    · rw [hlen2 _ (by rw [h.len]; omega)]; exact hit.lo
    · intro h1 h2
      have : s'.cols = s.cols := by rw [hs']
      simp only [this] at h2 ⊢
      exact hit.col h1 h2
  · rw [hset, hE]; simp
  · rw [hE]
    simp only
    rw [u2.cell_eq (by omega)]
    simp only [List.getElem_set_self]
    have := (hsplit.put_split v).get
    rw [hmid] at this
    simpa [norm, hv] using this
  · rw [hE]
    intro i' j' hi'' hne
    rw [u2.cell_eq (by omega), h.cell_eq hi'', List.getElem_set]
    by_cases hc : i = i'
    · subst hc
      rw [if_pos rfl]
      have := hsplit.get_put_ne v (k := j') (by intro hj; exact hne ⟨rfl, hj⟩)
      rw [hmid] at this
      simpa using this
    · simp only [hc, if_false]

end CSR
end GB
