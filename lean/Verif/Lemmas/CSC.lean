import Verif.Lemmas.CSRExt
import Verif.Model.CSC

/-!
# CSC: every operation is the CSR operation on the mirrored matrix
-/

namespace GB

set_option linter.unusedSectionVars false

variable {T : Type} [GoNum T]

namespace CSC

/-- The CSR matrix with the same arrays, rows and columns exchanged. -/
def mir (s : CSC T) : CSR T :=
  { r := s.c, c := s.r, values := s.values, cols := s.rows, rowStart := s.colStart }

/-- Inverse of `mir`. -/
def unmir (s : CSR T) : CSC T :=
  { r := s.c, c := s.r, values := s.values, rows := s.cols, colStart := s.rowStart }

@[simp] theorem unmir_mir (s : CSC T) : unmir (mir s) = s := rfl
@[simp] theorem mir_unmir (s : CSR T) : mir (unmir s) = s := rfl

theorem mir_inj {s t : CSC T} (h : mir s = mir t) : s = t := by
  rw [← unmir_mir s, h, unmir_mir]

theorem search_eq (xs : List Nat) (i : Nat) : ∀ fuel s e,
    search xs i fuel s e = CSR.search xs i fuel s e := by
  intro fuel
  induction fuel with
  | zero => intro s e; rfl
  | succ fuel ih =>
    intro s e
    unfold search CSR.search
    simp only [ih]

theorem rowIndex_eq (s : CSC T) (r c : Nat) : s.rowIndex r c = (mir s).columnIndex c r := by
  unfold rowIndex CSR.columnIndex
  simp only [search_eq]
  rfl

theorem hit_eq (s : CSC T) (a b r : Nat) : s.hit a b r = (mir s).hit a b r := rfl

theorem insert_eq (s : CSC T) (p r c : Nat) (v : T) :
    s.insert p r c v = (fun x => (unmir x.1, x.2)) <$> (mir s).insert p c r v := by
  unfold insert CSR.insert
  split
  · rfl
  · simp only [map_bind]; rfl

theorem remove_eq (s : CSC T) (p c : Nat) :
    s.remove p c = unmir <$> (mir s).remove p c := by
  unfold remove CSR.remove
  simp only [map_bind]; rfl

theorem updateRP_eq {β : Type} (s : CSC T) (r c : Int) (f : T → β × T) :
    s.updateRP r c f = (fun x => (x.1, unmir x.2.1, x.2.2)) <$> (mir s).updateRP c r f := by
  unfold updateRP CSR.updateRP
  show (if inRange r s.r = true then if inRange c s.c = true then _ else _ else _) =
    _ <$> (if inRange c s.c = true then if inRange r s.r = true then _ else _ else _)
  by_cases h1 : inRange r s.r = true
  · by_cases h2 : inRange c s.c = true
    · simp only [h1, h2, if_true, map_bind, rowIndex_eq, hit_eq]
      congr 1
      funext x
      congr 1
      funext found
      cases found
      · simp only [Bool.false_eq_true, if_false, insert_eq, map_bind, bind_map_left]
        rfl
      · simp only [if_true, map_bind]
        congr 1
        funext old
        split
        · simp only [remove_eq, map_bind, bind_map_left]; rfl
        · simp only [map_bind]; rfl
    · simp [h2]
  · by_cases h2 : inRange c s.c = true
    · simp [h1, h2]
    · simp [h1, h2]

theorem updateWith_eq {β : Type} (s : CSC T) (r c : Int) (f : T → β × T) :
    s.updateWith r c f = (fun x => (x.1, unmir x.2)) <$> (mir s).updateWith c r f := by
  unfold updateWith CSR.updateWith
  simp only [updateRP_eq, map_bind, bind_map_left]
  rfl

theorem update_eq (s : CSC T) (r c : Int) (f : T → T) :
    s.update r c f = unmir <$> (mir s).update c r f := by
  unfold update CSR.update
  simp only [updateWith_eq, map_bind, bind_map_left]
  rfl

theorem at_eq (s : CSC T) (r c : Int) :
    s.at' r c = (fun x => (x.1, unmir x.2)) <$> (mir s).at' c r := updateWith_eq ..

theorem set_eq (s : CSC T) (r c : Int) (v : T) : s.set r c v = unmir <$> (mir s).set c r v :=
  update_eq ..

theorem element_eq (s : CSC T) (r c : Int) :
    s.element r c = (fun x => (x.1, unmir x.2)) <$> (mir s).element c r := updateWith_eq ..

theorem columnsAt_eq (s : CSC T) (c : Int) : s.columnsAt c = (mir s).rowsAt c := rfl

theorem rowsAt_eq (s : CSC T) (r : Int) : s.rowsAt r = (mir s).columnsAt r := by
  unfold rowsAt CSR.columnsAt
  simp only [rowIndex_eq, hit_eq]
  rfl

theorem mir_clear (s : CSC T) : mir s.clear = (mir s).clear := rfl

theorem mir_new (r c : Nat) : mir (new r c : CSC T) = CSR.new c r := rfl

/-! ## Iterators -/

/-- The iterator, mirrored. -/
def mirIt (it : Iter) : CSR.Iter :=
  { size := it.size, last := it.last, c := it.r, r := it.c, cIndex := it.rIndex, index := it.index,
    pointerStart := it.pointerStart, pointerEnd := it.pointerEnd }

/-- Inverse of `mirIt`. -/
def unmirIt (it : CSR.Iter) : Iter :=
  { size := it.size, last := it.last, c := it.r, r := it.c, rIndex := it.cIndex, index := it.index,
    pointerStart := it.pointerStart, pointerEnd := it.pointerEnd }

theorem skip_eq (s : CSC T) : ∀ fuel it,
    s.skip fuel it = unmirIt <$> (mir s).skip fuel (mirIt it) := by
  intro fuel
  induction fuel with
  | zero => intro it; rfl
  | succ fuel ih =>
    intro it
    unfold skip CSR.skip
    by_cases h : it.pointerStart = it.pointerEnd
    · have h' : (mirIt it).pointerStart = (mirIt it).pointerEnd := h
      rw [if_pos h, if_pos h']
      simp only [ih, map_bind]
      rfl
    · have h' : ¬ (mirIt it).pointerStart = (mirIt it).pointerEnd := h
      rw [if_neg h, if_neg h']
      rfl

theorem walk_eq (s : CSC T) : ∀ fuel it,
    s.walk fuel it = unmirIt <$> (mir s).walk fuel (mirIt it) := by
  intro fuel
  induction fuel with
  | zero => intro it; rfl
  | succ fuel ih =>
    intro it
    unfold walk CSR.walk
    by_cases h : it.pointerStart < it.pointerEnd
    · have h' : (mirIt it).pointerStart < (mirIt it).pointerEnd := h
      rw [if_pos h, if_pos h']
      simp only [ih, map_bind]
      congr 1
      funext x
      by_cases hx : x = it.rIndex
      · have hx' : x = (mirIt it).cIndex := hx
        rw [if_pos hx, if_pos hx']; rfl
      · have hx' : ¬ x = (mirIt it).cIndex := hx
        rw [if_neg hx, if_neg hx']; rfl
    · have h' : ¬ (mirIt it).pointerStart < (mirIt it).pointerEnd := h
      rw [if_neg h, if_neg h']
      rfl

theorem next_eq (s : CSC T) (it : Iter) : s.next it = unmirIt <$> (mir s).next (mirIt it) := by
  unfold next CSR.next
  simp only [skip_eq, walk_eq, map_bind, bind_map_left]
  rfl

theorem step_eq (s : CSC T) (it : Iter) :
    s.step it = (fun x => (unmirIt x.1, x.2.2.1, x.2.1, x.2.2.2)) <$> (mir s).step (mirIt it) := by
  unfold step CSR.step
  simp only [next_eq, map_bind, bind_map_left]
  rfl

theorem put_eq (s : CSC T) (it : Iter) (v : T) : s.put it v = unmir <$> (mir s).put (mirIt it) v := by
  unfold put CSR.put
  split
  · simp only [map_bind]; rfl
  · rw [remove_eq]; rfl

/-! ## Representation -/

/-- `s` stores exactly the columns `cols`. -/
def Rep (s : CSC T) (cols : List (List (Nat × T))) : Prop := CSR.Rep (mir s) cols

/-- Row and column exchanged. -/
def swapE (e : Nat × Nat × T) : Nat × Nat × T := (e.2.1, e.1, e.2.2)

theorem Rep.at_ok [GoStore T] {s : CSC T} {cols : List (List (Nat × T))} (h : Rep s cols) {i j : Nat}
    (hi : i < s.r) (hj : j < s.c) : s.at' i j = .ok (cellOf cols j i, s) := by
  rw [at_eq, CSR.Rep.at_ok h hj hi]; rfl

theorem Rep.element_ok [GoStore T] {s : CSC T} {cols : List (List (Nat × T))} (h : Rep s cols) {i j : Nat}
    (hi : i < s.r) (hj : j < s.c) : s.element i j = .ok (GoNum.glt 0 (cellOf cols j i), s) := by
  rw [element_eq, CSR.Rep.element_ok h hj hi]; rfl

theorem Rep.update_cells {s : CSC T} {cols : List (List (Nat × T))} (h : Rep s cols)
    {i j : Nat} (hi : i < s.r) (hj : j < s.c) (f : T → T) :
    ∃ s' cols', s.update i j f = .ok s' ∧ Rep s' cols' ∧
      s'.r = s.r ∧ s'.c = s.c ∧ cellOf cols' j i = norm (f (cellOf cols j i)) ∧
      ∀ i' j', j' < s.c → ¬ (i' = i ∧ j' = j) → cellOf cols' j' i' = cellOf cols j' i' := by
  obtain ⟨s', cols', h1, h2, h3, h4, h5, h6⟩ := CSR.Rep.update_cells (s := mir s) h hj hi f
  refine ⟨unmir s', cols', by rw [update_eq, h1]; rfl, h2, h4, h3, h5, ?_⟩
  intro i' j' hj' hne
  exact h6 j' i' hj' (fun hc => hne ⟨hc.2, hc.1⟩)

theorem updateWith_panic {β : Type} (s : CSC T) (i j : Int) (f : T → β × T)
    (h : ¬ (inRange i s.r = true ∧ inRange j s.c = true)) : s.updateWith i j f = .panic := by
  rw [updateWith_eq, CSR.updateWith_panic (mir s) j i f (fun hc => h ⟨hc.2, hc.1⟩)]; rfl

theorem update_panic (s : CSC T) (i j : Int) (f : T → T)
    (h : ¬ (inRange i s.r = true ∧ inRange j s.c = true)) : s.update i j f = .panic := by
  unfold update; rw [updateWith_panic s i j _ h]; rfl

theorem rep_new (r c : Nat) : Rep (new r c : CSC T) (List.replicate c []) := CSR.rep_new c r

theorem clear_eq (s : CSC T) : s.clear = new s.r s.c := mir_inj (CSR.clear_eq (mir s))

/-- `Copy` is field-for-field equal. -/
theorem Rep.copy_ok {s : CSC T} {cols : List (List (Nat × T))} (h : Rep s cols) :
    s.copy = .ok s := by
  have hcl : s.rows.length = cols.flatten.length := CSR.Rep.cols_length h
  have hvl : s.values.length = cols.flatten.length := CSR.Rep.values_length h
  have hrl : s.colStart.length = s.c + 1 := CSR.Rep.rowStart_length h
  unfold copy
  obtain ⟨m, h1, h2⟩ := loop_inv
    (f := fun i (m : CSC T) => do
      let x ← idx s.values i
      let vals ← setIdx m.values i x
      let y ← idx s.rows i
      let rows ← setIdx m.rows i y
      .ok { m with values := vals, rows := rows })
    (Inv := fun i m => m.r = s.r ∧ m.c = s.c ∧ m.colStart = List.replicate (s.c + 1) 0 ∧
      m.values = s.values.take i ++ List.replicate (s.values.length - i) 0 ∧
      m.rows = s.rows.take i ++ List.replicate (s.rows.length - i) 0)
    s.values.length 0 (newL s.r s.c s.values.length) (by simp [newL]; omega)
    (by
      intro i m _ hi ⟨e0, e1, e2, e3, e4⟩
      have hi' : i < s.values.length := by omega
      have hi2 : i < s.rows.length := by omega
      simp only [idx_ok hi', idx_ok hi2, Out.ok_bind, e3, e4, copy_step _ _ hi', copy_step _ _ hi2]
      exact ⟨_, rfl, e0, e1, e2, rfl, rfl⟩)
  rw [h1]
  obtain ⟨e0, e1, e2, e3, e4⟩ := h2
  simp only [Out.ok_bind]
  obtain ⟨m', h1', h2'⟩ := loop_inv
    (f := fun i (m : CSC T) => do
      let x ← idx s.colStart i
      let rs ← setIdx m.colStart i x
      .ok { m with colStart := rs })
    (Inv := fun i m' => m'.r = s.r ∧ m'.c = s.c ∧ m'.values = m.values ∧ m'.rows = m.rows ∧
      m'.colStart = s.colStart.take i ++ List.replicate (s.colStart.length - i) 0)
    s.colStart.length 0 m (by simp [e0, e1, e2, hrl])
    (by
      intro i m _ hi ⟨e0, e1, e2, e3, e4⟩
      have hi' : i < s.colStart.length := by omega
      simp only [idx_ok hi', Out.ok_bind, e4, copy_step _ _ hi']
      exact ⟨_, rfl, e0, e1, e2, e3, rfl⟩)
  rw [h1']
  obtain ⟨f0, f1, f2, f3, f4⟩ := h2'
  have e3' : m'.values = s.values := by rw [f2, e3]; simp
  have e4' : m'.rows = s.rows := by rw [f3, e4, hvl, ← hcl]; simp
  have e5' : m'.colStart = s.colStart := by rw [f4]; simp
  cases m'; cases s
  simp only at f0 f1 e3' e4' e5'
  rw [f0, f1, e3', e4', e5']

/-- `ColumnsAt`. -/
theorem Rep.columnsAt_ok {s : CSC T} {cols : List (List (Nat × T))} (h : Rep s cols) {j : Nat}
    (hj : j < s.c) :
    ∃ sv, s.columnsAt j = .ok sv ∧ sv.l = s.r ∧
      SVec.Rep sv (cols[j]'(by rw [CSR.Rep.len h]; exact hj)) := CSR.Rep.rowsAt_ok h hj

/-- `RowsAt`. -/
theorem Rep.rowsAt_ok [GoStore T] {s : CSC T} {cols : List (List (Nat × T))} (h : Rep s cols) {i : Nat}
    (hi : i < s.r) :
    ∃ sv, s.rowsAt i = .ok sv ∧ sv.l = s.c ∧ SVec.Rep sv (CSR.colEntries cols s.c i) := by
  rw [rowsAt_eq]
  exact CSR.Rep.columnsAt_ok (s := mir s) h hi

/-- `RowsAtToArray`. -/
theorem Rep.rowsAtToArray_ok {s : CSC T} {cols : List (List (Nat × T))} (h : Rep s cols) {i : Nat}
    (hi : i < s.r) :
    s.rowsAtToArray i = .ok ((List.range s.c).map (fun j => cellOf cols j i)) := by
  unfold rowsAtToArray
  simp only [inRange_natCast, hi, decide_true, if_true, Int.toNat_natCast, rowIndex_eq, hit_eq]
  obtain ⟨l, h1, h2⟩ := loop_inv
    (f := fun c (rows : List T) => do
      let (pStart, pEnd) ← (mir s).columnIndex c i
      let found ← (mir s).hit pStart pEnd i
      if found then do
        let v ← idx s.values pStart
        setIdx rows c v
      else .ok rows)
    (Inv := fun k l => l = (List.range s.c).map (fun j => if j < k then cellOf cols j i else 0))
    s.c 0 (List.replicate s.c 0)
    (by
      apply List.ext_getElem
      · simp
      · intro n a b; simp)
    (by
      intro k l _ hk e1
      have hk : k < (mir s).r := by simpa [mir] using hk
      have hk2 : k < s.c := hk
      have hk' : k < cols.length := by rw [CSR.Rep.len h]; exact hk
      obtain ⟨L, M, R, old, hs⟩ := rowSplit_exists (CSR.Rep.sorted h _ (List.getElem_mem hk')) i
      obtain ⟨e', g1, g2⟩ := CSR.Rep.columnIndex_ok h hk hs
      simp only [g1, Out.ok_bind, g2]
      have hold : cellOf cols k i = old := by rw [CSR.Rep.cell_eq h hk, hs.get]
      rcases hs.mid with ⟨hM, h0⟩ | hM
      · subst hM
        refine ⟨l, by simp, ?_⟩
        rw [e1]
        apply List.map_congr_left
        intro j _
        rcases Nat.lt_trichotomy j k with hjk | hjk | hjk
        · simp [hjk, Nat.lt_succ_of_lt hjk]
        · subst hjk; simp [hold, h0]
        · simp [show ¬ j < k by omega, show ¬ j < k + 1 by omega]
      · subst hM
        have hq : L.length < cols[k].length := by rw [hs.eq]; simp
        have g3 := (CSR.Rep.row_get h hk hq).2
        have : cols[k][L.length] = (i, old) := by simp only [hs.eq]; simp
        rw [this] at g3
        have g3 : idx s.values (offs cols k + L.length) = .ok old := g3
        simp only [g3, Out.ok_bind]
        rw [setIdx_ok (by rw [e1]; simpa using hk2)]
        refine ⟨_, rfl, ?_⟩
        apply List.ext_getElem
        · rw [e1]; simp
        · intro n a b
          simp only [e1, List.getElem_set, List.getElem_map, List.getElem_range]
          by_cases hn : k = n
          · subst hn; simp [hold]
          · have : (n < k + 1) = (n < k) := by apply propext; omega
            simp [hn, this])
  rw [h1, h2]
  congr 1
  apply List.map_congr_left
  intro j hj
  simp at hj
  simp [hj]

/-- The iterator has delivered the first `k` entries. -/
def IterAt (s : CSC T) (cols : List (List (Nat × T))) (it : Iter) (k : Nat) : Prop :=
  CSR.IterAt (mir s) cols (mirIt it) k

theorem Rep.iter_init {s : CSC T} {cols : List (List (Nat × T))} (h : Rep s cols) :
    IterAt s cols s.iter 0 := CSR.Rep.iter_init (s := mir s) h

/-- The entries in the order of iteration (column by column). -/
def entries (cols : List (List (Nat × T))) : List (Nat × Nat × T) :=
  (CSR.entriesFrom 0 cols).map swapE

theorem Rep.step_ok {s : CSC T} {cols : List (List (Nat × T))} (h : Rep s cols) {it : Iter} {k : Nat}
    (hit : IterAt s cols it k) (hk : k < (entries cols).length) :
    ∃ it', s.step it = .ok (it', (entries cols)[k]) ∧ IterAt s cols it' (k + 1) ∧
      it'.index = k ∧ it'.c.toNat = (entries cols)[k].2.1 := by
  have hk' : k < (CSR.entriesFrom 0 cols).length := by simpa [entries] using hk
  obtain ⟨it', h1, h2, h3, h4⟩ := CSR.Rep.step_ok h hit hk'
  refine ⟨unmirIt it', ?_, h2, h3, ?_⟩
  · rw [step_eq, h1]
    simp [entries, swapE]
  · simpa [entries, swapE, unmirIt] using h4

theorem Rep.yields {s : CSC T} {cols : List (List (Nat × T))} (h : Rep s cols) :
    Yields Iter.hasNext s.step s.iter (entries cols) := by
  have key : ∀ es (it : Iter), Yields CSR.Iter.hasNext (mir s).step (mirIt it) es →
      Yields Iter.hasNext s.step it (es.map swapE) := by
    intro es
    induction es with
    | nil => intro it hy; exact hy
    | cons e es ih =>
      intro it ⟨a, it', b, c⟩
      refine ⟨a, unmirIt it', ?_, ih _ c⟩
      rw [step_eq, b]; rfl
  exact key _ _ (CSR.Rep.yields h)

theorem Rep.colMajor {s : CSC T} {cols : List (List (Nat × T))} (h : Rep s cols) :
    ColMajor (entries cols) := by
  unfold ColMajor entries
  rw [List.pairwise_map]
  exact (CSR.Rep.rowMajor h).imp (fun hab => hab)

theorem Rep.faithful {s : CSC T} {cols : List (List (Nat × T))} (h : Rep s cols) :
    Faithful s.r s.c (fun i j => cellOf cols j i) (entries cols) := by
  have hf := CSR.Rep.faithful h
  refine ⟨?_, CSR.ColMajor.distinct (Rep.colMajor h), ?_, ?_⟩
  · intro e he
    obtain ⟨x, hx, rfl⟩ := List.mem_map.1 he
    exact ⟨(hf.range x hx).2, (hf.range x hx).1⟩
  · intro e he
    obtain ⟨x, hx, rfl⟩ := List.mem_map.1 he
    exact hf.value x hx
  · intro i j hi hj hne
    exact List.mem_map.2 ⟨_, hf.complete j i hj hi hne, rfl⟩

theorem Rep.entries_nz {s : CSC T} {cols : List (List (Nat × T))} (h : Rep s cols) :
    ∀ e ∈ entries cols, isZero e.2.2 = false := by
  intro e he
  obtain ⟨x, hx, rfl⟩ := List.mem_map.1 he
  exact CSR.Rep.entries_nz h x hx

theorem Rep.put_ok {s : CSC T} {cols : List (List (Nat × T))} (h : Rep s cols) {it' : Iter} {k : Nat}
    (hk : k < (entries cols).length) (hit : IterAt s cols it' (k + 1)) (hidx : it'.index = k)
    (hr : it'.c.toNat = (entries cols)[k].2.1) {v : T} (hv : isZero v = false) :
    ∃ s' cols', s.put it' v = .ok s' ∧ Rep s' cols' ∧ s'.r = s.r ∧ s'.c = s.c ∧
      IterAt s' cols' it' (k + 1) ∧
      entries cols' = (entries cols).set k ((entries cols)[k].1, (entries cols)[k].2.1, v) ∧
      cellOf cols' (entries cols)[k].2.1 (entries cols)[k].1 = v ∧
      ∀ i' j', j' < s.c →
        ¬ (i' = (entries cols)[k].1 ∧ j' = (entries cols)[k].2.1) →
        cellOf cols' j' i' = cellOf cols j' i' := by
  have hk' : k < (CSR.entriesFrom 0 cols).length := by simpa [entries] using hk
  have e1 : (entries cols)[k] = swapE (CSR.entriesFrom 0 cols)[k] := by simp [entries]
  rw [e1] at hr ⊢
  obtain ⟨s', cols', g1, g2, g3, g4, g5, g6, g7, g8⟩ :=
    CSR.Rep.put_ok (s := mir s) h hk' hit hidx hr hv
  refine ⟨unmir s', cols', by rw [put_eq, g1]; rfl, g2, g4, g3, g5, ?_, g7, ?_⟩
  · unfold entries
    rw [g6, List.map_set]; rfl
  · intro i' j' hj' hne
    exact g8 j' i' hj' (fun hc => hne ⟨hc.2, hc.1⟩)

end CSC
end GB
