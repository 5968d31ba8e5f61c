import Verif.Lemmas.RowEnd

/-!
# One-line compressed matrices: a loop that removes an entry before the end of the line panics

The iterator of a CSR matrix with one row (of a CSC matrix with one column) counts the entries there
were when it was made. Once an entry has been removed and others are still to come, it runs past the
end of the arrays.
-/

namespace GB

set_option linter.unusedSectionVars false

variable {T : Type} [GoNum T]

namespace CSR

/-- The iterator expects more entries than the one line has. -/
structure Late (s : CSR T) (row : List (Nat × T)) (it : Iter) : Prop where
  rep : Rep s [row]
  r : it.r = 0
  last : it.last = it.pointerStart
  pe : it.pointerEnd = it.size
  lt : it.pointerStart < it.size
  short : row.length < it.size
  col : ∀ k (h : k < row.length), it.pointerStart ≤ k → it.cIndex ≤ row[k].1

theorem Late.hasNext {s : CSR T} {row : List (Nat × T)} {it : Iter} (h : Late s row it) : it.hasNext = true := by
  have := h.lt
  have := h.last
  unfold Iter.hasNext
  simp; omega

theorem Late.turn {s : CSR T} {row : List (Nat × T)} {it : Iter} (h : Late s row it) :
    s.step it = .panic ∨ ∃ it' j v, s.step it = .ok (it', 0, j, v) ∧ j < s.c ∧ cellOf [row] 0 j = v ∧
      it.cIndex ≤ j ∧ it'.cIndex = j + 1 ∧ it'.last = it.last + 1 ∧ it'.size = it.size ∧ Late s row it' ∧
      ∀ x, ∃ s1 row1, s1.r = s.r ∧ s1.c = s.c ∧ Late s1 row1 it' ∧ cellOf [row1] 0 j = norm x ∧
        ∀ a b, a < s.r → ¬ (a = 0 ∧ b = j) → cellOf [row1] a b = cellOf [row] a b := by
  have hlt := h.lt
  have hpe := h.pe
  have hskip : skip s (s.rowStart.length + 1) it = .ok it := by
    unfold skip; rw [if_neg (by omega)]
  have hcl : s.cols = row.map Prod.fst := by rw [h.rep.cols]; simp
  have hvl : s.values = row.map Prod.snd := by rw [h.rep.values]; simp
  by_cases hk : it.pointerStart < row.length
  swap
  · left
    unfold step next
    simp only [hskip, Out.ok_bind]
    have : walk s (s.cols.getD it.pointerStart 0 + 1 - it.cIndex + 1) it = .panic := by
      unfold walk
      rw [if_pos (by omega)]
      have : idx s.cols it.pointerStart = .panic := by
        have : s.cols.length ≤ it.pointerStart := by rw [hcl]; simp; omega
        simp [idx, List.getElem?_eq_none this]
      rw [this]; rfl
    rw [this]; rfl
  right
  have hkc : it.pointerStart < s.cols.length := by rw [hcl]; simpa using hk
  have hkv : it.pointerStart < s.values.length := by rw [hvl]; simpa using hk
  have hck : s.cols[it.pointerStart] = row[it.pointerStart].1 := by simp [hcl]
  have hvk : s.values[it.pointerStart] = row[it.pointerStart].2 := by simp [hvl]
  have hcol := h.col _ hk (Nat.le_refl _)
  have hgetD : s.cols.getD it.pointerStart 0 = row[it.pointerStart].1 := by rw [← hck]; simp [List.getD, hkc]
  have hwalk := walk_ok hkc (s.cols.getD it.pointerStart 0 + 1 - it.cIndex + 1) it rfl (by omega)
    (by rw [hck]; exact hcol) (by rw [hgetD, hck]; omega)
  have hrow : row = row.take it.pointerStart ++ row[it.pointerStart] :: row.drop (it.pointerStart + 1) := by
    conv => lhs; rw [← List.take_append_drop it.pointerStart row, List.drop_eq_getElem_cons hk]
  have hso : RowSorted row := h.rep.sorted row (by simp)
  have hsr : s.r = 1 := h.rep.len.symm
  have hlater : ∀ k (hk' : k < row.length), it.pointerStart < k → row[it.pointerStart].1 + 1 ≤ row[k].1 := by
    intro k hk' hlt
    exact List.pairwise_iff_getElem.1 hso _ _ hk hk' hlt
  have hmem : (0, row[it.pointerStart].1, row[it.pointerStart].2) ∈ entriesFrom 0 [row] := by
    rw [mem_entriesFrom]
    exact ⟨0, by simp, by simp, by simp⟩
  refine ⟨⟨it.size, it.last + 1, row[it.pointerStart].1, it.r, row[it.pointerStart].1 + 1, it.pointerStart,
    it.pointerStart + 1, it.pointerEnd⟩, row[it.pointerStart].1, row[it.pointerStart].2, ?_,
    h.rep.bound row (by simp) _ (List.getElem_mem hk), h.rep.faithful.value _ hmem, hcol, rfl, rfl, rfl, ?_, ?_⟩
  · unfold step next
    simp only [hskip, Out.ok_bind, hwalk, idx_ok hkv, hck, hvk, h.r]
    rfl
  · have := h.last
    have := h.short
    exact ⟨h.rep, h.r, by simp only; omega, h.pe, by simp only; omega, h.short,
      fun k hk' hle => hlater k hk' (by simp only at hle; omega)⟩
  intro x
  obtain ⟨s1, k1, k2, k3, k4, k5, k6⟩ := h.rep.put_split (it := ⟨it.size, it.last + 1, row[it.pointerStart].1, it.r,
    row[it.pointerStart].1 + 1, it.pointerStart, it.pointerStart + 1, it.pointerEnd⟩) (i := 0) (v := x)
    (j := row[it.pointerStart].1) (old := row[it.pointerStart].2)
    (L := row.take it.pointerStart) (R := row.drop (it.pointerStart + 1))
    (by simp only [List.getElem?_cons_zero, Option.some.injEq]; exact hrow)
    (by simp [offs]; omega) (fun _ => h.r)
  simp only [List.set_cons_zero] at k2 k5 k6
  refine ⟨s1, _, k3, k4, ⟨k2, h.r, by have := h.last; simp only; omega, h.pe, ?_, ?_, ?_⟩, k5, k6⟩
  · have := h.short; simp only; omega
  · have := h.short
    have hm : (midOf row[it.pointerStart].1 x).length ≤ 1 := by unfold midOf; split <;> simp
    simp only [List.length_append, List.length_take, List.length_drop]; omega
  · intro k hk' hle
    simp only at hle
    have hm : (midOf row[it.pointerStart].1 x).length ≤ 1 := by unfold midOf; split <;> simp
    have hlenL : (row.take it.pointerStart ++ midOf row[it.pointerStart].1 x).length ≤ k := by
      simp only [List.length_append, List.length_take]; omega
    rw [List.getElem_append_right hlenL]
    simp only [List.getElem_drop]
    exact hlater _ _ (by omega)

theorem walk_cIndex {s : CSR T} : ∀ (fuel : Nat) {it it' : Iter}, walk s fuel it = .ok it' →
    it'.last = it.last ∨ it'.cIndex = it'.c + 1 := by
  intro fuel
  induction fuel with
  | zero => intro it it' h; simp [walk] at h
  | succ fuel ih =>
    intro it it' h
    unfold walk at h
    split at h
    · cases hx : idx s.cols it.pointerStart with
      | panic => rw [hx] at h; simp at h
      | hang => rw [hx] at h; simp at h
      | ok x =>
        rw [hx] at h
        simp only [Out.ok_bind] at h
        split at h
        · injection h with h; subst h; right; rfl
        · have := ih h
          exact this
    · injection h with h; subst h; left; rfl

theorem skip_last {s : CSR T} : ∀ (fuel : Nat) {it it' : Iter}, skip s fuel it = .ok it' → it'.last = it.last := by
  intro fuel
  induction fuel with
  | zero => intro it it' h; simp [skip] at h
  | succ fuel ih =>
    intro it it' h
    unfold skip at h
    split at h
    · cases h1 : idxI s.rowStart (it.r + 1) with
      | panic => simp [h1] at h
      | hang => simp [h1] at h
      | ok a =>
        cases h2 : idxI s.rowStart (it.r + 1 + 1) with
        | panic => simp [h1, h2] at h
        | hang => simp [h1, h2] at h
        | ok b =>
          cases h3 : idx s.cols a with
          | panic => simp [h1, h2, h3] at h
          | hang => simp [h1, h2, h3] at h
          | ok c =>
            simp only [h1, h2, h3, Out.ok_bind] at h
            have := ih h
            exact this
    · injection h with h; subst h; rfl

theorem step_cIndex {s : CSR T} {it it' : Iter} {e : Nat × Nat × T} (h : s.step it = .ok (it', e))
    (hl : it'.last ≠ it.last) : it'.cIndex = e.2.1 + 1 := by
  unfold step next at h
  cases h1 : skip s (s.rowStart.length + 1) it with
  | panic => simp [h1] at h
  | hang => simp [h1] at h
  | ok it1 =>
    simp only [h1, Out.ok_bind] at h
    cases h2 : walk s (s.cols.getD it1.pointerStart 0 + 1 - it1.cIndex + 1) it1 with
    | panic => rw [h2] at h; simp at h
    | hang => rw [h2] at h; simp at h
    | ok it2 =>
      simp only [h2, Out.ok_bind] at h
      cases h3 : idx s.values it2.index with
      | panic => simp [h3] at h
      | hang => simp [h3] at h
      | ok v =>
        simp only [h3, Out.ok_bind] at h
        injection h with h
        obtain ⟨rfl, rfl⟩ := Prod.mk.inj h
        rcases walk_cIndex _ h2 with h4 | h4
        · exact absurd (h4.trans (skip_last _ h1)) hl
        · exact h4

/-- Removing an entry that is not the last one of the only line. -/
theorem Rep.late {s : CSR T} {row : List (Nat × T)} (h : Rep s [row]) {it : Iter} {k : Nat}
    (hit : IterAt s [row] it k) (hk : k < (entriesFrom 0 [row]).length) (hk1 : k + 1 < (entriesFrom 0 [row]).length)
    {x : T} (hz : isZero x = true) :
    ∃ it', s.step it = .ok (it', (entriesFrom 0 [row])[k]) ∧ it'.cIndex = (entriesFrom 0 [row])[k].2.1 + 1 ∧
      it'.last = k + 1 ∧ it'.size = row.length ∧
      ∃ s1 row1, s1.r = s.r ∧ s1.c = s.c ∧ Late s1 row1 it' ∧
        cellOf [row1] (entriesFrom 0 [row])[k].1 (entriesFrom 0 [row])[k].2.1 = norm x ∧
        ∀ a b, a < s.r → ¬ (a = (entriesFrom 0 [row])[k].1 ∧ b = (entriesFrom 0 [row])[k].2.1) →
          cellOf [row1] a b = cellOf [row] a b := by
  have hE : entriesFrom 0 [row] = row.map (fun e => (0, e.1, e.2)) := by simp [entriesFrom]
  have hl : (entriesFrom 0 [row]).length = row.length := by rw [hE]; simp
  have hkr : k < row.length := by omega
  have hk1r : k + 1 < row.length := by omega
  have hEk : (entriesFrom 0 [row])[k] = (0, row[k].1, row[k].2) := by simp [hE]
  obtain ⟨it', g1, g2, g3, g4⟩ := h.step_ok hit hk
  have hc := step_cIndex g1 (by rw [g2.last, hit.last]; omega)
  have hsr : s.r = 1 := h.len.symm
  have hr : it'.r = 0 := by
    have h1 := g2.rhi
    rw [hsr] at h1
    have h2 := g2.hi
    rw [g2.pe] at h2
    have h3 := g2.rlo
    by_cases h4 : it'.r < 0
    · have : (it'.r + 1).toNat = 0 := by omega
      rw [this] at h2
      simp [offs] at h2
    · omega
  have hsz : it'.size = row.length := by rw [g2.size]; simp
  have hpe : it'.pointerEnd = row.length := by rw [g2.pe, hr]; simp [offs]
  have hrow : row = row.take k ++ row[k] :: row.drop (k + 1) := by
    conv => lhs; rw [← List.take_append_drop k row, List.drop_eq_getElem_cons hkr]
  rw [hEk] at g1 hc ⊢
  simp only at hc ⊢
  obtain ⟨s1, k1, k2, k3, k4, k5, k6⟩ := h.put_split (it := it') (i := 0) (v := x) (j := row[k].1) (old := row[k].2)
    (L := row.take k) (R := row.drop (k + 1))
    (by simp only [List.getElem?_cons_zero, Option.some.injEq]; exact hrow)
    (by rw [g3]; simp [offs]; omega) (fun _ => hr)
  have hm : midOf row[k].1 x = [] := by simp [midOf, hz]
  simp only [List.set_cons_zero, hm, List.append_nil] at k2 k5 k6
  have hso : RowSorted row := h.sorted row (by simp)
  refine ⟨it', g1, hc, g2.last, hsz, s1, _, k3, k4, ⟨k2, hr, by rw [g2.last, g2.ps], by rw [hpe, hsz], ?_, ?_, ?_⟩, k5, k6⟩
  · rw [g2.ps, hsz]; exact hk1r
  · rw [hsz]; simp; omega
  · intro q hq hle
    rw [g2.ps] at hle
    rw [List.getElem_append_right (by simp; omega)]
    simp only [List.getElem_drop, List.length_take, hc]
    have := List.pairwise_iff_getElem.1 hso k (k + 1 + (q - min k row.length)) hkr (by simp at hq; omega) (by omega)
    exact this

end CSR

namespace Mat

variable [GoStore T]

/-- A CSR matrix with one row or a CSC matrix with one column. -/
def OneLine (m : Mat T) : Prop := (m.kind = .csr ∧ m.rows = 1) ∨ (m.kind = .csc ∧ m.cols = 1)

/-- The iterator of a one-line matrix expects more entries than there are. -/
def LateAt : Mat T → Iter → Prop
  | csr s, .csr it => ∃ row, CSR.Late s row it
  | csc s, .csc it => ∃ row, CSR.Late (CSC.mir s) row (CSC.mirIt it)
  | _, _ => False

/-- How many entries the iterator still expects. -/
def Iter.togo : Iter → Nat
  | .csr it => it.size - it.last
  | .csc it => it.size - it.last
  | _ => 0

/-- The cells of the line that the iterator has not passed. -/
def Iter.ahead : Iter → Nat → Nat → Prop
  | .csr it, _, q => it.cIndex ≤ q
  | .csc it, p, _ => it.rIndex ≤ p
  | _, _, _ => False

theorem LateAt.turn {m : Mat T} {it : Iter} (h : LateAt m it) : it.hasNext = true ∧
    (m.step it = .panic ∨ ∃ it' e, m.step it = .ok (it', e) ∧ e.1 < m.rows ∧ e.2.1 < m.cols ∧
      m.val e.1 e.2.1 = e.2.2 ∧ it.ahead e.1 e.2.1 ∧
      (∀ p q, it'.ahead p q → it.ahead p q ∧ ¬ (p = e.1 ∧ q = e.2.1)) ∧ it'.togo < it.togo ∧ LateAt m it' ∧
      ∀ x m', Wrote m m' e.1 e.2.1 (norm x) → LateAt m' it') := by
  cases m <;> cases it <;> simp only [LateAt] at h
  · rename_i s it
    obtain ⟨row, h⟩ := h
    refine ⟨h.hasNext, ?_⟩
    rcases h.turn with h1 | ⟨it', j, v, h1, h2, h3, h4, h5, h6, h7, h8, h9⟩
    · left; simp [step, h1]
    right
    have hr : s.r = 1 := h.rep.len.symm
    refine ⟨.csr it', (0, j, v), by simp [step, h1], by simp [rows, hr], h2, ?_, h4, ?_, ?_, ⟨row, h8⟩, ?_⟩
    · rw [val_csr h.rep (by show 0 < s.r; omega) h2]; exact h3
    · intro p q hpq
      simp only [Iter.ahead] at hpq ⊢
      omega
    · have := h.lt
      have := h.last
      simp only [Iter.togo]; omega
    · intro x m' hw
      obtain ⟨s1, row1, k1, k2, k3, k4, k5⟩ := h9 x
      have hw' : Wrote (csr s) (csr s1) 0 j (norm x) := by
        refine ⟨⟨_, k3.rep⟩, ⟨rfl, k1, k2⟩, ?_, ?_⟩
        · rw [val_csr k3.rep (by omega) (by omega)]; exact k4
        · intro a b ha hb hne
          rw [val_csr k3.rep (by rw [k1]; exact ha) (by rw [k2]; exact hb), val_csr h.rep ha hb]
          exact k5 a b ha hne
      rw [hw.unique hw']
      exact ⟨row1, k3⟩
  · rename_i s it
    obtain ⟨row, h⟩ := h
    refine ⟨h.hasNext, ?_⟩
    rcases h.turn with h1 | ⟨it', j, v, h1, h2, h3, h4, h5, h6, h7, h8, h9⟩
    · left; simp only [step, CSC.step_eq, h1]; rfl
    right
    have hr : s.c = 1 := h.rep.len.symm
    have hrep : CSC.Rep s [row] := h.rep
    refine ⟨.csc (CSC.unmirIt it'), (j, 0, v), by simp only [step, CSC.step_eq, h1]; rfl, h2, by simp [cols, hr], ?_, h4, ?_, ?_,
      ⟨row, h8⟩, ?_⟩
    · rw [val_csc hrep h2 (by show 0 < s.c; omega)]; exact h3
    · intro p q hpq
      have e1 : (CSC.unmirIt it').rIndex = it'.cIndex := rfl
      have e2 : (CSC.mirIt it).cIndex = it.rIndex := rfl
      simp only [Iter.ahead] at hpq ⊢
      omega
    · have := h.lt
      have := h.last
      have e1 : (CSC.unmirIt it').size = it'.size := rfl
      have e2 : (CSC.mirIt it).size = it.size := rfl
      have e3 : (CSC.unmirIt it').last = it'.last := rfl
      have e4 : (CSC.mirIt it).last = it.last := rfl
      simp only [Iter.togo]; omega
    · intro x m' hw
      obtain ⟨s1, row1, k1, k2, k3, k4, k5⟩ := h9 x
      have hrep' : CSC.Rep (CSC.unmir s1) [row1] := k3.rep
      have hr1 : (CSC.unmir s1).r = s.r := k2
      have hc1 : (CSC.unmir s1).c = s.c := k1
      have hj : j < s.r := h2
      have hw' : Wrote (csc s) (csc (CSC.unmir s1)) j 0 (norm x) := by
        refine ⟨⟨_, hrep'⟩, ⟨rfl, k2, k1⟩, ?_, ?_⟩
        · rw [val_csc hrep' (by omega) (by omega)]; exact k4
        · intro a b ha hb hne
          rw [val_csc hrep' (by rw [hr1]; exact ha) (by rw [hc1]; exact hb), val_csc hrep ha hb]
          exact k5 b a hb (fun hab => hne ⟨hab.2, hab.1⟩)
      rw [hw.unique hw']
      exact ⟨row1, k3⟩

/-- `a` is before `b` in the only line. -/
def Before (k : Kind) (a b : Nat × Nat) : Prop := (k = .csr ∧ a.2 < b.2) ∨ (k = .csc ∧ a.1 < b.1)

theorem MapAt.late {m : Mat T} (h1 : m.OneLine) {it : Iter} {e : Nat × Nat × T} {rest : List (Nat × Nat × T)}
    (h : MapAt m it (e :: rest)) (hne : rest ≠ []) : ∃ it', m.step it = .ok (it', e) ∧
      (∀ p q, it'.ahead p q → Before m.kind (e.1, e.2.1) (p, q)) ∧ it'.togo = rest.length ∧
      ∀ x m', isZero x = true → Wrote m m' e.1 e.2.1 (norm x) → LateAt m' it' := by
  cases m <;> cases it <;> simp only [MapAt] at h
  · rename_i s it
    have hr : s.r = 1 := by
      rcases h1 with h1 | h1
      · exact h1.2
      · exact absurd h1.1 (by simp [kind])
    obtain ⟨rows, k, h, hi, hk, he⟩ := h
    obtain ⟨hk, rfl, rfl⟩ := drop_cons he
    obtain ⟨row, rfl⟩ : ∃ row, rows = [row] := List.length_eq_one_iff.1 (by rw [h.len, hr])
    have hk1 : k + 1 < (CSR.entriesFrom 0 [row]).length := by
      rcases Nat.lt_or_ge (k + 1) (CSR.entriesFrom 0 [row]).length with h' | h'
      · exact h'
      · exact absurd (List.drop_eq_nil_of_le h') hne
    have hl : (CSR.entriesFrom 0 [row]).length = row.length := by simp [CSR.entriesFrom]
    obtain ⟨it', g1, g2, g3, g4, -⟩ := h.late hi hk hk1 (x := (0 : T)) (by exact isZero_zero)
    refine ⟨.csr it', by simp [step, g1], ?_, ?_, ?_⟩
    · intro p q hpq
      simp only [Iter.ahead, g2] at hpq
      exact Or.inl ⟨rfl, hpq⟩
    · simp only [Iter.togo, g3, g4, List.length_drop, hl]
    · intro x m' hz hw
      obtain ⟨it2, g1', -, -, -, s1, row1, k1, k2, k3, k4, k5⟩ := h.late hi hk hk1 (x := x) hz
      rw [g1] at g1'
      obtain rfl : it' = it2 := by injection g1' with g1'; exact (Prod.mk.inj g1').1
      have hrg := h.faithful.range _ (List.getElem_mem hk)
      have hw' : Wrote (csr s) (csr s1) (CSR.entriesFrom 0 [row])[k].1 (CSR.entriesFrom 0 [row])[k].2.1 (norm x) := by
        refine ⟨⟨_, k3.rep⟩, ⟨rfl, k1, k2⟩, ?_, ?_⟩
        · rw [val_csr k3.rep (by rw [k1]; exact hrg.1) (by rw [k2]; exact hrg.2)]; exact k4
        · intro a b ha hb hne
          rw [val_csr k3.rep (by rw [k1]; exact ha) (by rw [k2]; exact hb), val_csr h ha hb]
          exact k5 a b ha hne
      rw [hw.unique hw']
      exact ⟨row1, k3⟩
  · rename_i s it
    have hr : s.c = 1 := by
      rcases h1 with h1 | h1
      · exact absurd h1.1 (by simp [kind])
      · exact h1.2
    obtain ⟨rows, k, h, hi, hk, he⟩ := h
    obtain ⟨hk, rfl, rfl⟩ := drop_cons he
    have h' : CSR.Rep (CSC.mir s) rows := h
    obtain ⟨row, rfl⟩ : ∃ row, rows = [row] := List.length_eq_one_iff.1 (by rw [h'.len]; exact hr)
    have hle : (CSC.entries [row]).length = (CSR.entriesFrom 0 [row]).length := by simp [CSC.entries]
    have hk0 : k < (CSR.entriesFrom 0 [row]).length := by omega
    have hk1 : k + 1 < (CSR.entriesFrom 0 [row]).length := by
      rcases Nat.lt_or_ge (k + 1) (CSR.entriesFrom 0 [row]).length with h' | h'
      · exact h'
      · exact absurd (List.drop_eq_nil_of_le (by omega)) hne
    have hl : (CSR.entriesFrom 0 [row]).length = row.length := by simp [CSR.entriesFrom]
    have hEk : (CSC.entries [row])[k] = CSC.swapE (CSR.entriesFrom 0 [row])[k] := by simp [CSC.entries]
    obtain ⟨it', g1, g2, g3, g4, -⟩ := h'.late hi hk0 hk1 (x := (0 : T)) (by exact isZero_zero)
    rw [hEk]
    refine ⟨.csc (CSC.unmirIt it'), by simp only [step, CSC.step_eq, g1]; rfl, ?_, ?_, ?_⟩
    · intro p q hpq
      have e1 : (CSC.unmirIt it').rIndex = it'.cIndex := rfl
      simp only [Iter.ahead, e1, g2] at hpq
      exact Or.inr ⟨rfl, hpq⟩
    · have e1 : (CSC.unmirIt it').size = it'.size := rfl
      have e3 : (CSC.unmirIt it').last = it'.last := rfl
      simp only [Iter.togo, e1, e3, g3, g4, List.length_drop, hle, hl]
    · intro x m' hz hw
      obtain ⟨it2, g1', -, -, -, s1, row1, k1, k2, k3, k4, k5⟩ := h'.late hi hk0 hk1 (x := x) hz
      rw [g1] at g1'
      obtain rfl : it' = it2 := by injection g1' with g1'; exact (Prod.mk.inj g1').1
      have hrg := h'.faithful.range _ (List.getElem_mem hk0)
      have hrep' : CSC.Rep (CSC.unmir s1) [row1] := k3.rep
      have hr1 : (CSC.unmir s1).r = s.r := k2
      have hc1 : (CSC.unmir s1).c = s.c := k1
      have hw' : Wrote (csc s) (csc (CSC.unmir s1)) (CSR.entriesFrom 0 [row])[k].2.1 (CSR.entriesFrom 0 [row])[k].1 (norm x) := by
        refine ⟨⟨_, hrep'⟩, ⟨rfl, k2, k1⟩, ?_, ?_⟩
        · rw [val_csc hrep' (by rw [hr1]; exact hrg.2) (by rw [hc1]; exact hrg.1)]; exact k4
        · intro a b ha hb hne
          rw [val_csc hrep' (by rw [hr1]; exact ha) (by rw [hc1]; exact hb), val_csc h ha hb]
          exact k5 b a hb (fun hab => hne ⟨hab.2, hab.1⟩)
      rw [hw.unique hw']
      exact ⟨row1, k3⟩
  all_goals rcases h1 with h1 | h1 <;> exact absurd h1.1 (by simp [kind])

/-- A one-line matrix delivers its entries in order. -/
theorem OneLine.ordered {m : Mat T} (h : m.WF) (h1 : m.OneLine) {es : List (Nat × Nat × T)}
    (he : MapAt m m.iter es) : es.Pairwise (fun a b => Before m.kind (a.1, a.2.1) (b.1, b.2.1)) := by
  cases m with
  | csr s =>
    obtain ⟨rows, h⟩ := h
    have hr : s.r = 1 := by
      rcases h1 with h1 | h1
      · exact h1.2
      · exact absurd h1.1 (by simp [kind])
    have hm : MapAt (csr s) (csr s).iter (CSR.entriesFrom 0 rows) := ⟨rows, 0, h, h.iter_init, by omega, by simp⟩
    rw [he.yields.unique hm.yields]
    have hF := h.faithful
    refine List.Pairwise.imp_of_mem ?_ (show RowMajor _ from h.rowMajor)
    intro a b ha hb hab
    have := (hF.range a ha).1
    have := (hF.range b hb).1
    left
    refine ⟨rfl, ?_⟩
    rcases hab with hab | hab
    · omega
    · exact hab.2
  | csc s =>
    obtain ⟨rows, h⟩ := h
    have hr : s.c = 1 := by
      rcases h1 with h1 | h1
      · exact absurd h1.1 (by simp [kind])
      · exact h1.2
    have hm : MapAt (csc s) (csc s).iter (CSC.entries rows) := ⟨rows, 0, h, h.iter_init, by omega, by simp⟩
    rw [he.yields.unique hm.yields]
    have hM : (CSC.entries rows).Pairwise (fun a b => a.2.1 < b.2.1 ∨ (a.2.1 = b.2.1 ∧ a.1 < b.1)) := by
      unfold CSC.entries
      rw [List.pairwise_map]
      exact CSR.Rep.rowMajor h
    have hF := h.faithful
    refine List.Pairwise.imp_of_mem ?_ hM
    intro a b ha hb hab
    have := (hF.range a ha).2
    have := (hF.range b hb).2
    right
    refine ⟨rfl, ?_⟩
    rcases hab with hab | hab
    · omega
    · exact hab.2
  | dense s => rcases h1 with h1 | h1 <;> exact absurd h1.1 (by simp [kind])
  | dvec s => rcases h1 with h1 | h1 <;> exact absurd h1.1 (by simp [kind])
  | svec s => rcases h1 with h1 | h1 <;> exact absurd h1.1 (by simp [kind])

end Mat

section world

variable [GoStore T]

open M

theorem poll_none {w : World T} (hc : w.cancel = none) : poll w = .ok false w := by
  rw [poll_go (by simp [hc])]
  obtain ⟨a, b, c, d, e⟩ := w
  simp only at hc
  subst hc
  rfl

/-- One turn of an iterator loop that is not cancelled. -/
theorem loopIter_turn_ok {p : Ref} {body : Nat → Nat → T → M T (Option Unit)} {g : Nat} {it it' : Mat.Iter} {w w' : World T}
    {e : Nat × Nat × T} (hc : w.cancel = none) (hn : it.hasNext = true) (hs : (w.heap p).step it = .ok (it', e))
    (hb : body e.1 e.2.1 e.2.2 w = .ok none w') :
    loopIter p (some ()) body (g + 1) it w = loopIter p (some ()) body g it' w' := by
  conv => lhs; unfold loopIter
  simp only [hn, if_true]
  rw [bind_ok (poll_none hc)]
  simp only [Bool.false_eq_true, if_false]
  rw [bind_ok (ofObj_ok hs)]
  simp only
  rw [bind_ok hb]

theorem loopIter_turn_panic {p : Ref} {body : Nat → Nat → T → M T (Option Unit)} {g : Nat} {it : Mat.Iter} {w : World T}
    (hc : w.cancel = none) (hn : it.hasNext = true) (hs : (w.heap p).step it = .panic) :
    (loopIter p (some ()) body (g + 1) it w).isPanic = true := by
  unfold loopIter
  simp only [hn, if_true]
  rw [bind_ok (poll_none hc)]
  simp only [Bool.false_eq_true, if_false, bind_apply, ofObj, hs]
  rfl

/-- What a loop body does to the output: nothing, or it stores `F` at the cell. -/
def BodyOk (w : World T) (out : Ref) (skip : Nat → Nat → Bool) (F : Nat → Nat → T)
    (body : Nat → Nat → T → M T (Option Unit)) : Prop :=
  ∀ i j, i < (w.heap out).rows → j < (w.heap out).cols → ∀ m' c, m'.WF →
      Mat.Same m' (w.heap out) → m'.val i j = (w.heap out).val i j →
      ∃ m'', body i j ((w.heap out).val i j) (w.upd out m' c) = .ok none (w.upd out m'' c) ∧
        if skip i j then m'' = m' else Mat.Wrote m' m'' i j ((w.heap out).keep (F i j))

theorem late_panics {w : World T} {out : Ref} {skip : Nat → Nat → Bool} {F : Nat → Nat → T}
    {body : Nat → Nat → T → M T (Option Unit)} (hb : BodyOk w out skip F body)
    (hkeep : ∀ v, (w.heap out).keep v = norm v) :
    ∀ (g : Nat) (it : Mat.Iter) (m' : Mat T), m'.WF → Mat.Same m' (w.heap out) → Mat.LateAt m' it → it.togo ≤ g →
      (∀ i j, i < (w.heap out).rows → j < (w.heap out).cols → it.ahead i j → m'.val i j = (w.heap out).val i j) →
      (loopIter out (some ()) body g it (w.upd out m' none)).isPanic = true := by
  intro g
  induction g with
  | zero =>
    intro it m' hw hs hl hg hv
    clear hw hs hv
    have : 0 < it.togo := by
      cases m' <;> cases it <;> simp only [Mat.LateAt] at hl
      · obtain ⟨row, hl⟩ := hl
        have := hl.lt
        have := hl.last
        simp only [Mat.Iter.togo]; omega
      · rename_i s it
        obtain ⟨row, hl⟩ := hl
        have := hl.lt
        have := hl.last
        have e2 : (CSC.mirIt it).size = it.size := rfl
        have e4 : (CSC.mirIt it).last = it.last := rfl
        simp only [Mat.Iter.togo]; omega
    omega
  | succ g ih =>
    intro it m' hw hs hl hg hv
    obtain ⟨hn, h | ⟨it', e, h1, h2, h3, h4, h5, h6, h7, h8, h9⟩⟩ := hl.turn
    · exact loopIter_turn_panic rfl hn (by rw [World.upd_out]; exact h)
    have hi : e.1 < (w.heap out).rows := by rw [← hs.2.1]; exact h2
    have hj : e.2.1 < (w.heap out).cols := by rw [← hs.2.2]; exact h3
    have hve := hv _ _ hi hj h5
    obtain ⟨m'', k1, k2⟩ := hb e.1 e.2.1 hi hj m' none hw hs hve
    rw [← hve, h4] at k1
    rw [loopIter_turn_ok rfl hn (by rw [World.upd_out]; exact h1) k1]
    by_cases hsk : skip e.1 e.2.1 = true
    · rw [if_pos hsk] at k2
      subst k2
      exact ih it' m'' hw hs h8 (by omega) (fun i j a b c => hv i j a b (h6 i j c).1)
    · rw [if_neg hsk, hkeep] at k2
      refine ih it' m'' k2.wf ⟨k2.same.1.trans hs.1, k2.same.2.1.trans hs.2.1, k2.same.2.2.trans hs.2.2⟩ (h9 _ _ k2) (by omega) ?_
      intro i j a b c
      have := h6 i j c
      rw [k2.miss i j (by rw [hs.2.1]; exact a) (by rw [hs.2.2]; exact b) this.2]
      exact hv i j a b this.1

/-- A loop over a one-line compressed matrix that stores zero at a cell before the last one panics. -/
theorem inplace_panics {w : World T} {out : Ref} {skip : Nat → Nat → Bool} {F : Nat → Nat → T}
    {body : Nat → Nat → T → M T (Option Unit)} (hc : w.cancel = none) (hout : (w.heap out).WF)
    (h1 : (w.heap out).OneLine) (hgas : (w.heap out).nvalues ≤ w.gas) (hb : BodyOk w out skip F body)
    {i j : Nat} (hi : i < (w.heap out).rows) (hj : j < (w.heap out).cols) (hv : (w.heap out).val i j ≠ 0)
    (hs : skip i j = false) (hz : isZero (F i j) = true) (hne : ¬ (w.heap out).LineEnd i j) :
    (forEach out (some ()) body w).isPanic = true := by
  obtain ⟨es, e1, e2, e3, e4, e5, e6⟩ := Mat.visits hout
  have hord := h1.ordered hout e1
  have hkeep : ∀ v, (w.heap out).keep v = norm v := by
    intro v
    unfold Mat.keep
    rcases h1 with hk | hk <;> rw [hk.1]
  have main : ∀ (rest : List (Nat × Nat × T)) (g : Nat) (it : Mat.Iter) (m' : Mat T) (done : List (Nat × Nat × T)),
      es = done ++ rest → Mat.MapAt m' it rest → m'.WF → Mat.Same m' (w.heap out) →
      (∀ p q, p < (w.heap out).rows → q < (w.heap out).cols → (∀ a ∈ done, ¬ (a.1 = p ∧ a.2.1 = q)) →
        m'.val p q = (w.heap out).val p q) → rest.length ≤ g →
      (∃ d e r, rest = d ++ e :: r ∧ skip e.1 e.2.1 = false ∧ isZero (F e.1 e.2.1) = true ∧ r ≠ []) →
      (loopIter out (some ()) body g it (w.upd out m' none)).isPanic = true := by
    intro rest
    induction rest with
    | nil => rintro g it m' done - - - - - - ⟨d, e, r, h, -⟩; simp at h
    | cons e rest ih =>
      intro g it m' done hes hm hw hsm hval hg hex
      obtain ⟨g, rfl⟩ : ∃ k, g = k + 1 := ⟨g - 1, by simp at hg; omega⟩
      have hee : e ∈ es := by rw [hes]; simp
      have hr := e2.range e hee
      have hdone : ∀ a ∈ done, Mat.Before (w.heap out).kind (a.1, a.2.1) (e.1, e.2.1) := by
        intro a ha
        rw [hes, List.pairwise_append] at hord
        exact hord.2.2 a ha e (by simp)
      have hve : m'.val e.1 e.2.1 = (w.heap out).val e.1 e.2.1 := by
        refine hval _ _ hr.1 hr.2 (fun a ha hab => ?_)
        have := hdone a ha
        rcases this with h | h
        · have := h.2; simp only at this; omega
        · have := h.2; simp only at this; omega
      obtain ⟨m'', k1, k2⟩ := hb e.1 e.2.1 hr.1 hr.2 m' none hw hsm hve
      rw [e2.value e hee] at k1
      have hoff : ∀ p q, p < (w.heap out).rows → q < (w.heap out).cols → (∀ a ∈ done ++ [e], ¬ (a.1 = p ∧ a.2.1 = q)) →
          m''.val p q = (w.heap out).val p q := by
        intro p q hp hq hall
        have hd := hval p q hp hq (fun a ha => hall a (by simp [ha]))
        by_cases hsk : skip e.1 e.2.1 = true
        · rw [if_pos hsk] at k2; rw [k2]; exact hd
        · rw [if_neg hsk] at k2
          rw [k2.miss p q (by rw [hsm.2.1]; exact hp) (by rw [hsm.2.2]; exact hq)
            (fun hab => hall e (by simp) ⟨hab.1.symm, hab.2.symm⟩)]
          exact hd
      have h1' : m'.OneLine := by
        rcases h1 with h | h
        · exact Or.inl ⟨hsm.1.trans h.1, hsm.2.1.trans h.2⟩
        · exact Or.inr ⟨hsm.1.trans h.1, hsm.2.2.trans h.2⟩
      by_cases hbad : skip e.1 e.2.1 = false ∧ isZero (F e.1 e.2.1) = true ∧ rest ≠ []
      · obtain ⟨hsk, hzz, hrn⟩ := hbad
        obtain ⟨it', g1, g2, g3, g4⟩ := hm.late h1' hrn
        obtain ⟨hn, -⟩ := hm.cons
        rw [loopIter_turn_ok rfl hn (by rw [World.upd_out]; exact g1) k1]
        rw [if_neg (by simp [hsk]), hkeep] at k2
        refine late_panics hb hkeep g it' m'' k2.wf
          ⟨k2.same.1.trans hsm.1, k2.same.2.1.trans hsm.2.1, k2.same.2.2.trans hsm.2.2⟩ (g4 _ _ hzz k2)
          (by rw [g3]; simp at hg; omega) ?_
        intro p q hp hq ha
        refine hoff p q hp hq (fun a ha' hab => ?_)
        have hb1 := g2 p q ha
        rw [hsm.1] at hb1
        rcases List.mem_append.1 ha' with ha' | ha'
        · have hb2 := hdone a ha'
          rcases hb1 with hb1 | hb1 <;> rcases hb2 with hb2 | hb2 <;>
            first
              | (have := hb1.2; have := hb2.2; simp only at *; omega)
              | (have := hb1.1.symm.trans hb2.1; cases this)
        · obtain rfl := List.mem_singleton.1 ha'
          rcases hb1 with hb1 | hb1 <;> (have := hb1.2; simp only at this; omega)
      · obtain ⟨hn, it', h6, h7, -, -, -, h10⟩ := hm.cons
        rw [loopIter_turn_ok rfl hn (by rw [World.upd_out]; exact h6) k1]
        have hrn : rest ≠ [] := by
          rintro rfl
          obtain ⟨d, e', r, h, -, -, hr'⟩ := hex
          rcases d with _ | ⟨_, d⟩
          · simp at h; exact hr' h.2
          · simp at h
        have hex' : ∃ d e r, rest = d ++ e :: r ∧ skip e.1 e.2.1 = false ∧ isZero (F e.1 e.2.1) = true ∧ r ≠ [] := by
          obtain ⟨d, e', r, h, a1, a2, a3⟩ := hex
          rcases d with _ | ⟨_, d⟩
          · simp only [List.nil_append, List.cons.injEq] at h
            obtain ⟨rfl, rfl⟩ := h
            exact absurd ⟨a1, a2, a3⟩ hbad
          · simp only [List.cons_append, List.cons.injEq] at h
            exact ⟨d, e', r, h.2, a1, a2, a3⟩
        have hlen : rest.length ≤ g := by simp at hg; omega
        by_cases hsk : skip e.1 e.2.1 = true
        · rw [if_pos hsk] at k2
          subst k2
          exact ih g it' m'' (done ++ [e]) (by simp [hes]) h7 hw hsm hoff hlen hex'
        · rw [if_neg hsk] at k2
          have hnz : isZero (F e.1 e.2.1) = false := by
            by_contra hc'
            exact hbad ⟨by simpa using hsk, by simpa using hc', hrn⟩
          have hst : Mat.Storable m'.kind (F e.1 e.2.1) := by
            unfold Mat.Storable
            rcases h1' with hk | hk <;> rw [hk.1] <;> exact hnz
          obtain ⟨m3, -, g2, g3⟩ := h10 _ hst
          have hkn : (w.heap out).keep (F e.1 e.2.1) = F e.1 e.2.1 := by rw [hkeep]; simp [norm, hnz]
          rw [hkn] at k2
          rw [k2.unique g3]
          rw [k2.unique g3] at hoff
          refine ih g it' m3 (done ++ [e]) (by simp [hes]) g2 g3.wf
            ⟨g3.same.1.trans hsm.1, g3.same.2.1.trans hsm.2.1, g3.same.2.2.trans hsm.2.2⟩ hoff hlen hex'
  rw [forEach_eq]
  have hvis : (w.heap out).Visits i j := Or.inr (Or.inr hv)
  obtain ⟨e, he, hce⟩ := (e4 i j hi hj).2 hvis
  obtain ⟨rfl, rfl⟩ : e.1 = i ∧ e.2.1 = j := by simpa [coord] using hce
  obtain ⟨d, r, hdr⟩ := List.append_of_mem he
  have hrne : r ≠ [] := by
    rintro rfl
    refine hne ?_
    have hlast : ∀ x ∈ es, x = e ∨ Mat.Before (w.heap out).kind (x.1, x.2.1) (e.1, e.2.1) := by
      intro x hx
      rw [hdr] at hx
      rcases List.mem_append.1 hx with hx | hx
      · right
        rw [hdr, List.pairwise_append] at hord
        exact hord.2.2 x hx e (by simp)
      · left; simpa using hx
    rcases h1 with hk | hk
    · refine Or.inl ⟨hk.1, fun j' hjj hj' => ?_⟩
      by_contra hnz
      obtain ⟨x, hx, hxc⟩ := (e4 e.1 j' hi hj').2 (Or.inr (Or.inr hnz))
      obtain ⟨h1, h2⟩ : x.1 = e.1 ∧ x.2.1 = j' := by simpa [coord] using hxc
      rcases hlast x hx with rfl | h | h
      · omega
      · have := h.2; simp only at this; omega
      · have := hk.1.symm.trans h.1; cases this
    · refine Or.inr ⟨hk.1, fun i' hii hi' => ?_⟩
      by_contra hnz
      obtain ⟨x, hx, hxc⟩ := (e4 i' e.2.1 hi' hj).2 (Or.inr (Or.inr hnz))
      obtain ⟨h1, h2⟩ : x.1 = i' ∧ x.2.1 = e.2.1 := by simpa [coord] using hxc
      rcases hlast x hx with rfl | h | h
      · omega
      · have := hk.1.symm.trans h.1; cases this
      · have := h.2; simp only at this; omega
  have := main es w.gas (w.heap out).iter (w.heap out) [] rfl e1 hout ⟨rfl, rfl, rfl⟩ (fun _ _ _ _ _ => rfl) (by omega)
    ⟨d, e, r, hdr, hs, hz, hrne⟩
  have hself : w.upd out (w.heap out) none = w := by
    have := w.upd_self out
    rw [hc] at this; exact this
  rwa [hself] at this

end world

end GB
