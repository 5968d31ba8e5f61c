import Verif.Lemmas.CSR2
import Verif.Spec

/-!
# CSR: iteration
-/

namespace GB

set_option linter.unusedSectionVars false

variable {T : Type} [GoNum T]

namespace CSR

/-- The iterator `it` over `s` has delivered the first `k` entries. -/
structure IterAt (s : CSR T) (rows : List (List (Nat × T))) (it : Iter) (k : Nat) : Prop where
  size : it.size = rows.flatten.length
  last : it.last = k
  ps : it.pointerStart = k
  rlo : -1 ≤ it.r
  rhi : (it.r + 1).toNat ≤ s.r
  pe : it.pointerEnd = offs rows (it.r + 1).toNat
  lo : offs rows it.r.toNat ≤ k
  hi : k ≤ it.pointerEnd
  col : k < it.pointerEnd → ∀ h : k < s.cols.length, it.cIndex ≤ s.cols[k]

theorem Rep.iter_init {s : CSR T} {rows : List (List (Nat × T))} (h : Rep s rows) :
    IterAt s rows s.iter 0 := by
  refine ⟨h.values_length, rfl, rfl, ?_, ?_, ?_, ?_, ?_, ?_⟩ <;> simp [iter, offs]

theorem Rep.cols_length {s : CSR T} {rows : List (List (Nat × T))} (h : Rep s rows) :
    s.cols.length = rows.flatten.length := by rw [h.cols, List.length_map]

theorem Rep.rowStart_length {s : CSR T} {rows : List (List (Nat × T))} (h : Rep s rows) :
    s.rowStart.length = s.r + 1 := by rw [h.starts]; simp

/-- First loop of `next`. -/
theorem Rep.skip_ok {s : CSR T} {rows : List (List (Nat × T))} (h : Rep s rows) {k : Nat}
    (hk : k < rows.flatten.length) :
    ∀ (fuel : Nat) (it : Iter), IterAt s rows it k → s.r + 1 - (it.r + 1).toNat < fuel →
      ∃ it', skip s fuel it = .ok it' ∧ IterAt s rows it' k ∧ k < it'.pointerEnd ∧ 0 ≤ it'.r := by
  intro fuel
  induction fuel with
  | zero => intro it _ hf; omega
  | succ fuel ih =>
    intro it hit hf
    unfold skip
    by_cases heq : it.pointerStart = it.pointerEnd
    · rw [if_pos heq]
      have hlo := hit.rlo
      have hpe := hit.pe
      have hlt : (it.r + 1).toNat < s.r := by
        rcases Nat.lt_or_ge (it.r + 1).toNat s.r with hlt | hge
        · exact hlt
        · have hle := hit.rhi
          have : (it.r + 1).toNat = s.r := by omega
          rw [this, h.offs_r, ← heq, hit.ps] at hpe
          omega
      obtain ⟨n, hn⟩ : ∃ n : Nat, it.r + 1 = n := ⟨(it.r + 1).toNat, by omega⟩
      have hn' : (it.r + 1).toNat = n := by omega
      rw [hn'] at hlt hpe
      have hps := hit.ps
      have hoff : offs rows n = k := by omega
      have e1 : idxI s.rowStart (it.r + 1) = .ok k := by
        rw [hn, idxI_nat, h.rowStart_get (by omega), hoff]
      have e2 : idxI s.rowStart (it.r + 1 + 1) = .ok (offs rows (n + 1)) := by
        rw [hn]
        have : ((n : Int) + 1) = ((n + 1 : Nat) : Int) := by omega
        rw [this, idxI_nat, h.rowStart_get (by omega)]
      have hkc : k < s.cols.length := by rw [h.cols_length]; exact hk
      simp only [e1, e2, Out.ok_bind, idx_ok hkc]
      apply ih
      · refine ⟨hit.size, hit.last, rfl, ?_, ?_, ?_, ?_, ?_, ?_⟩
        · simp only; omega
        · simp only; omega
        · simp only
          have : (it.r + 1 + 1).toNat = n + 1 := by omega
          rw [this]
        · simp only; rw [hn', hoff]
        · simp only; rw [← hoff]; exact offs_mono rows (by omega)
        · intro _ _; simp
      · simp only; omega
    · rw [if_neg heq]
      have h1 := hit.hi
      have h2 := hit.ps
      refine ⟨it, rfl, hit, by omega, ?_⟩
      by_contra hneg
      have hlo := hit.rlo
      have hr : it.r = -1 := by omega
      have := hit.pe
      rw [hr] at this
      simp [offs] at this
      omega

/-- Second loop of `next`. -/
theorem walk_ok {s : CSR T} {k : Nat} (hk : k < s.cols.length) :
    ∀ (fuel : Nat) (it : Iter), it.pointerStart = k → k < it.pointerEnd → it.cIndex ≤ s.cols[k] →
      s.cols[k] - it.cIndex < fuel →
      walk s fuel it = .ok { it with index := k, pointerStart := k + 1, c := s.cols[k],
                                     cIndex := s.cols[k] + 1, last := it.last + 1 } := by
  intro fuel
  induction fuel with
  | zero => intro it _ _ _ hf; omega
  | succ fuel ih =>
    intro it h1 h2 h3 hf
    unfold walk
    rw [if_pos (by omega), h1, idx_ok hk]
    simp only [Out.ok_bind]
    by_cases heq : s.cols[k] = it.cIndex
    · rw [if_pos heq, ← heq]
    · rw [if_neg heq]
      have := ih { it with cIndex := it.cIndex + 1, pointerStart := k } rfl h2 (by simp only; omega)
        (by simp only; omega)
      simpa [h1] using this

theorem Rep.col_lt_succ {s : CSR T} {rows : List (List (Nat × T))} (h : Rep s rows) {i k : Nat}
    (hi : i < s.r) (h1 : offs rows i ≤ k) (h2 : k + 1 < offs rows (i + 1))
    (hk : k + 1 < s.cols.length) : s.cols[k] < s.cols[k + 1] := by
  have hi' : i < rows.length := by rw [h.len]; exact hi
  have hrow := h.sorted _ (List.getElem_mem hi')
  rw [offs_succ _ _ hi'] at h2
  have hc : ∀ m, offs rows i ≤ m → (hm : m < offs rows i + rows[i].length) → (hm' : m < s.cols.length) →
      s.cols[m] = (rows[i][m - offs rows i]'(by omega)).1 := by
    intro m hm1 hm2 hm'
    have e : s.cols = (rows.take i).flatten.map Prod.fst ++ (rows[i].map Prod.fst ++
        (rows.drop (i + 1)).flatten.map Prod.fst) := by rw [h.cols, h.flat hi]; simp
    simp only [e]
    rw [List.getElem_append_right (by simp only [List.length_map]; exact hm1),
      List.getElem_append_left (by simp only [List.length_map]; unfold offs at *; omega)]
    simp only [List.getElem_map, List.length_map]
    rfl
  rw [hc k h1 (by omega) (by omega), hc (k + 1) (by omega) (by omega) hk]
  exact List.pairwise_iff_getElem.1 hrow _ _ _ _ (by omega)

/-- `Next` delivers the entries in order. -/
theorem Rep.step_ok {s : CSR T} {rows : List (List (Nat × T))} (h : Rep s rows) {it : Iter} {k : Nat}
    (hit : IterAt s rows it k) (hk : k < (entriesFrom 0 rows).length) :
    ∃ it', s.step it = .ok (it', (entriesFrom 0 rows)[k]) ∧ IterAt s rows it' (k + 1) ∧
      it'.index = k ∧ it'.r.toNat = (entriesFrom 0 rows)[k].1 := by
  have hk' : k < rows.flatten.length := by rw [entriesFrom_length] at hk; exact hk
  have hkc : k < s.cols.length := by rw [h.cols_length]; exact hk'
  have hkv : k < s.values.length := by rw [h.values_length]; exact hk'
  obtain ⟨it1, h1, hit1, hlt, hr0⟩ := h.skip_ok hk' (s.rowStart.length + 1) it hit
    (by rw [h.rowStart_length]; omega)
  have hps := hit1.ps
  have hgetD : s.cols.getD it1.pointerStart 0 = s.cols[k] := by
    rw [hps]; simp [List.getD, hkc]
  have hcol := hit1.col hlt hkc
  have hwalk := walk_ok hkc (s.cols.getD it1.pointerStart 0 + 1 - it1.cIndex + 1) it1 hps hlt hcol
    (by rw [hgetD]; omega)
  have hrr : (it1.r + 1).toNat = it1.r.toNat + 1 := by omega
  have hrhi := hit1.rhi
  have hrlt : it1.r.toNat < s.r := by omega
  have hpe := hit1.pe
  rw [hrr] at hpe
  have hrow : (entriesFrom 0 rows)[k].1 = it1.r.toNat := by
    have := entriesFrom_row 0 rows it1.r.toNat k (by rw [h.len]; exact hrlt) hit1.lo (by omega) hk
    omega
  have hpair : (entriesFrom 0 rows)[k].2 = rows.flatten[k] := by
    have : ((entriesFrom 0 rows).map (fun e => e.2))[k]'(by simpa using hk) = rows.flatten[k] := by
      simp only [entriesFrom_map_snd]
    simpa using this
  have hc : s.cols[k] = (rows.flatten[k]).1 := by simp only [h.cols, List.getElem_map]
  have hv : s.values[k] = (rows.flatten[k]).2 := by simp only [h.values, List.getElem_map]
  unfold step next
  simp only [h1, Out.ok_bind, hwalk, idx_ok hkv]
  refine ⟨⟨it1.size, it1.last + 1, s.cols[k], it1.r, s.cols[k] + 1, k, k + 1, it1.pointerEnd⟩, ?_, ⟨hit1.size, ?_, ?_, hit1.rlo, hit1.rhi, hit1.pe, ?_, ?_, ?_⟩, rfl, ?_⟩
  · congr 2
    rw [hc, hv]
    apply Prod.ext
    · exact hrow.symm
    · rw [hpair]
  · simp only [hit1.last]
  · rfl
  · have := hit1.lo; simp only; omega
  · simp only; omega
  · intro hlt2 hk2
    simp only at hlt2 ⊢
    exact h.col_lt_succ hrlt hit1.lo (by omega) hk2
  · exact hrow.symm

theorem Rep.yields_aux {s : CSR T} {rows : List (List (Nat × T))} (h : Rep s rows) :
    ∀ (n k : Nat) (it : Iter), n + k = (entriesFrom 0 rows).length → IterAt s rows it k →
      Yields Iter.hasNext s.step it ((entriesFrom 0 rows).drop k) := by
  intro n
  induction n with
  | zero =>
    intro k it hn hit
    rw [List.drop_eq_nil_of_le (by omega)]
    simp only [Yields, Iter.hasNext, hit.last, hit.size]
    rw [entriesFrom_length] at hn
    simp; simp at hn; omega
  | succ n ih =>
    intro k it hn hit
    have hk : k < (entriesFrom 0 rows).length := by omega
    rw [List.drop_eq_getElem_cons hk]
    obtain ⟨it', h1, h2, -, -⟩ := h.step_ok hit hk
    refine ⟨?_, it', h1, ih (k + 1) it' (by omega) h2⟩
    rw [entriesFrom_length] at hk
    simp only [Iter.hasNext, hit.last, hit.size]
    simpa using hk

/-- Enumerating yields exactly the entries. -/
theorem Rep.yields {s : CSR T} {rows : List (List (Nat × T))} (h : Rep s rows) :
    Yields Iter.hasNext s.step s.iter (entriesFrom 0 rows) := by
  have := h.yields_aux (entriesFrom 0 rows).length 0 s.iter (by omega) h.iter_init
  simpa using this

/-! ## The entries are faithful -/

theorem rowGet_of_mem {row : List (Nat × T)} (h : RowSorted row) {e : Nat × T} (he : e ∈ row) :
    rowGet row e.1 = e.2 := by
  induction row with
  | nil => simp at he
  | cons x row ih =>
    have h' := List.pairwise_cons.1 h
    rcases List.mem_cons.1 he with rfl | he
    · exact rowGet_cons_self
    · rw [rowGet_cons_ne (by have := h'.1 e he; omega)]
      exact ih h'.2 he

theorem mem_of_rowGet {row : List (Nat × T)} {j : Nat} (h : rowGet row j ≠ 0) :
    (j, rowGet row j) ∈ row := by
  unfold rowGet at *
  split at h
  · rename_i e he
    have h1 := List.mem_of_find?_eq_some he
    have h2 := List.find?_some he
    simp at h2
    rw [← h2]; exact h1
  · exact absurd rfl h

theorem entriesFrom_rowMajor (rows : List (List (Nat × T))) (h : ∀ row ∈ rows, RowSorted row)
    (i : Nat) : RowMajor (entriesFrom i rows) := by
  induction rows generalizing i with
  | nil => exact List.Pairwise.nil
  | cons row rest ih =>
    unfold RowMajor entriesFrom
    rw [List.pairwise_append]
    refine ⟨?_, ih (fun r hr => h r (List.mem_cons_of_mem _ hr)) (i + 1), ?_⟩
    · rw [List.pairwise_map]
      exact (h row List.mem_cons_self).imp (fun hab => Or.inr ⟨rfl, hab⟩)
    · intro a ha b hb
      obtain ⟨x, _, rfl⟩ := List.mem_map.1 ha
      obtain ⟨n, _, hn, _⟩ := mem_entriesFrom.1 hb
      left; simp only; omega

theorem RowMajor.distinct {es : List (Nat × Nat × T)} (h : RowMajor es) :
    es.Pairwise (fun a b => ¬ (a.1 = b.1 ∧ a.2.1 = b.2.1)) :=
  h.imp (fun hab => by omega)

theorem ColMajor.distinct {es : List (Nat × Nat × T)} (h : ColMajor es) :
    es.Pairwise (fun a b => ¬ (a.1 = b.1 ∧ a.2.1 = b.2.1)) :=
  h.imp (fun hab => by omega)

theorem Rep.rowMajor {s : CSR T} {rows : List (List (Nat × T))} (h : Rep s rows) :
    RowMajor (entriesFrom 0 rows) := entriesFrom_rowMajor rows h.sorted 0

theorem Rep.entries_nz {s : CSR T} {rows : List (List (Nat × T))} (h : Rep s rows) :
    ∀ e ∈ entriesFrom 0 rows, isZero e.2.2 = false := by
  intro e he
  obtain ⟨i, hi, _, hm⟩ := mem_entriesFrom.1 he
  exact h.nz _ (List.getElem_mem hi) _ hm

theorem Rep.faithful {s : CSR T} {rows : List (List (Nat × T))} (h : Rep s rows) :
    Faithful s.r s.c (cellOf rows) (entriesFrom 0 rows) := by
  refine ⟨?_, RowMajor.distinct h.rowMajor, ?_, ?_⟩
  · intro e he
    obtain ⟨i, hi, h1, hm⟩ := mem_entriesFrom.1 he
    refine ⟨?_, h.bound _ (List.getElem_mem hi) _ hm⟩
    rw [← h.len]; omega
  · intro e he
    obtain ⟨i, hi, h1, hm⟩ := mem_entriesFrom.1 he
    have : e.1 = i := by omega
    rw [this, h.cell_eq (by rw [← h.len]; exact hi)]
    exact rowGet_of_mem (h.sorted _ (List.getElem_mem hi)) hm
  · intro i j hi hj hne
    rw [h.cell_eq hi] at hne ⊢
    rw [mem_entriesFrom]
    exact ⟨i, by rw [h.len]; exact hi, by simp, mem_of_rowGet hne⟩

end CSR
end GB
