import Verif.Lemmas.Ragged
import Verif.Props.Access

/-!
# Arrays that are not rectangular: C69
-/

namespace GB

set_option linter.unusedSectionVars false

variable {T : Type} [GoNum T] [GoStore T]

/-- C69: the constructor accepts the array only if it is rectangular and not empty. -/
def RejectsRagged {α : Type} (ctor : List (List T) → Out α) : Prop :=
  ∀ data, (∃ s, ctor data = .ok s) → data ≠ [] ∧ ∃ c, Rect data c

/-- What holds of the compressed formats: an empty array, and an array with a row shorter than the first,
is rejected; every other array is accepted and the cells beyond the length of the first row are
ignored.

Missing: rows longer than the first are accepted (`C69_refuted`). -/
theorem C69_compressed_partial (data : List (List T)) :
    (CSR.fromArray data = .panic ↔ data = [] ∨ ∃ row ∈ data, row.length < (data.headD []).length) ∧
    (CSC.fromArray data = .panic ↔ data = [] ∨ ∃ row ∈ data, row.length < (data.headD []).length) ∧
    ((data ≠ [] ∧ ∀ row ∈ data, (data.headD []).length ≤ row.length) →
      (∃ s, CSR.fromArray data = .ok s ∧ s.r = data.length ∧ s.c = (data.headD []).length ∧
        ∀ i j : Nat, i < s.r → j < s.c → s.at' i j = .ok (norm (arr data i j), s)) ∧
      (∃ s, CSC.fromArray data = .ok s ∧ s.r = data.length ∧ s.c = (data.headD []).length ∧
        ∀ i j : Nat, i < s.r → j < s.c → s.at' i j = .ok (norm (arr data i j), s))) := by
  rcases data with _ | ⟨row, rest⟩
  · exact ⟨⟨fun _ => Or.inl rfl, fun _ => Mat.fromArray_nil.1⟩, ⟨fun _ => Or.inl rfl, fun _ => Mat.fromArray_nil.2.1⟩,
      fun h => absurd rfl h.1⟩
  set data := row :: rest with hdata
  have hhead : data.headD [] = row := rfl
  have hne : data ≠ [] := by simp [hdata]
  rw [hhead]
  have hR := Mat.fromArray_csr data row rest rfl
  have hC := Mat.fromArray_csc data row rest rfl
  have hok : (∀ x ∈ data, row.length ≤ x.length) →
      (∃ s, CSR.fromArray data = .ok s ∧ s.r = data.length ∧ s.c = row.length ∧
        ∀ i j : Nat, i < s.r → j < s.c → s.at' i j = .ok (norm (arr data i j), s)) ∧
      (∃ s, CSC.fromArray data = .ok s ∧ s.r = data.length ∧ s.c = row.length ∧
        ∀ i j : Nat, i < s.r → j < s.c → s.at' i j = .ok (norm (arr data i j), s)) := by
    intro hall
    set tdata := data.map (List.take row.length) with ht
    have hrect : Rect tdata row.length := by
      intro x hx
      obtain ⟨y, hy, rfl⟩ := List.mem_map.1 hx
      rw [List.length_take]
      have := hall y hy
      omega
    have htl : tdata.length = data.length := by simp [ht]
    have hte : tdata = row.take row.length :: rest.map (List.take row.length) := rfl
    have hrow : (row.take row.length).length = row.length := by simp
    obtain ⟨⟨s1, a1, a2, a3, a4⟩, ⟨s2, b1, b2, b3, b4⟩, -⟩ := C08_fromArray_cells (by simp [hte]) hrect
    have hR' := Mat.fromArray_csr tdata _ _ hte
    have hC' := Mat.fromArray_csc tdata _ _ hte
    rw [hrow, htl, a1, ← Mat.fill_trim _ hall, ← hR, Out.map_ok] at hR'
    rw [hrow, htl, b1, ← Mat.fill_trim _ hall, ← hC, Out.map_ok] at hC'
    have harr : ∀ i j, i < data.length → j < row.length → arr tdata i j = arr data i j := by
      intro i j hi hj
      simp [arr, ht, List.getD, hi, hj]
    refine ⟨⟨s1, ?_, by rw [a2, htl], a3, ?_⟩, ⟨s2, ?_, by rw [b2, htl], b3, ?_⟩⟩
    · cases hf : CSR.fromArray data with
      | ok s => rw [hf, Out.map_ok] at hR'; injection hR' with h; injection h with h; rw [h]
      | panic => rw [hf] at hR'; cases hR'
      | hang => rw [hf] at hR'; cases hR'
    · intro i j hi hj
      rw [a2, htl] at hi
      rw [a3] at hj
      rw [a4 i j (by rw [htl]; exact hi) hj, harr i j hi hj]
    · cases hf : CSC.fromArray data with
      | ok s => rw [hf, Out.map_ok] at hC'; injection hC' with h; injection h with h; rw [h]
      | panic => rw [hf] at hC'; cases hC'
      | hang => rw [hf] at hC'; cases hC'
    · intro i j hi hj
      rw [b2, htl] at hi
      rw [b3] at hj
      rw [b4 i j (by rw [htl]; exact hi) hj, harr i j hi hj]
  have hcase : (∃ x ∈ data, x.length < row.length) ∨ ∀ x ∈ data, row.length ≤ x.length := by
    by_cases h : ∃ x ∈ data, x.length < row.length
    · exact Or.inl h
    · push Not at h; exact Or.inr h
  refine ⟨⟨fun h => ?_, ?_⟩, ⟨fun h => ?_, ?_⟩, fun h => hok h.2⟩
  · rcases hcase with hs | hall
    · exact Or.inr hs
    · obtain ⟨⟨s, e, -⟩, -⟩ := hok hall
      rw [e] at h; cases h
  · rintro (h | h)
    · exact absurd h hne
    · rw [Mat.fill_short (c := row.length) (Mat.csr_new_wf _ _) (by simp [Mat.kind]) rfl rfl h] at hR
      cases hf : CSR.fromArray data with
      | ok s => rw [hf, Out.map_ok] at hR; cases hR
      | panic => rfl
      | hang => rw [hf] at hR; cases hR
  · rcases hcase with hs | hall
    · exact Or.inr hs
    · obtain ⟨-, ⟨s, e, -⟩⟩ := hok hall
      rw [e] at h; cases h
  · rintro (h | h)
    · exact absurd h hne
    · rw [Mat.fill_short (c := row.length) (Mat.csc_new_wf _ _) (by simp [Mat.kind]) rfl rfl h] at hC
      cases hf : CSC.fromArray data with
      | ok s => rw [hf, Out.map_ok] at hC; cases hC
      | panic => rfl
      | hang => rw [hf] at hC; cases hC

/-- What the dense formats do: only the empty array is rejected. The matrix has the dimensions
`len(data)` and `len(data[0])`; inside them `At` and `Set` panic exactly at the cells a short row does
not have, `At` reads the array elsewhere. After `Clear` every cell is there. -/
theorem C69_dense_partial (data : List (List T)) :
    (Dense.fromArray data = .panic ↔ data = []) ∧
    (data ≠ [] → ∃ s, Dense.fromArray data = .ok s ∧ s.r = data.length ∧ s.c = (data.headD []).length ∧
      (∀ i j : Nat, i < s.r → j < s.c →
        (s.at' i j = if j < (data.getD i []).length then .ok (arr data i j) else .panic) ∧
        ∀ v, (s.set i j v = .panic ↔ (data.getD i []).length ≤ j)) ∧
      ∀ i j : Nat, i < s.r → j < s.c → s.clear.at' i j = .ok 0) := by
  rcases data with _ | ⟨row, rest⟩
  · exact ⟨⟨fun _ => rfl, fun _ => Mat.fromArray_nil.2.2⟩, fun h => absurd rfl h⟩
  have hf : Dense.fromArray (row :: rest) = .ok ⟨(row :: rest).length, row.length, row :: rest⟩ := by
    simp [Dense.fromArray, idx, Dense.new]
  refine ⟨⟨fun h => absurd (hf.symm.trans h) (by simp), fun h => absurd h (by simp)⟩, fun _ => ⟨_, hf, rfl, rfl, ?_, ?_⟩⟩
  · intro i j hi hj
    simp only at hi hj
    have hg : (row :: rest).getD i [] = (row :: rest)[i] := by
      rw [List.getD, List.getElem?_eq_getElem hi]; rfl
    rw [hg]
    constructor
    · unfold Dense.at'
      rw [if_pos (by rw [inRange_iff]; simp only; omega), if_pos (by rw [inRange_iff]; simp only; omega)]
      simp only [Int.toNat_natCast, idx_ok hi, Out.ok_bind]
      by_cases hlt : j < ((row :: rest)[i]).length
      · rw [if_pos hlt, idx_ok hlt]
        unfold arr
        rw [hg]
        simp [List.getD, hlt]
      · rw [if_neg hlt]
        simp only [idx]
        rw [List.getElem?_eq_none (by omega)]
    · intro v
      unfold Dense.set
      rw [if_pos (by rw [inRange_iff]; simp only; omega), if_pos (by rw [inRange_iff]; simp only; omega)]
      simp only [Int.toNat_natCast, idx_ok hi, Out.ok_bind]
      by_cases hlt : j < ((row :: rest)[i]).length
      · rw [setIdx_ok hlt, Out.ok_bind, setIdx_ok (by exact hi), Out.ok_bind]
        exact ⟨fun h => absurd h (by simp), fun h => by omega⟩
      · refine ⟨fun _ => by omega, fun _ => ?_⟩
        simp only [setIdx]
        rw [if_neg hlt]; rfl
  · intro i j hi hj
    show (Dense.new (row :: rest).length row.length : Dense T).at' i j = _
    rw [Dense.at_ok (Dense.wf_new _ _) hi hj]
    exact congrArg Out.ok (Dense.cell_new _ _ i j)

/-- The full statement is false of every constructor: a longer second row is accepted by the compressed
formats, which ignore its end, and by the dense ones; a dense matrix made from an array with a short
row has cells inside its dimensions on which `At` panics. -/
theorem C69_refuted : ¬ RejectsRagged (CSR.fromArray (T := ℤ)) ∧ ¬ RejectsRagged (CSC.fromArray (T := ℤ)) ∧
    ¬ RejectsRagged (Dense.fromArray (T := ℤ)) ∧
    (∃ s, Dense.fromArray [[1, 2], [(3 : ℤ)]] = .ok s ∧ s.r = 2 ∧ s.c = 2 ∧ s.at' 1 1 = .panic) := by
  have hnot : ¬ ∃ c, Rect [[(1 : ℤ)], [2, 3]] c := by
    rintro ⟨c, h⟩
    have h1 := h [1] (by simp)
    have h2 := h [2, 3] (by simp)
    simp at h1 h2
    omega
  refine ⟨fun h => hnot (h [[1], [2, 3]] ⟨_, show _ = Out.ok ⟨2, 1, [1, 2], [0, 0], [0, 1, 2]⟩ by decide⟩).2,
    fun h => hnot (h [[1], [2, 3]] ⟨_, show _ = Out.ok ⟨2, 1, [1, 2], [0, 1], [0, 2]⟩ by decide⟩).2,
    fun h => hnot (h [[1], [2, 3]] ⟨_, show _ = Out.ok ⟨2, 1, [[1], [2, 3]]⟩ by decide⟩).2,
    ⟨⟨2, 2, [[1, 2], [3]]⟩, by decide, rfl, rfl, by decide⟩⟩

/-- An array with a short row and one with a long row, for `C69_compressed_partial`. -/
example : CSR.fromArray [[1, 2], [(3 : ℤ)]] = .panic ∧ CSC.fromArray [[1, 2], [(3 : ℤ)]] = .panic ∧
    CSR.fromArray [[1, 2], [0, (4 : ℤ), 5]] = CSR.fromArray [[1, 2], [0, 4]] := by decide

end GB
