import Mathlib.Data.List.Nodup
import Verif.Lemmas.History

/-!
# Counting cells, and the entries of one row or column
-/

namespace GB

set_option linter.unusedSectionVars false
set_option linter.unusedSimpArgs false

variable {T : Type} [GoNum T]

theorem mem_cells {r c : Nat} {p : Nat × Nat} : p ∈ cells r c ↔ p.1 < r ∧ p.2 < c := by
  simp only [cells, List.mem_flatMap, List.mem_range, List.mem_map]
  constructor
  · rintro ⟨i, hi, j, hj, rfl⟩; exact ⟨hi, hj⟩
  · rintro ⟨h1, h2⟩; exact ⟨p.1, h1, p.2, h2, rfl⟩

theorem cells_nodup (r c : Nat) : (cells r c).Nodup := by
  unfold cells
  rw [List.nodup_flatMap]
  refine ⟨fun i _ => ?_, ?_⟩
  · exact List.Nodup.map (fun a b h => by simpa using h) List.nodup_range
  · refine List.Pairwise.imp ?_ (List.nodup_range (n := r))
    intro a b hab
    simp only [Function.onFun, List.disjoint_left, List.mem_map, not_exists, not_and]
    rintro x ⟨j, -, rfl⟩ k - h
    simp at h; exact hab h.1.symm

theorem cells_length (r c : Nat) : (cells r c).length = r * c := by
  simp [cells, List.length_flatMap]

theorem Faithful.coords_nodup {r c : Nat} {val : Nat → Nat → T} {es : List (Nat × Nat × T)}
    (h : Faithful r c val es) : (es.map (fun e => (e.1, e.2.1))).Nodup := by
  unfold List.Nodup
  rw [List.pairwise_map]
  exact h.distinct.imp (fun hab heq => by simp at heq; exact hab heq)

/-- A faithful list without zeros has as many entries as there are non-zero cells. -/
theorem Faithful.count [GoStore T] {r c : Nat} {val : Nat → Nat → T} {es : List (Nat × Nat × T)}
    (h : Faithful r c val es) (hz : ∀ e ∈ es, isZero e.2.2 = false) :
    es.length = ((cells r c).filter (fun p => !isZero (val p.1 p.2))).length := by
  rw [← List.length_map (fun e : Nat × Nat × T => (e.1, e.2.1))]
  apply List.Perm.length_eq
  rw [List.perm_ext_iff_of_nodup h.coords_nodup ((cells_nodup r c).filter _)]
  rintro ⟨i, j⟩
  simp only [List.mem_map, List.mem_filter, mem_cells, Bool.not_eq_true']
  constructor
  · rintro ⟨e, he, heq⟩
    simp at heq
    obtain ⟨rfl, rfl⟩ := heq
    refine ⟨h.range e he, ?_⟩
    rw [h.value e he]; exact hz e he
  · rintro ⟨⟨hi, hj⟩, hv⟩
    have hne : val i j ≠ 0 := by
      intro h0; rw [h0, isZero_zero] at hv; simp at hv
    exact ⟨_, h.complete i j hi hj hne, rfl⟩

theorem nz_sorted (g : Nat → T) (n : Nat) : RowSorted (SVec.nz g n) := by
  induction n with
  | zero => exact List.Pairwise.nil
  | succ n ih =>
    rw [SVec.nz_succ]
    unfold RowSorted
    rw [List.pairwise_append]
    refine ⟨ih, ?_, ?_⟩
    · unfold midOf; split <;> simp
    · intro a ha b hb
      have := SVec.nz_lt g n a ha
      unfold midOf at hb
      split at hb
      · simp at hb
      · simp at hb; rw [hb]; exact this

theorem mem_nz (g : Nat → T) (n : Nat) (e : Nat × T) :
    e ∈ SVec.nz g n ↔ e.1 < n ∧ isZero (g e.1) = false ∧ e.2 = g e.1 := by
  unfold SVec.nz midOf
  simp only [List.mem_flatMap, List.mem_range]
  constructor
  · rintro ⟨i, hi, he⟩
    split at he
    · simp at he
    · rename_i hz; simp at he; rw [he]; exact ⟨hi, by simpa using hz, rfl⟩
  · rintro ⟨h1, h2, h3⟩
    refine ⟨e.1, h1, ?_⟩
    rw [h2]; simp [← h3]

/-- Two sorted rows with the same members are equal. -/
theorem RowSorted.ext {a b : List (Nat × T)} (ha : RowSorted a) (hb : RowSorted b)
    (h : ∀ e, e ∈ a ↔ e ∈ b) : a = b := by
  have nd : ∀ {l : List (Nat × T)}, RowSorted l → l.Nodup := by
    intro l hl
    exact hl.imp (fun hab heq => by rw [heq] at hab; omega)
  have hp : a.Perm b := (List.perm_ext_iff_of_nodup (nd ha) (nd hb)).2 h
  exact List.Perm.eq_of_pairwise (le := fun (x y : Nat × T) => x.1 < y.1)
    (fun x y _ _ (h1 : x.1 < y.1) (h2 : y.1 < x.1) => absurd h1 (by omega)) ha hb hp

/-- A sorted row without zeros lists the non-zero cells of the row. -/
theorem row_eq_nz [GoStore T] {row : List (Nat × T)} {n : Nat} (hs : RowSorted row)
    (hb : ∀ e ∈ row, e.1 < n) (hz : ∀ e ∈ row, isZero e.2 = false) :
    row = SVec.nz (fun j => rowGet row j) n := by
  refine RowSorted.ext hs (nz_sorted _ _) (fun e => ?_)
  rw [mem_nz]
  constructor
  · intro he
    rw [CSR.rowGet_of_mem hs he]
    exact ⟨hb e he, hz e he, rfl⟩
  · rintro ⟨h1, h2, h3⟩
    have hne : rowGet row e.1 ≠ 0 := by
      intro h0; rw [h0, isZero_zero] at h2; simp at h2
    have := CSR.mem_of_rowGet hne
    rw [← h3] at this
    exact this

theorem nz_congr {g g' : Nat → T} {n : Nat} (h : ∀ i, i < n → g i = g' i) : SVec.nz g n = SVec.nz g' n := by
  refine RowSorted.ext (nz_sorted _ _) (nz_sorted _ _) (fun e => ?_)
  rw [mem_nz, mem_nz]
  constructor
  · rintro ⟨a, b, c⟩; rw [h _ a] at b c; exact ⟨a, b, c⟩
  · rintro ⟨a, b, c⟩; rw [← h _ a] at b c; exact ⟨a, b, c⟩

theorem nz_map (g : Nat → T) (n : Nat) : (SVec.nz g n).map (fun e => (e.1, (0 : Nat), e.2)) =
    ((List.range n).filter (fun j => !isZero (g j))).map (fun j => (j, 0, g j)) := by
  induction n with
  | zero => rfl
  | succ n ih =>
    rw [SVec.nz_succ, List.map_append, ih, List.range_succ, List.filter_append, List.map_append]
    congr 1
    unfold midOf
    cases h : isZero (g n) <;> simp [h]

end GB
