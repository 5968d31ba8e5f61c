import Verif.Lemmas.Pointer

/-!
# The results of `UpdateReturnPointer` and `SetReturnPointer`: C53
-/

namespace GB

set_option linter.unusedSectionVars false

variable {T : Type} [GoNum T] [GoStore T]

/-! ## The specification -/

/-- Row by row, `p` comes before `(i, j)`. -/
def rowBefore (i j : Nat) (p : Nat × Nat) : Bool := decide (p.1 < i ∨ (p.1 = i ∧ p.2 < j))

/-- Column by column, `p` comes before `(i, j)`. -/
def colBefore (i j : Nat) (p : Nat × Nat) : Bool := decide (p.2 < j ∨ (p.2 = j ∧ p.1 < i))

/-- How many of the cells that satisfy `t` are not zero. -/
def rank (r c : Nat) (g : Nat → Nat → T) (t : Nat × Nat → Bool) : Nat :=
  ((cells r c).filter (fun p => t p && !isZero (g p.1 p.2))).length

/-- The second result: `dim` when the call made a zero cell non-zero, else 0. -/
def grew (dim : Nat) (old new : T) : Nat := if isZero old = true ∧ isZero new = false then dim else 0

/-- A cell as enumerated: not at all when it holds zero. -/
def shown (i j : Nat) (v : T) : List (Nat × Nat × T) := if isZero v then [] else [(i, j, v)]

/-! ## C53 -/

/-- C53 for CSR. `UpdateReturnPointer(i, j, f)` never panics on a cell of the matrix. Its first
result is the number of non-zero cells before `(i, j)`, row by row. Its second result is the number
of rows if a zero cell became non-zero, else 0. The matrix it leaves is the one `Update` leaves. The
enumeration before and after the call differ only in the cell itself, which stands at the position
that was returned. -/
theorem C53_csr_pointer {s : CSR T} (h : Reach (.csr s)) {i j : Nat} (hi : i < s.r) (hj : j < s.c)
    (f : T → T) :
    ∃ (g : Nat → Nat → T) (s' : CSR T) (A B : List (Nat × Nat × T)),
      (∀ a b : Nat, a < s.r → b < s.c → s.at' a b = .ok (g a b, s)) ∧
      s.updateRP i j (fun v => ((), f v)) = .ok ((), s', A.length, grew s.r (g i j) (f (g i j))) ∧
      s.update i j f = .ok s' ∧
      A.length = rank s.r s.c g (rowBefore i j) ∧
      Yields CSR.Iter.hasNext s.step s.iter (A ++ (shown i j (g i j) ++ B)) ∧
      Yields CSR.Iter.hasNext s'.step s'.iter (A ++ (shown i j (f (g i j)) ++ B)) := by
  obtain ⟨rows, hr⟩ := h.inv
  obtain ⟨s', rows', A, B, h1, h2, h3, h4, h5, h6, hA, hB⟩ := CSR.Rep.pointer hr hi hj (fun v => ((), f v))
  refine ⟨cellOf rows, s', A, B, fun a b ha hb => hr.at_ok ha hb, h1, ?_, ?_, ?_, ?_⟩
  · unfold CSR.update CSR.updateWith
    rw [h1]; rfl
  · have hc := hr.faithful.count_filter hr.entries_nz (rowBefore i j)
    rw [h5, filter_part] at hc
    · exact hc
    · intro e he; simpa [rowBefore] using hA e he
    · intro e he
      unfold CSR.cellEntry at he
      split at he
      · simp at he
      · simp at he; simp [rowBefore, he]
    · intro e he
      have := hB e he
      simp only [rowBefore, decide_eq_false_iff_not]
      omega
  · have := hr.yields; rw [h5] at this; exact this
  · have := h2.yields; rw [h6] at this; exact this

/-- C53 for CSC: the same, column by column; the second result is the number of columns. -/
theorem C53_csc_pointer {s : CSC T} (h : Reach (.csc s)) {i j : Nat} (hi : i < s.r) (hj : j < s.c)
    (f : T → T) :
    ∃ (g : Nat → Nat → T) (s' : CSC T) (A B : List (Nat × Nat × T)),
      (∀ a b : Nat, a < s.r → b < s.c → s.at' a b = .ok (g a b, s)) ∧
      s.updateRP i j (fun v => ((), f v)) = .ok ((), s', A.length, grew s.c (g i j) (f (g i j))) ∧
      s.update i j f = .ok s' ∧
      A.length = rank s.r s.c g (colBefore i j) ∧
      Yields CSC.Iter.hasNext s.step s.iter (A ++ (shown i j (g i j) ++ B)) ∧
      Yields CSC.Iter.hasNext s'.step s'.iter (A ++ (shown i j (f (g i j)) ++ B)) := by
  obtain ⟨cols, hr⟩ := h.inv
  obtain ⟨s', cols', A, B, h1, h2, h3, h4, h5, h6, hA, hB⟩ :=
    CSR.Rep.pointer (s := CSC.mir s) hr hj hi (fun v => ((), f v))
  have hup : s.updateRP i j (fun v => ((), f v)) = .ok ((), CSC.unmir s', A.length,
      grew s.c (cellOf cols j i) (f (cellOf cols j i))) := by rw [CSC.updateRP_eq, h1]; rfl
  have hsh : ∀ v : T, (CSR.cellEntry j i v).map CSC.swapE = shown i j v := by
    intro v; unfold CSR.cellEntry shown; split <;> rfl
  have e5 : CSC.entries cols = A.map CSC.swapE ++ (shown i j (cellOf cols j i) ++ B.map CSC.swapE) := by
    unfold CSC.entries; rw [h5, List.map_append, List.map_append, hsh]
  have e6 : CSC.entries cols' = A.map CSC.swapE ++ (shown i j (f (cellOf cols j i)) ++ B.map CSC.swapE) := by
    unfold CSC.entries; rw [h6, List.map_append, List.map_append, hsh]
  refine ⟨fun a b => cellOf cols b a, CSC.unmir s', A.map CSC.swapE, B.map CSC.swapE,
    fun a b ha hb => CSC.Rep.at_ok hr ha hb, by rw [List.length_map]; exact hup, ?_, ?_, ?_, ?_⟩
  · unfold CSC.update CSC.updateWith
    rw [hup]; rfl
  · have hc := (CSC.Rep.faithful hr).count_filter (CSC.Rep.entries_nz hr) (colBefore i j)
    rw [e5, filter_part] at hc
    · exact hc
    · intro e he
      obtain ⟨x, hx, rfl⟩ := List.mem_map.1 he
      exact decide_eq_true (hA x hx)
    · intro e he
      unfold shown at he
      split at he
      · simp at he
      · simp at he; simp [colBefore, he]
    · intro e he
      obtain ⟨x, hx, rfl⟩ := List.mem_map.1 he
      have := hB x hx
      exact decide_eq_false (by show ¬ (x.1 < j ∨ (x.1 = j ∧ x.2.1 < i)); omega)
  · have := CSC.Rep.yields hr; rw [e5] at this; exact this
  · have := CSC.Rep.yields (s := CSC.unmir s') h2; rw [e6] at this; exact this

/-- C53: `SetReturnPointer` is `UpdateReturnPointer` with a constant, and leaves the matrix `Set`
leaves; out of range both panic. -/
theorem C53_set_pointer {s : CSR T} (h : Reach (.csr s)) {t : CSC T} (k : Reach (.csc t)) (v : T) :
    (∀ i j : Nat, i < s.r → j < s.c → ∃ (g : Nat → Nat → T) (s' : CSR T),
      (∀ a b : Nat, a < s.r → b < s.c → s.at' a b = .ok (g a b, s)) ∧ s.set i j v = .ok s' ∧
      s.setRP i j v = .ok (s', rank s.r s.c g (rowBefore i j), grew s.r (g i j) v)) ∧
    (∀ i j : Nat, i < t.r → j < t.c → ∃ (g : Nat → Nat → T) (t' : CSC T),
      (∀ a b : Nat, a < t.r → b < t.c → t.at' a b = .ok (g a b, t)) ∧ t.set i j v = .ok t' ∧
      t.setRP i j v = .ok (t', rank t.r t.c g (colBefore i j), grew t.c (g i j) v)) ∧
    (∀ i j : Int, ¬ (0 ≤ i ∧ i < s.r ∧ 0 ≤ j ∧ j < s.c) → s.setRP i j v = .panic) ∧
    (∀ i j : Int, ¬ (0 ≤ i ∧ i < t.r ∧ 0 ≤ j ∧ j < t.c) → t.setRP i j v = .panic) := by
  have pr : ∀ (a b : Int) (m n : Nat), ¬ (0 ≤ a ∧ a < m ∧ 0 ≤ b ∧ b < n) →
      ¬ (inRange a m = true ∧ inRange b n = true) := by
    intro a b m n hn ⟨h1, h2⟩
    rw [inRange_iff] at h1 h2
    omega
  refine ⟨fun i j hi hj => ?_, fun i j hi hj => ?_, fun i j hn => ?_, fun i j hn => ?_⟩
  · obtain ⟨g, s', A, B, h1, h2, h3, h4, -⟩ := C53_csr_pointer h hi hj (fun _ => v)
    exact ⟨g, s', h1, h3, by unfold CSR.setRP; rw [h2, h4]; rfl⟩
  · obtain ⟨g, t', A, B, h1, h2, h3, h4, -⟩ := C53_csc_pointer k hi hj (fun _ => v)
    exact ⟨g, t', h1, h3, by unfold CSC.setRP; rw [h2, h4]; rfl⟩
  · have := pr _ _ _ _ hn
    unfold CSR.setRP CSR.updateRP
    by_cases h1 : inRange i s.r = true
    · rw [if_pos h1, if_neg (fun h2 => this ⟨h1, h2⟩)]; rfl
    · rw [if_neg h1]; rfl
  · have := pr _ _ _ _ hn
    unfold CSC.setRP CSC.updateRP
    by_cases h1 : inRange i t.r = true
    · rw [if_pos h1, if_neg (fun h2 => this ⟨h1, h2⟩)]; rfl
    · rw [if_neg h1]; rfl

/-- C53: outside the matrix `UpdateReturnPointer` panics, whatever the update function is. -/
theorem C53_outside {β : Type} (s : CSR T) (t : CSC T) (f : T → β × T) :
    (∀ i j : Int, ¬ (0 ≤ i ∧ i < s.r ∧ 0 ≤ j ∧ j < s.c) → s.updateRP i j f = .panic) ∧
    (∀ i j : Int, ¬ (0 ≤ i ∧ i < t.r ∧ 0 ≤ j ∧ j < t.c) → t.updateRP i j f = .panic) := by
  have pr : ∀ (a b : Int) (m n : Nat), ¬ (0 ≤ a ∧ a < m ∧ 0 ≤ b ∧ b < n) →
      ¬ (inRange a m = true ∧ inRange b n = true) := by
    intro a b m n hn ⟨h1, h2⟩
    rw [inRange_iff] at h1 h2
    omega
  refine ⟨fun i j hn => ?_, fun i j hn => ?_⟩
  · have := pr _ _ _ _ hn
    unfold CSR.updateRP
    by_cases h1 : inRange i s.r = true
    · rw [if_pos h1, if_neg (fun h2 => this ⟨h1, h2⟩)]
    · rw [if_neg h1]
  · have := pr _ _ _ _ hn
    unfold CSC.updateRP
    by_cases h1 : inRange i t.r = true
    · rw [if_pos h1, if_neg (fun h2 => this ⟨h1, h2⟩)]
    · rw [if_neg h1]

/-- A cell left of the matrix, and one below it. -/
example : ¬ (0 ≤ (1 : Int) ∧ (1 : Int) < ((2 : Nat) : Int) ∧ 0 ≤ (-1 : Int) ∧ (-1 : Int) < ((3 : Nat) : Int)) ∧
    ({ r := 2, c := 3, values := [5], cols := [1], rowStart := [0, 1, 1] } : CSR ℤ).updateRP 2 0
      (fun v => ((), v + 1)) = .panic := ⟨by omega, rfl⟩

/-- A matrix with entries at (0,1), (1,0) and (1,2). -/
def ptrDemo : CSR ℤ := { r := 2, c := 3, values := [5, 3, 9], cols := [1, 0, 2], rowStart := [0, 1, 3] }

/-- It is reachable. -/
theorem ptrDemo_reach : Reach (.csr ptrDemo) :=
  .call (.set 1 0 3) (.call (.set 1 2 9) (.call (.set 0 1 5) (.newCSR 2 3) rfl) rfl) rfl

/-- After filling (1,1). -/
def ptrFill : CSR ℤ := { r := 2, c := 3, values := [5, 3, 7, 9], cols := [1, 0, 1, 2], rowStart := [0, 1, 4] }

/-- After removing (1,0). -/
def ptrDrop : CSR ℤ := { r := 2, c := 3, values := [5, 9], cols := [1, 2], rowStart := [0, 1, 2] }

/-- Filling (1,1): position 2, and 2 because a cell was added to a matrix of two rows. Removing
(1,0): position 1, and 0. -/
example : ptrDemo.setRP 1 1 7 = .ok (ptrFill, 2, 2) ∧ ptrDemo.setRP 1 0 0 = .ok (ptrDrop, 1, 0) ∧
    rank 2 3 (Mat.val (.csr ptrDemo)) (rowBefore 1 1) = 2 ∧
    rank 2 3 (Mat.val (.csr ptrDemo)) (rowBefore 1 0) = 1 := by decide +kernel

/-- The same cells by columns: (1,1) now has (1,0) and (0,1) before it. -/
example : ∃ t : CSC ℤ, CSC.fromArray [[0, 5, 0], [3, 0, 9]] = .ok t ∧
    (∃ t', t.setRP 1 1 7 = .ok (t', 2, 3)) ∧ ∃ t', t.setRP 1 2 0 = .ok (t', 2, 0) :=
  ⟨_, rfl, ⟨_, rfl⟩, ⟨_, rfl⟩⟩

end GB
