import Verif.Model.Signed
import Verif.Props.Storage

/-!
# C67, C68: negative dimensions and sizes
-/

namespace GB

set_option linter.unusedSectionVars false

section
variable {T : Type} [GoNum T]

namespace IMat

theorem nat_ofMat (m : Mat T) : (ofMat m).nat = m := by cases m <;> rfl

theorem rows_ofMat (m : Mat T) : (ofMat m).rows = m.rows := by cases m <;> rfl

theorem cols_ofMat (m : Mat T) : (ofMat m).cols = m.cols := by cases m <;> rfl

theorem goMake_nat {α : Type} (n : Nat) (z : α) : goMake (n : Int) z = .ok (List.replicate n z) := by
  unfold goMake
  rw [if_neg (by omega), Int.toNat_natCast]

theorem newCSR_nat (r c : Nat) : newCSR (T := T) r c = .ok (ofMat (.csr (CSR.new r c))) := by
  unfold newCSR
  rw [show ((r : Int) + 1) = ((r + 1 : Nat) : Int) by omega, goMake_nat]
  rfl

theorem newCSC_nat (r c : Nat) : newCSC (T := T) r c = .ok (ofMat (.csc (CSC.new r c))) := by
  unfold newCSC
  rw [show ((c : Int) + 1) = ((c + 1 : Nat) : Int) by omega, goMake_nat]
  rfl

theorem newDense_nat (r c : Nat) : newDense (T := T) r c = .ok (ofMat (.dense (Dense.new r c))) := by
  unfold newDense
  rw [goMake_nat, Out.ok_bind, List.length_replicate]
  rw [loop_fill r ([] : List T) (fun _ => List.replicate c 0) _ (fun i l _ => by rw [goMake_nat]; rfl), Out.ok_bind]
  simp [ofMat, Dense.new]

theorem newDVec_nat (l : Nat) : newDVec (T := T) l = .ok (ofMat (.dvec (DVec.new l))) := by
  unfold newDVec
  rw [goMake_nat]
  rfl

theorem newSVec_nat (l : Nat) : newSVec (T := T) l = .ok (ofMat (.svec (SVec.new l))) := rfl

theorem check_ok (m : Mat T) (i j : Int) : (ofMat m).check i j = if inRange i m.rows && inRange j m.cols then .ok () else .panic := by
  unfold check
  rw [rows_ofMat, cols_ofMat]
  by_cases h1 : i < 0 ∨ i ≥ (m.rows : Int)
  · rw [if_pos h1, if_neg]
    rw [Bool.and_eq_true, inRange_iff]
    omega
  · rw [if_neg h1]
    by_cases h2 : j < 0 ∨ j ≥ (m.cols : Int)
    · rw [if_pos h2, if_neg]
      rw [Bool.and_eq_true, inRange_iff, inRange_iff]
      omega
    · rw [if_neg h2, if_pos]
      rw [Bool.and_eq_true, inRange_iff, inRange_iff]
      omega

/-- The signed model on natural dimensions is the model used everywhere else: `Set`. -/
theorem set_ofMat (m : Mat T) (i j : Int) (v : T) : (ofMat m).set i j v = ofMat <$> m.set i j v := by
  unfold set
  rw [check_ok, nat_ofMat]
  by_cases h : (inRange i m.rows && inRange j m.cols) = true
  · rw [if_pos h]
    cases m.set i j v <;> rfl
  · rw [if_neg h]
    have e : m.set i j v = .panic := by
      rw [Bool.and_eq_true] at h
      cases m with
      | csr s => simp [Mat.set, CSR.set, CSR.update_panic _ _ _ _ h]
      | csc s => simp [Mat.set, CSC.set, CSC.update_panic _ _ _ _ h]
      | dense s => simp [Mat.set, Dense.set_panic _ _ _ _ h]
      | dvec s =>
        by_cases h1 : inRange i s.l = true
        · simp [Mat.set, DVec.set, h1, show inRange j 1 = false by simpa [Mat.rows, Mat.cols, h1] using h]
        · simp [Mat.set, DVec.set, h1]
      | svec s =>
        by_cases h1 : inRange i s.l = true
        · simp [Mat.set, SVec.set, h1, show inRange j 1 = false by simpa [Mat.rows, Mat.cols, h1] using h]
        · simp [Mat.set, SVec.set, h1]
    rw [e]
    rfl

/-- … `Update`. -/
theorem update_ofMat (m : Mat T) (i j : Int) (f : T → T) : (ofMat m).update i j f = ofMat <$> m.update i j f := by
  unfold update
  rw [check_ok, nat_ofMat]
  by_cases h : (inRange i m.rows && inRange j m.cols) = true
  · rw [if_pos h]
    cases m.update i j f <;> rfl
  · rw [if_neg h]
    have e : m.update i j f = .panic := by
      rw [Bool.and_eq_true] at h
      cases m with
      | csr s => simp [Mat.update, CSR.update_panic _ _ _ _ h]
      | csc s => simp [Mat.update, CSC.update_panic _ _ _ _ h]
      | dense s => simp [Mat.update, Dense.update, Dense.updateWith_panic _ _ _ _ h]
      | dvec s =>
        by_cases h1 : inRange i s.l = true
        · simp [Mat.update, DVec.update, DVec.updateWith, h1, show inRange j 1 = false by simpa [Mat.rows, Mat.cols, h1] using h]
        · simp [Mat.update, DVec.update, DVec.updateWith, h1]
      | svec s =>
        by_cases h1 : inRange i s.l = true
        · simp [Mat.update, SVec.update, SVec.updateWith, h1, show inRange j 1 = false by simpa [Mat.rows, Mat.cols, h1] using h]
        · simp [Mat.update, SVec.update, SVec.updateWith, h1]
    rw [e]
    rfl

/-- … `At`. -/
theorem at_ofMat (m : Mat T) (i j : Int) : (ofMat m).at' i j = (fun p => (p.1, ofMat p.2)) <$> m.at' i j := by
  have main : ∀ m : Mat T, (∀ s, m ≠ .dvec s) → ((ofMat m).check i j >>= fun _ => (ofMat m).nat.at' i j >>= fun p => .ok (p.1, ofMat p.2)) =
      (fun p => (p.1, ofMat p.2)) <$> m.at' i j := by
    intro m hm
    rw [check_ok, nat_ofMat]
    by_cases h : (inRange i m.rows && inRange j m.cols) = true
    · rw [if_pos h]
      cases m.at' i j <;> rfl
    · rw [if_neg h]
      have e : m.at' i j = .panic := by
        rw [Bool.and_eq_true] at h
        cases m with
        | csr s => simp [Mat.at', CSR.at', CSR.updateWith_panic _ _ _ _ h]
        | csc s => simp [Mat.at', CSC.at', CSC.updateWith_panic _ _ _ _ h]
        | dense s => simp [Mat.at', Dense.at_panic _ _ _ h]
        | dvec s => exact absurd rfl (hm s)
        | svec s =>
          by_cases h1 : inRange i s.l = true
          · simp [Mat.at', SVec.at', SVec.updateWith, h1, show inRange j 1 = false by simpa [Mat.rows, Mat.cols, h1] using h]
          · simp [Mat.at', SVec.at', SVec.updateWith, h1]
      rw [e]
      rfl
  cases m with
  | csr s => exact main _ (by simp)
  | csc s => exact main _ (by simp)
  | dense s => exact main _ (by simp)
  | svec s => exact main _ (by simp)
  | dvec s =>
    show ((ofMat (.dvec s) : IMat T).check i 0 >>= fun _ => (ofMat (.dvec s) : IMat T).nat.at' i j >>= fun p => .ok (p.1, ofMat p.2)) = _
    rw [check_ok, nat_ofMat]
    by_cases h : inRange i s.l = true
    · rw [if_pos (by simpa [Mat.rows, Mat.cols, h] using (by decide : inRange 0 1 = true))]
      cases (Mat.dvec s).at' i j <;> rfl
    · rw [if_neg (by simp [Mat.rows, h])]
      simp [Mat.at', DVec.at', DVec.atVec, h]

end IMat
end

/-- C67 in full, for a constructor with two dimensions: it panics exactly when a dimension is negative, and
otherwise returns a matrix of that shape that reads zero everywhere. -/
def CtorCorrect (T : Type) [GoNum T] (new : Int → Int → Out (IMat T)) : Prop := ∀ r c,
  ((r < 0 ∨ c < 0) → new r c = .panic) ∧
  (0 ≤ r → 0 ≤ c → ∃ m, new r c = .ok m ∧ m.rows = r ∧ m.cols = c ∧
    ∀ i j, 0 ≤ i → i < r → 0 ≤ j → j < c → m.at' i j = .ok (0, m))

section
variable {T : Type} [GoNum T] [GoStore T]

theorem IMat.zero_of_nat {m : Mat T} (h : m.WF) (hz : ∀ i j, i < m.rows → j < m.cols → m.val i j = 0) {i j : Int}
    (h1 : 0 ≤ i) (h2 : i < m.rows) (h3 : 0 ≤ j) (h4 : j < m.cols) : (IMat.ofMat m).at' i j = .ok (0, IMat.ofMat m) := by
  lift i to ℕ using h1
  lift j to ℕ using h3
  have hi : i < m.rows := by omega
  have hj : j < m.cols := by omega
  rw [IMat.at_ofMat, Mat.at_ok h hi hj, hz i j hi hj]
  rfl

/-- C67, the part that holds: with dimensions that are not negative every constructor returns an object of
exactly that shape, and every cell reads zero.

Missing: negative dimensions are not always rejected: `C67_csr_panics_iff`, …, `C67_refuted`. -/
theorem C67_new_partial {r c : Int} (hr : 0 ≤ r) (hc : 0 ≤ c) :
    ∀ new ∈ [(IMat.newCSR : Int → Int → Out (IMat T)), IMat.newCSC, IMat.newDense],
      ∃ m, new r c = .ok m ∧ m.rows = r ∧ m.cols = c ∧
        ∀ i j, 0 ≤ i → i < r → 0 ≤ j → j < c → m.at' i j = .ok (0, m) := by
  lift r to ℕ using hr
  lift c to ℕ using hc
  intro new hn
  simp only [List.mem_cons, List.not_mem_nil, or_false] at hn
  rcases hn with rfl | rfl | rfl
  · exact ⟨_, IMat.newCSR_nat r c, rfl, rfl, fun i j h1 h2 h3 h4 => IMat.zero_of_nat (m := .csr (CSR.new r c))
      (Mat.csr_new_wf r c) (fun i j hi hj => Mat.csr_new_val r c hi hj) h1 h2 h3 h4⟩
  · exact ⟨_, IMat.newCSC_nat r c, rfl, rfl, fun i j h1 h2 h3 h4 => IMat.zero_of_nat (m := .csc (CSC.new r c))
      (Mat.csc_new_wf r c) (fun i j hi hj => Mat.csc_new_val r c hi hj) h1 h2 h3 h4⟩
  · exact ⟨_, IMat.newDense_nat r c, rfl, rfl, fun i j h1 h2 h3 h4 => IMat.zero_of_nat (m := .dense (Dense.new r c))
      (Dense.wf_new r c) (fun i j hi hj => Mat.dense_new_val r c hi hj) h1 h2 h3 h4⟩

/-- C67 for vectors. -/
theorem C67_new_vector_partial {l : Int} (hl : 0 ≤ l) :
    ∀ new ∈ [(IMat.newDVec : Int → Out (IMat T)), IMat.newSVec],
      ∃ m, new l = .ok m ∧ m.rows = l ∧ m.cols = 1 ∧ ∀ i, 0 ≤ i → i < l → m.at' i 0 = .ok (0, m) := by
  lift l to ℕ using hl
  intro new hn
  simp only [List.mem_cons, List.not_mem_nil, or_false] at hn
  rcases hn with rfl | rfl
  · exact ⟨_, IMat.newDVec_nat l, rfl, rfl, fun i h1 h2 => IMat.zero_of_nat (m := .dvec (DVec.new l))
      (DVec.wf_new l) (fun i j hi hj => Mat.dvec_new_val l hi) h1 h2 (Int.le_refl _) (show (0 : Int) < (1 : Nat) by decide)⟩
  · refine ⟨_, IMat.newSVec_nat l, rfl, rfl, fun i h1 h2 => IMat.zero_of_nat (m := .svec (SVec.new l))
      (show (Mat.svec (SVec.new l)).WF from ⟨[], SVec.rep_new l, by simp [SVec.Packed]⟩) (fun i j hi hj => ?_) h1 h2 (Int.le_refl _) (show (0 : Int) < (1 : Nat) by decide)⟩
    obtain rfl : j = 0 := by have : j < 1 := hj; omega
    rw [Mat.val_svec (SVec.rep_new l) hi]
    simp [rowGet]

end

section
variable {T : Type} [GoNum T]

theorem goMake_panic {α : Type} {n : Int} {z : α} : goMake n z = .panic ↔ n < 0 := by
  unfold goMake
  by_cases h : n < 0
  · simp [h]
  · simp [h]

/-- C67, CSR: only a row count below −1 is rejected. -/
theorem C67_csr_panics_iff (r c : Int) : IMat.newCSR (T := T) r c = .panic ↔ r < -1 := by
  unfold IMat.newCSR goMake
  by_cases h : r + 1 < 0
  · rw [if_pos h]; exact ⟨fun _ => by omega, fun _ => rfl⟩
  · rw [if_neg h]; exact ⟨nofun, fun _ => by omega⟩

/-- C67, CSC: only a column count below −1. -/
theorem C67_csc_panics_iff (r c : Int) : IMat.newCSC (T := T) r c = .panic ↔ c < -1 := by
  unfold IMat.newCSC goMake
  by_cases h : c + 1 < 0
  · rw [if_pos h]; exact ⟨fun _ => by omega, fun _ => rfl⟩
  · rw [if_neg h]; exact ⟨nofun, fun _ => by omega⟩

/-- C67, dense: a negative row count, or a negative column count when there is a row. -/
theorem C67_dense_panics_iff (r c : Int) : IMat.newDense (T := T) r c = .panic ↔ r < 0 ∨ (0 < r ∧ c < 0) := by
  by_cases h : r < 0
  · unfold IMat.newDense
    rw [goMake_panic.2 h]
    exact ⟨fun _ => Or.inl h, fun _ => rfl⟩
  · push Not at h
    lift r to ℕ using h
    by_cases hc : c < 0
    · unfold IMat.newDense
      rw [IMat.goMake_nat, Out.ok_bind, List.length_replicate]
      cases r with
      | zero => exact ⟨nofun, fun h => by omega⟩
      | succ n =>
        have e : goMake c (0 : T) = .panic := goMake_panic.2 hc
        refine ⟨fun _ => Or.inr ⟨by omega, hc⟩, fun _ => ?_⟩
        simp only [loop, e]
        rfl
    · push Not at hc
      lift c to ℕ using hc
      rw [IMat.newDense_nat]
      exact ⟨nofun, fun h => by omega⟩

/-- C67, dense vectors: rejected exactly when negative. -/
theorem C67_dense_vector_panics_iff (l : Int) : IMat.newDVec (T := T) l = .panic ↔ l < 0 := by
  unfold IMat.newDVec
  by_cases h : l < 0
  · rw [goMake_panic.2 h]; exact ⟨fun _ => h, fun _ => rfl⟩
  · push Not at h
    lift l to ℕ using h
    rw [IMat.goMake_nat]
    exact ⟨nofun, fun h => by omega⟩

/-- C67, sparse vectors: no length is rejected. -/
theorem C67_sparse_vector_never (l : Int) : IMat.newSVec (T := T) l = .ok (.svec l [] []) := rfl

/-- C67: a matrix with a negative dimension has no cell: every access panics. -/
theorem C67_no_cells {m : IMat T} (h : m.rows < 0 ∨ m.cols < 0) (i j : Int) (v : T) (f : T → T) :
    m.at' i j = .panic ∧ m.set i j v = .panic ∧ m.update i j f = .panic := by
  have hc : m.check i j = .panic := by
    unfold IMat.check
    by_cases h1 : i < 0 ∨ i ≥ m.rows
    · rw [if_pos h1]
    · rw [if_neg h1, if_pos]
      omega
  refine ⟨?_, ?_, ?_⟩
  · unfold IMat.at'
    cases m with
    | dvec l values =>
      have hl : l < 0 := by rcases h with h | h; exact h; exact absurd h (by simp [IMat.cols])
      have : (IMat.dvec l values).check i 0 = .panic := by
        unfold IMat.check
        rw [if_pos]
        show i < 0 ∨ i ≥ l
        omega
      simp only [this]
      rfl
    | csr => simp only [hc]; rfl
    | csc => simp only [hc]; rfl
    | dense => simp only [hc]; rfl
    | svec => simp only [hc]; rfl
  · unfold IMat.set; rw [hc]; rfl
  · unfold IMat.update; rw [hc]; rfl

/-- The constructors. -/
inductive IMat.Made : IMat T → Prop
  | csr {r c m} : IMat.newCSR r c = .ok m → Made m
  | csc {r c m} : IMat.newCSC r c = .ok m → Made m
  | dense {r c m} : IMat.newDense r c = .ok m → Made m
  | dvec {l m} : IMat.newDVec l = .ok m → Made m
  | svec {l m} : IMat.newSVec l = .ok m → Made m

/-- C67: `Clear` of a made object never panics, whatever its dimensions, and gives back what the constructor gave. -/
theorem C67_clear {m : IMat T} (h : m.Made) : m.clear = .ok m := by
  cases h with
  | csr h =>
    have e := h
    unfold IMat.newCSR at h
    cases hg : goMake (α := Nat) (_ + 1) 0 with
    | ok l => rw [hg] at h; cases h; exact e
    | panic => rw [hg] at h; cases h
    | hang => rw [hg] at h; cases h
  | csc h =>
    have e := h
    unfold IMat.newCSC at h
    cases hg : goMake (α := Nat) (_ + 1) 0 with
    | ok l => rw [hg] at h; cases h; exact e
    | panic => rw [hg] at h; cases h
    | hang => rw [hg] at h; cases h
  | @dense r c m h =>
    have e := h
    unfold IMat.newDense at h
    cases hg : goMake r ([] : List T) with
    | ok l =>
      rw [hg, Out.ok_bind] at h
      cases hl : loop l.length 0 (fun i d => do let row ← goMake c (0 : T); setIdx d i row) l with
      | ok d => rw [hl] at h; cases h; exact e
      | panic => rw [hl] at h; cases h
      | hang => rw [hl] at h; cases h
    | panic => rw [hg] at h; cases h
    | hang => rw [hg] at h; cases h
  | @dvec l m h =>
    have e := h
    unfold IMat.newDVec at h
    cases hg : goMake l (0 : T) with
    | ok d => rw [hg] at h; cases h; exact e
    | panic => rw [hg] at h; cases h
    | hang => rw [hg] at h; cases h
  | svec h => cases h; rfl

/-- C67: `Values` of a made object is never negative: 0 in the formats that store non-zero entries, the number of
cells in the dense ones, also when one of the dimensions is negative. -/
theorem C67_values :
    (∀ r c (m : IMat T), IMat.newCSR r c = .ok m → m.nvalues = 0) ∧ (∀ r c (m : IMat T), IMat.newCSC r c = .ok m → m.nvalues = 0) ∧
    (∀ r c (m : IMat T), IMat.newDense r c = .ok m → m.nvalues = r * c ∧ 0 ≤ r * c) ∧
    (∀ l (m : IMat T), IMat.newDVec l = .ok m → m.nvalues = l ∧ 0 ≤ l) ∧
    (∀ l (m : IMat T), IMat.newSVec l = .ok m → m.nvalues = 0) := by
  refine ⟨?_, ?_, ?_, ?_, ?_⟩
  · intro r c m h
    unfold IMat.newCSR at h
    cases hg : goMake (r + 1) 0 with
    | ok l => rw [hg] at h; cases h; rfl
    | panic => rw [hg] at h; cases h
    | hang => rw [hg] at h; cases h
  · intro r c m h
    unfold IMat.newCSC at h
    cases hg : goMake (c + 1) 0 with
    | ok l => rw [hg] at h; cases h; rfl
    | panic => rw [hg] at h; cases h
    | hang => rw [hg] at h; cases h
  · intro r c m h
    have hp : ¬ (r < 0 ∨ (0 < r ∧ c < 0)) := by
      rw [← C67_dense_panics_iff (T := T), h]; nofun
    unfold IMat.newDense at h
    refine ⟨?_, ?_⟩
    · cases hg : goMake r ([] : List T) with
      | ok l =>
        rw [hg, Out.ok_bind] at h
        cases hl : loop l.length 0 (fun i d => do let row ← goMake c (0 : T); setIdx d i row) l with
        | ok d => rw [hl] at h; cases h; rfl
        | panic => rw [hl] at h; cases h
        | hang => rw [hl] at h; cases h
      | panic => rw [hg] at h; cases h
      | hang => rw [hg] at h; cases h
    · push Not at hp
      rcases Int.lt_or_eq_of_le hp.1 with h0 | h0
      · exact Int.mul_nonneg hp.1 (hp.2 h0)
      · rw [← h0]; simp
  · intro l m h
    have hp : ¬ l < 0 := by
      rw [← C67_dense_vector_panics_iff (T := T), h]; nofun
    unfold IMat.newDVec at h
    cases hg : goMake l (0 : T) with
    | ok d => rw [hg] at h; cases h; exact ⟨rfl, by omega⟩
    | panic => rw [hg] at h; cases h
    | hang => rw [hg] at h; cases h
  · intro l m h; cases h; rfl

/-- C67 is false of every compressed and dense constructor: a negative dimension is accepted. The objects are
odd: one reports a positive size, and one cannot be transposed. -/
theorem C67_refuted : ¬ CtorCorrect T IMat.newCSR ∧ ¬ CtorCorrect T IMat.newCSC ∧ ¬ CtorCorrect T IMat.newDense := by
  refine ⟨fun h => ?_, fun h => ?_, fun h => ?_⟩
  · have := (h (-1) 2).1 (Or.inl (by decide))
    rw [C67_csr_panics_iff] at this
    omega
  · have := (h (-5) 2).1 (Or.inl (by decide))
    rw [C67_csc_panics_iff] at this
    omega
  · have := (h 0 (-5)).1 (Or.inr (by decide))
    rw [C67_dense_panics_iff] at this
    omega

end

/-- `NewCSRMatrix(-1, -2)` succeeds and reports size 2, although it has no cell. -/
theorem C67_refuted_size : (IMat.size <$> IMat.newCSR (T := ℤ) (-1) (-2)) = .ok 2 := by decide +kernel

/-- `NewCSRMatrix(2, -3)` succeeds; its `Transpose` panics. -/
theorem C67_refuted_transpose : (∃ m, IMat.newCSR (T := ℤ) 2 (-3) = .ok m ∧ m.nvalues = 0 ∧ m.transposeEmpty = .panic) :=
  ⟨.csr 2 (-3) [] [] [0, 0, 0], by decide +kernel, rfl, by decide +kernel⟩

example : ∃ m, IMat.newDense (T := ℤ) 2 3 = .ok m ∧ m.rows = 2 ∧ m.cols = 3 ∧
    ∀ i j, 0 ≤ i → i < 2 → 0 ≤ j → j < 3 → m.at' i j = .ok (0, m) :=
  C67_new_partial (by decide) (by decide) _ (by simp)

example : IMat.newSVec (T := ℤ) (-3) = .ok (.svec (-3) [] []) ∧ (IMat.svec (-3) [] [] : IMat ℤ).at' 0 0 = .panic :=
  ⟨rfl, (C67_no_cells (Or.inl (by decide)) 0 0 0 id).1⟩

end GB

namespace GB.Share

variable {T : Type} [GoNum T]

/-- What `ReSize` relies on: the length field is the length of the slice, and the slice lies in its array. -/
def LDVec.Sound (o : LDVec) (m : Mem T) : Prop :=
  o.l = o.values.len ∧ o.values.off + o.values.len ≤ (m.num o.values.arr).length

/-- C68 in full: `ReSize` with a negative size panics. -/
def ReSizeRejects (T : Type) [GoNum T] : Prop := ∀ (o : LDVec) (m : Mem T) (n : Int), o.Sound m → n < 0 →
  o.reSizeI n m = .panic m

/-- For sizes that are not negative this is the `ReSize` of the rest of the model. -/
theorem LDVec.reSizeI_nat {o : LDVec} {m : Mem T} (h : o.Sound m) (n : Nat) : o.reSizeI (n : Int) m = o.reSize n m := by
  obtain ⟨h1, h2⟩ := h
  unfold LDVec.reSizeI LDVec.reSize
  by_cases a : n > o.l
  · rw [if_pos (by omega), if_pos a, show ((n : Int) - o.l).toNat = n - o.l by omega]
  · rw [if_neg (by omega), if_neg a]
    by_cases b : n < o.l
    · rw [if_pos (by omega), if_pos b, show ((o.l : Int) - n).toNat = o.l - n by omega]
      rw [if_pos (by omega), if_pos (by omega)]
      have e : (o.values.get (numF : Fld T T) m).take (o.l - n) = ({ o.values with len := o.l - n } : Slice).get numF m := by
        unfold Slice.get
        rw [List.take_take, Nat.min_eq_left (by omega)]
      show ((fun l => (hAlloc numF [] >>= fun nil => hAppend numF nil l >>= fun values =>
          pure ({ l := values.len, values := values } : LDVec) : H T LDVec)) (({ o.values with len := o.l - n } : Slice).get numF m)) m = _
      rw [← e]
      rfl
    · rw [if_neg (by omega), if_neg b]
      rfl

/-- `append([]T(nil), l...)`: a slice of length `len(l)` that holds `l`. -/
theorem append_nil (l : List T) (m : Mem T) :
    ∃ (q : Slice) (m' : Mem T), (hAlloc numF [] >>= fun nil => hAppend numF nil l : H T Slice) m = .ok q m' ∧ q.len = l.length ∧
      q.get numF m' = l ∧ ∀ a, a < m.next → m'.num a = m.num a := by
  cases l with
  | nil =>
    refine ⟨⟨m.next, 0, 0⟩, _, rfl, rfl, by simp [Slice.get], fun a ha => ?_⟩
    have : a ≠ m.next := by omega
    simp [numF, Function.update_of_ne this]
  | cons x l =>
    have e : (hAlloc numF [] >>= fun nil => hAppend numF nil (x :: l) : H T Slice) m =
        hAppend numF ⟨m.next, 0, 0⟩ (x :: l) { numF.put m m.next [] with next := m.next + 1 } := rfl
    rw [e]
    unfold hAppend
    rw [if_neg (by simp [numF])]
    refine ⟨_, _, rfl, by simp, ?_, fun a ha => ?_⟩
    · simp [Slice.get, numF]
    · have h1 : a ≠ m.next := by omega
      have h2 : a ≠ m.next + 1 := by omega
      simp [numF, Function.update_of_ne h1, Function.update_of_ne h2]

/-- C68, exactly: `ReSize` with a negative size panics if the array behind the vector has fewer than `length - n`
elements from the start of the vector. Otherwise it *grows* the vector to `length - n` elements, and the new
ones are whatever the array holds behind the vector. -/
theorem C68_negative_partial {o : LDVec} {m : Mem T} {n : Int} (hn : n < 0) :
    ((m.num o.values.arr).length < o.values.off + (o.l - n).toNat ∧ o.reSizeI n m = .panic m) ∨
    (o.values.off + (o.l - n).toNat ≤ (m.num o.values.arr).length ∧
      ∃ o' m', o.reSizeI n m = .ok o' m' ∧ (o'.l : Int) = o.l - n ∧
        o'.values.get numF m' = ((m.num o.values.arr).drop o.values.off).take (o.l - n).toNat ∧
        ∀ a, a < m.next → m'.num a = m.num a) := by
  unfold LDVec.reSizeI
  rw [if_neg (by omega), if_pos (by omega)]
  by_cases a : o.values.off + ((o.l : Int) - n).toNat ≤ (m.num o.values.arr).length
  · refine Or.inr ⟨a, ?_⟩
    simp only [if_pos a]
    obtain ⟨q, m', h1, h2, h3, h4⟩ := append_nil (({ o.values with len := ((o.l : Int) - n).toNat } : Slice).get numF m) m
    refine ⟨⟨q.len, q⟩, m', ?_, ?_, h3, h4⟩
    · show ((hAlloc numF [] >>= fun nil => hAppend numF nil _ : H T Slice) >>= fun values =>
        pure ({ l := values.len, values := values } : LDVec)) m = _
      show H.bind _ _ m = _
      unfold H.bind
      rw [h1]
      rfl
    · show (q.len : Int) = _
      rw [h2]
      have : (({ o.values with len := ((o.l : Int) - n).toNat } : Slice).get (numF : Fld T T) m).length = ((o.l : Int) - n).toNat := by
        simp only [Slice.get, List.length_take, List.length_drop]
        show min _ ((m.num o.values.arr).length - _) = _
        omega
      rw [this]
      omega
  · refine Or.inl ⟨by omega, ?_⟩
    simp only [if_neg a]

/-- The caller's array `[1, 2, 3]`, and the vector `NewDenseVectorFromArray(data[:2])`. -/
def leakMem : Mem ℤ := { num := fun a => if a = 0 then [1, 2, 3] else [], int := fun _ => [], row := fun _ => [], next := 1, slack := fun _ => 0 }

/-- Is it this vector? -/
def HRes.holds (l : List ℤ) : HRes ℤ LDVec → Bool
  | .ok o m => decide (o.l = l.length) && decide (o.values.get numF m = l)
  | _ => false

/-- C68 is false: `v := NewDenseVectorFromArray(data[:2])` with `data = [1, 2, 3]`, then `v.ReSize(-1)`, is a
vector of length 3 that reads the element of `data` behind the vector. -/
theorem C68_refuted : ¬ ReSizeRejects ℤ ∧
    ((LDVec.fromArray ⟨0, 0, 2⟩ >>= fun v => v.reSizeI (-1) : H ℤ LDVec) leakMem).holds [1, 2, 3] = true := by
  constructor
  · intro h
    have := h ⟨2, ⟨0, 0, 2⟩⟩ leakMem (-1) ⟨rfl, by decide⟩ (by decide)
    rcases C68_negative_partial (o := ⟨2, ⟨0, 0, 2⟩⟩) (m := leakMem) (n := -1) (by decide) with ⟨h1, -⟩ | ⟨-, o', m', h2, -⟩
    · exact absurd h1 (by decide)
    · rw [this] at h2
      cases h2
  · decide +kernel

/-- Without spare capacity a negative size panics. -/
example : (LDVec.reSizeI ⟨3, ⟨0, 0, 3⟩⟩ (-1) leakMem : HRes ℤ LDVec) = .panic leakMem := by
  rcases C68_negative_partial (o := ⟨3, ⟨0, 0, 3⟩⟩) (m := leakMem) (n := -1) (by decide) with ⟨-, h⟩ | ⟨h, -⟩
  · exact h
  · exact absurd h (by decide)

end GB.Share
