import Verif.Lemmas.Rune

/-!
# Comparison of rune matrices: C28
-/

namespace GB

set_option linter.unusedSectionVars false

open M

/-- The code points of a rune matrix, row by row. -/
def codePoints (m : Mat Rune) : List ℤ := (cells m.rows m.cols).map (fun p => (m.val p.1 p.2).code)

/-- Every cell is a Unicode code point (and not a surrogate). -/
def ValidRunes (m : Mat Rune) : Prop := ∀ i j, i < m.rows → j < m.cols →
  0 ≤ (m.val i j).code ∧ (m.val i j).code < 0x110000 ∧ ¬ (0xD800 ≤ (m.val i j).code ∧ (m.val i j).code < 0xE000)

/-- A dense rune matrix or vector of valid code points, small enough for the loop bound and with a number of cells
that is a Go `int` (a dense matrix has all its cells in memory). -/
structure RuneMat (w : World Rune) (s : Ref) : Prop where
  wf : (w.heap s).WF
  dense : (w.heap s).kind = .dense ∨ (w.heap s).kind = .dvec
  valid : ValidRunes (w.heap s)
  gas : (w.heap s).rows * (w.heap s).cols ≤ w.gas
  fits : (w.heap s).rows * (w.heap s).cols < 2 ^ 63

theorem RuneMat.sparse {w : World Rune} {s : Ref} (h : RuneMat w s) : (w.heap s).kind.sparse = false := by
  rcases h.dense with h | h <;> rw [h] <;> rfl

theorem RuneMat.nvalues {w : World Rune} {s : Ref} (h : RuneMat w s) : (w.heap s).nvalues ≤ w.gas := by
  have h1 := h.dense
  have h2 := h.gas
  cases hm : w.heap s <;> simp [hm, Mat.kind] at h1
  · simpa [hm, Mat.rows, Mat.cols, Mat.nvalues] using h2
  · simpa [hm, Mat.rows, Mat.cols, Mat.nvalues] using h2

theorem RuneMat.size {w : World Rune} {s : Ref} (h : RuneMat w s) : 0 ≤ (w.heap s).size :=
  Mat.size_nonneg h.fits

theorem RuneMat.flat {w : World Rune} {s : Ref} (h : RuneMat w s) : ∀ r ∈ (w.heap s).flat, r.valid = true := by
  intro r hr
  obtain ⟨i, j, hi, hj, rfl⟩ := Runes.mem_flat hr
  exact Rune.valid_iff.2 (h.valid i j hi hj)

theorem codePoints_eq (m : Mat Rune) : codePoints m = m.flat.map Rune.code := by
  unfold codePoints Mat.flat; rw [List.map_map]; rfl

theorem codePoints_inj {a b : Mat Rune} : codePoints a = codePoints b ↔ a.flat = b.flat := by
  rw [codePoints_eq, codePoints_eq]
  exact ⟨fun h => List.map_injective_iff.2 (fun _ _ => Rune.code_inj) h, fun h => by rw [h]⟩

/-- C28. `Compare` of two dense rune matrices of one shape with valid code points is the three-way
lexicographic comparison of the code points, read row by row; it changes nothing. -/
theorem C28_compare {w : World Rune} {s m : Ref} (hreg : w.reg = initReg) (hc : w.cancel = none)
    (hs : RuneMat w s) (hm : RuneMat w m) (hsh : SameShape (w.heap s) (w.heap m)) :
    Runes.compare s m w = .ok (if codePoints (w.heap s) = codePoints (w.heap m) then 0
      else if codePoints (w.heap s) < codePoints (w.heap m) then -1 else 1) w := by
  obtain ⟨x, c, e1, e2⟩ := Runes.compare_ok hreg hs.wf hm.wf hs.sparse hm.sparse hs.nvalues hm.nvalues hs.size hm.size
  obtain ⟨rfl, rfl⟩ := e2 hc
  rw [e1]
  have hw : { w with cancel := none } = w := by rw [← hc]
  rw [hw]
  congr 1
  have h1 : (SameShape (w.heap s) (w.heap m) ∧ (w.heap s).flat = (w.heap m).flat) ↔
      codePoints (w.heap s) = codePoints (w.heap m) := by
    rw [codePoints_inj]; exact ⟨fun h => h.2, fun h => ⟨hsh, h⟩⟩
  have h2 : (w.heap s).flat.flatMap Rune.bytes < (w.heap m).flat.flatMap Rune.bytes ↔
      codePoints (w.heap s) < codePoints (w.heap m) := by
    rw [codePoints_eq, codePoints_eq]; exact bytes_lt_iff hs.flat hm.flat
  simp only [h1, h2]

/-- The code points that the string of a list of runes holds: U+FFFD stands for a number that is no code point, and
for a surrogate. -/
def written (a : List Rune) : List ℤ := a.map (fun r =>
  if 0 ≤ r.code ∧ r.code < 0x110000 ∧ ¬ (0xD800 ≤ r.code ∧ r.code < 0xE000) then r.code else 0xFFFD)

theorem written_eq (a : List Rune) : written a = a.map Rune.shown := by
  unfold written Rune.shown
  apply List.map_congr_left
  intro r _
  simp only [← Rune.valid_iff]

theorem written_valid {a : List Rune} (h : ∀ r ∈ a, r.valid = true) : written a = a.map Rune.code := by
  rw [written_eq, map_shown h]

/-- A dense rune matrix or vector of any 32-bit numbers. -/
structure AnyRunes (w : World Rune) (s : Ref) : Prop where
  wf : (w.heap s).WF
  dense : (w.heap s).kind = .dense ∨ (w.heap s).kind = .dvec
  gas : (w.heap s).rows * (w.heap s).cols ≤ w.gas
  fits : (w.heap s).rows * (w.heap s).cols < 2 ^ 63

theorem AnyRunes.sparse {w : World Rune} {s : Ref} (h : AnyRunes w s) : (w.heap s).kind.sparse = false := by
  rcases h.dense with h | h <;> rw [h] <;> rfl

theorem AnyRunes.nvalues {w : World Rune} {s : Ref} (h : AnyRunes w s) : (w.heap s).nvalues ≤ w.gas := by
  have h1 := h.dense
  have h2 := h.gas
  cases hm : w.heap s <;> simp [hm, Mat.kind] at h1
  · simpa [hm, Mat.rows, Mat.cols, Mat.nvalues] using h2
  · simpa [hm, Mat.rows, Mat.cols, Mat.nvalues] using h2

/-- The runes of a matrix, row by row. -/
def runesOf (m : Mat Rune) : List Rune := (cells m.rows m.cols).map (fun p => m.val p.1 p.2)

/-- C28 for any shapes and any runes: 0 for the same shape and the same runes; otherwise -1 or 1 by the order of the
strings, where U+FFFD stands for what is no code point. -/
theorem C28_any {w : World Rune} {s m : Ref} (hreg : w.reg = initReg) (hc : w.cancel = none)
    (hs : AnyRunes w s) (hm : AnyRunes w m) :
    Runes.compare s m w = .ok (if SameShape (w.heap s) (w.heap m) ∧ runesOf (w.heap s) = runesOf (w.heap m) then 0
      else if written (runesOf (w.heap s)) < written (runesOf (w.heap m)) then -1 else 1) w := by
  obtain ⟨x, c, e1, e2⟩ := Runes.compare_ok hreg hs.wf hm.wf hs.sparse hm.sparse hs.nvalues hm.nvalues
    (Mat.size_nonneg hs.fits) (Mat.size_nonneg hm.fits)
  obtain ⟨rfl, rfl⟩ := e2 hc
  rw [e1]
  have hw : { w with cancel := none } = w := by rw [← hc]
  rw [hw]
  congr 1
  have h2 : (w.heap s).flat.flatMap Rune.bytes < (w.heap m).flat.flatMap Rune.bytes ↔
      written (runesOf (w.heap s)) < written (runesOf (w.heap m)) := by
    rw [bytes_lt_shown_iff, written_eq, written_eq]; rfl
  simp only [h2]
  rfl

/-- C28 for any shapes and any runes: `Less` and `Greater` are the strict orders of the strings. -/
theorem C28_any_less {w : World Rune} {s m : Ref} (hc : w.cancel = none) (hs : AnyRunes w s) (hm : AnyRunes w m) :
    Runes.less s m w = .ok (decide (written (runesOf (w.heap s)) < written (runesOf (w.heap m)))) w ∧
    Runes.greater m s w = Runes.less s m w := by
  obtain ⟨x, c, e1, e2⟩ := Runes.less_ok hs.wf hm.wf hs.sparse hm.sparse hs.nvalues hm.nvalues
    (Mat.size_nonneg hs.fits) (Mat.size_nonneg hm.fits)
  obtain ⟨y, d, f1, f2⟩ := Runes.greater_ok hm.wf hs.wf hm.sparse hs.sparse hm.nvalues hs.nvalues
    (Mat.size_nonneg hm.fits) (Mat.size_nonneg hs.fits)
  obtain ⟨rfl, rfl⟩ := e2 hc
  obtain ⟨rfl, rfl⟩ := f2 hc
  have hw : { w with cancel := none } = w := by rw [← hc]
  rw [e1, f1, hw]
  refine ⟨?_, rfl⟩
  congr 2
  rw [bytes_lt_shown_iff, written_eq, written_eq]; rfl

/-- C28. Exchanging the operands changes the sign exactly when the matrices are the same or have different strings. -/
theorem C28_antisymm_iff {w : World Rune} {s m : Ref} (hreg : w.reg = initReg) (hc : w.cancel = none)
    (hs : AnyRunes w s) (hm : AnyRunes w m) :
    (∃ x, Runes.compare s m w = .ok x w ∧ Runes.compare m s w = .ok (-x) w) ↔
      (written (runesOf (w.heap s)) = written (runesOf (w.heap m)) →
        SameShape (w.heap s) (w.heap m) ∧ runesOf (w.heap s) = runesOf (w.heap m)) := by
  rw [C28_any hreg hc hs hm, C28_any hreg hc hm hs]
  have hsym : (SameShape (w.heap m) (w.heap s) ∧ runesOf (w.heap m) = runesOf (w.heap s)) ↔
      (SameShape (w.heap s) (w.heap m) ∧ runesOf (w.heap s) = runesOf (w.heap m)) :=
    ⟨fun h => ⟨⟨h.1.1.symm, h.1.2.symm⟩, h.2.symm⟩, fun h => ⟨⟨h.1.1.symm, h.1.2.symm⟩, h.2.symm⟩⟩
  simp only [hsym]
  by_cases h : SameShape (w.heap s) (w.heap m) ∧ runesOf (w.heap s) = runesOf (w.heap m)
  · simp only [if_pos h]
    exact ⟨fun _ _ => h, fun _ => ⟨0, rfl, rfl⟩⟩
  · simp only [if_neg h]
    rcases lt_trichotomy (written (runesOf (w.heap s))) (written (runesOf (w.heap m))) with h' | h' | h'
    · simp only [if_pos h', if_neg (lt_asymm h')]
      exact ⟨fun _ he => absurd he (ne_of_lt h'), fun _ => ⟨-1, rfl, rfl⟩⟩
    · rw [h']
      simp only [lt_irrefl, if_false]
      constructor
      · rintro ⟨x, e1, e2⟩
        injection e1 with e1
        injection e2 with e2
        omega
      · intro h2; exact absurd (h2 trivial) h
    · simp only [if_pos h', if_neg (lt_asymm h')]
      exact ⟨fun _ he => absurd he.symm (ne_of_lt h'), fun _ => ⟨1, rfl, rfl⟩⟩

/-- C28. The result is 0 exactly for matrices with the same cells. -/
theorem C28_zero {w : World Rune} {s m : Ref} (hreg : w.reg = initReg) (hc : w.cancel = none)
    (hs : RuneMat w s) (hm : RuneMat w m) (hsh : SameShape (w.heap s) (w.heap m)) :
    Runes.compare s m w = .ok 0 w ↔
      ∀ i j, i < (w.heap s).rows → j < (w.heap s).cols → (w.heap s).val i j = (w.heap m).val i j := by
  rw [C28_compare hreg hc hs hm hsh, ← Runes.flat_eq_iff hsh, ← codePoints_inj]
  constructor
  · intro h
    by_contra hne
    rw [if_neg hne] at h
    split at h <;> simp at h
  · intro h; rw [if_pos h]

/-- C28. Exchanging the operands changes the sign. -/
theorem C28_antisymm {w : World Rune} {s m : Ref} (hreg : w.reg = initReg) (hc : w.cancel = none)
    (hs : RuneMat w s) (hm : RuneMat w m) (hsh : SameShape (w.heap s) (w.heap m)) {x : ℤ}
    (h : Runes.compare s m w = .ok x w) : Runes.compare m s w = .ok (-x) w := by
  rw [C28_compare hreg hc hs hm hsh] at h
  rw [C28_compare hreg hc hm hs ⟨hsh.1.symm, hsh.2.symm⟩]
  injection h with h
  subst h
  congr 1
  rcases lt_trichotomy (codePoints (w.heap s)) (codePoints (w.heap m)) with h | h | h
  · rw [if_neg h.ne', if_neg h.not_gt, if_neg h.ne, if_pos h]; rfl
  · rw [if_pos h.symm, if_pos h]; rfl
  · rw [if_neg h.ne, if_pos h, if_neg h.ne', if_neg h.not_gt]

/-- C28. Transitivity, in the weak and (by `C28_antisymm`) in the strict form. -/
theorem C28_trans {w : World Rune} {a b c : Ref} (hreg : w.reg = initReg) (hc : w.cancel = none)
    (ha : RuneMat w a) (hb : RuneMat w b) (hcc : RuneMat w c) (hab : SameShape (w.heap a) (w.heap b))
    (hbc : SameShape (w.heap b) (w.heap c)) {x y : ℤ} (h1 : Runes.compare a b w = .ok x w)
    (h2 : Runes.compare b c w = .ok y w) (hx : x ≤ 0) (hy : y ≤ 0) :
    ∃ z, Runes.compare a c w = .ok z w ∧ z ≤ 0 ∧ (x < 0 ∨ y < 0 → z < 0) := by
  rw [C28_compare hreg hc ha hb hab] at h1
  rw [C28_compare hreg hc hb hcc hbc] at h2
  refine ⟨_, C28_compare hreg hc ha hcc ⟨hab.1.trans hbc.1, hab.2.trans hbc.2⟩, ?_⟩
  injection h1 with h1
  injection h2 with h2
  subst h1; subst h2
  have key : ∀ p q : List ℤ, (if p = q then (0 : ℤ) else if p < q then -1 else 1) ≤ 0 ↔ p ≤ q := by
    intro p q
    rcases lt_trichotomy p q with h | h | h
    · rw [if_neg h.ne, if_pos h]; simp [h.le]
    · rw [if_pos h]; simp [h]
    · rw [if_neg h.ne', if_neg h.not_gt]; simp [h.not_ge]
  have key2 : ∀ p q : List ℤ, (if p = q then (0 : ℤ) else if p < q then -1 else 1) < 0 ↔ p < q := by
    intro p q
    rcases lt_trichotomy p q with h | h | h
    · rw [if_neg h.ne, if_pos h]; simp [h]
    · rw [if_pos h]; simp [h]
    · rw [if_neg h.ne', if_neg h.not_gt]; simp [h.not_gt]
  rw [key] at hx hy ⊢
  rw [key2, key2, key2]
  refine ⟨hx.trans hy, ?_⟩
  rintro (h | h)
  · exact lt_of_lt_of_le h hy
  · exact lt_of_le_of_lt hx h

/-- C28. `Less` and `Greater` are the strict orders `<` and `>` of the code points, so they are
converse. -/
theorem C28_less_greater {w : World Rune} {s m : Ref} (hc : w.cancel = none) (hs : RuneMat w s) (hm : RuneMat w m) :
    Runes.less s m w = .ok (decide (codePoints (w.heap s) < codePoints (w.heap m))) w ∧
    Runes.greater m s w = Runes.less s m w := by
  obtain ⟨x, c, e1, e2⟩ := Runes.less_ok hs.wf hm.wf hs.sparse hm.sparse hs.nvalues hm.nvalues hs.size hm.size
  obtain ⟨y, d, f1, f2⟩ := Runes.greater_ok hm.wf hs.wf hm.sparse hs.sparse hm.nvalues hs.nvalues hm.size hs.size
  obtain ⟨rfl, rfl⟩ := e2 hc
  obtain ⟨rfl, rfl⟩ := f2 hc
  have hw : { w with cancel := none } = w := by rw [← hc]
  rw [e1, f1, hw]
  refine ⟨?_, rfl⟩
  congr 2
  rw [codePoints_eq, codePoints_eq]
  exact propext (bytes_lt_iff hs.flat hm.flat)

/-! ## Witnesses -/

/-- A rune. -/
def rune (n : Nat) : Rune := BitVec.ofNat 32 n

/-- `"aé"` and `"a水"` as 1×2 matrices. -/
def runeA : Mat Rune := .dense { r := 1, c := 2, data := [[rune 0x61, rune 0xE9]] }
def runeB : Mat Rune := .dense { r := 1, c := 2, data := [[rune 0x61, rune 0x6C34]] }
def runeW : World Rune := World.of 9 [runeA, runeB]

theorem runeMat_of (m : Mat Rune) (h : Mat.WF m) (hk : m.kind = .dense ∨ m.kind = .dvec)
    (hv : ∀ r ∈ m.flat, r.valid = true) {w : World Rune} {s : Ref} (hs : w.heap s = m)
    (hg : m.rows * m.cols ≤ w.gas) (hf : m.rows * m.cols < 2 ^ 63 := by decide) : RuneMat w s := by
  subst hs
  refine ⟨h, hk, ?_, hg, hf⟩
  intro i j hi hj
  apply Rune.valid_iff.1
  apply hv
  exact List.mem_map.2 ⟨(i, j), mem_cells.2 ⟨hi, hj⟩, rfl⟩

/-- The hypotheses hold of two matrices that differ. -/
example : RuneMat runeW 0 ∧ RuneMat runeW 1 ∧ SameShape (runeW.heap 0) (runeW.heap 1) ∧
    Runes.compare 0 1 runeW = .ok (-1) runeW := by
  have h0 : RuneMat runeW 0 := runeMat_of runeA ⟨rfl, by intro row hr; simp at hr; subst hr; rfl⟩ (Or.inl rfl)
    (by decide +kernel) rfl (by decide)
  have h1 : RuneMat runeW 1 := runeMat_of runeB ⟨rfl, by intro row hr; simp at hr; subst hr; rfl⟩ (Or.inl rfl)
    (by decide +kernel) rfl (by decide)
  refine ⟨h0, h1, ⟨rfl, rfl⟩, ?_⟩
  rw [C28_compare rfl rfl h0 h1 ⟨rfl, rfl⟩]
  congr 1

/-- `1 2` as a row and as a column. -/
def runeRow : Mat Rune := .dense { r := 1, c := 2, data := [[rune 1, rune 2]] }
def runeCol : Mat Rune := .dense { r := 2, c := 1, data := [[rune 1], [rune 2]] }

/-- Two shapes, the same runes: +1 in both directions. The hypothesis on the shapes is needed. -/
theorem C28_shape_needed : ∃ w : World Rune, ∃ s m, RuneMat w s ∧ RuneMat w m ∧
    (Runes.compare s m w).val = some 1 ∧ (Runes.compare m s w).val = some 1 := by
  refine ⟨World.of 9 [runeRow, runeCol], 0, 1, ?_, ?_, by kernel_rfl, by kernel_rfl⟩
  · exact runeMat_of runeRow ⟨rfl, by intro row hr; simp at hr; subst hr; rfl⟩ (Or.inl rfl) (by decide +kernel) rfl (by decide)
  · exact runeMat_of runeCol ⟨rfl, by intro row hr; simp at hr; rcases hr with rfl | rfl <;> rfl⟩ (Or.inl rfl)
      (by decide +kernel) rfl (by decide)

/-- Two surrogates: different matrices with the same string, so +1 in both directions. The hypothesis
on the code points is needed. -/
theorem C28_valid_needed : ∃ w : World Rune, SameShape (w.heap 0) (w.heap 1) ∧ (w.heap 0).WF ∧ (w.heap 1).WF ∧
    (Runes.compare 0 1 w).val = some 1 ∧ (Runes.compare 1 0 w).val = some 1 := by
  refine ⟨World.of 9 [.dense { r := 1, c := 1, data := [[rune 0xD800]] },
    .dense { r := 1, c := 1, data := [[rune 0xD801]] }], ⟨rfl, rfl⟩, ?_, ?_, by kernel_rfl, by kernel_rfl⟩
  · exact ⟨rfl, by intro row hr; simp at hr; subst hr; rfl⟩
  · exact ⟨rfl, by intro row hr; simp at hr; subst hr; rfl⟩

/-- The hypotheses of `C28_any` hold of a surrogate and a letter; the surrogate comes after. -/
def runeSur : World Rune := World.of 9 [.dense { r := 1, c := 1, data := [[rune 0xD800]] },
  .dense { r := 2, c := 1, data := [[rune 0x61], [rune 0xFFFFFFFF]] }]
example : AnyRunes runeSur 0 ∧ AnyRunes runeSur 1 ∧ Runes.compare 0 1 runeSur = .ok 1 runeSur ∧
    Runes.compare 1 0 runeSur = .ok (-1) runeSur := by
  have h0 : AnyRunes runeSur 0 := ⟨⟨rfl, by intro row hr; simp at hr; subst hr; rfl⟩, Or.inl rfl, by decide, by decide⟩
  have h1 : AnyRunes runeSur 1 :=
    ⟨⟨rfl, by intro row hr; simp at hr; rcases hr with rfl | rfl <;> rfl⟩, Or.inl rfl, by decide, by decide⟩
  refine ⟨h0, h1, ?_, ?_⟩
  · rw [C28_any rfl rfl h0 h1]; congr 1
  · rw [C28_any rfl rfl h1 h0]; congr 1

end GB
