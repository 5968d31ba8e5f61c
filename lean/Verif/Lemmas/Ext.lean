import Verif.Lemmas.Count

/-!
# A well-formed matrix is determined by its type, shape and cells
-/

namespace GB

set_option linter.unusedSectionVars false
set_option linter.unusedSimpArgs false

variable {T : Type} [GoNum T] [GoStore T]

theorem CSR.Rep.unique {s t : CSR T} {rows : List (List (Nat × T))} (h1 : s.Rep rows) (h2 : t.Rep rows)
    (hc : s.c = t.c) : s = t := by
  have hr : s.r = t.r := by rw [← h1.len, ← h2.len]
  cases s; cases t
  have a := h1.cols; have b := h2.cols; have c := h1.values; have d := h2.values
  have e := h1.starts; have f := h2.starts
  simp only at a b c d e f hr hc
  subst hr hc
  rw [a, b, c, d, e, f]

/-- Rows are determined by the cells. -/
theorem CSR.Rep.rows_ext {s t : CSR T} {rows rows' : List (List (Nat × T))} (h1 : s.Rep rows)
    (h2 : t.Rep rows') (hr : s.r = t.r) (hc : s.c = t.c)
    (hv : ∀ i j, i < s.r → j < s.c → cellOf rows i j = cellOf rows' i j) : rows = rows' := by
  apply List.ext_getElem (by rw [h1.len, h2.len, hr])
  intro i hi hi'
  have m1 := List.getElem_mem hi
  have m2 := List.getElem_mem hi'
  rw [row_eq_nz (n := s.c) (h1.sorted _ m1) (h1.bound _ m1) (h1.nz _ m1),
    row_eq_nz (n := s.c) (h2.sorted _ m2) (by rw [hc]; exact h2.bound _ m2) (h2.nz _ m2)]
  apply nz_congr
  intro j hj
  have := hv i j (by rw [← h1.len]; exact hi) hj
  simpa [cellOf, List.getD, hi, hi'] using this

namespace Mat

/-- Extensionality. -/
theorem ext' {a b : Mat T} (ha : a.WF) (hb : b.WF) (hs : Same a b)
    (hv : ∀ i j, i < a.rows → j < a.cols → a.val i j = b.val i j) : a = b := by
  obtain ⟨hk, hr, hc⟩ := hs
  cases a with
  | csr s =>
    cases b <;> simp [kind] at hk
    rename_i t
    replace hr : s.r = t.r := hr
    replace hc : s.c = t.c := hc
    obtain ⟨rows, h1⟩ := ha
    obtain ⟨rows', h2⟩ := hb
    have : rows = rows' := h1.rows_ext h2 hr hc (fun i j hi hj => by
      rw [← val_csr h1 hi hj, ← val_csr h2 (hr ▸ hi) (hc ▸ hj)]; exact hv i j hi hj)
    subst this
    rw [h1.unique h2 hc]
  | csc s =>
    cases b <;> simp [kind] at hk
    rename_i t
    replace hr : s.r = t.r := hr
    replace hc : s.c = t.c := hc
    obtain ⟨rows, h1⟩ := ha
    obtain ⟨rows', h2⟩ := hb
    have : rows = rows' := CSR.Rep.rows_ext (s := CSC.mir s) (t := CSC.mir t) h1 h2 hc hr (fun i j hi hj => by
      rw [← val_csc h1 hj hi, ← val_csc h2 (hr ▸ hj) (hc ▸ hi)]; exact hv j i hj hi)
    subst this
    have h3 := CSR.Rep.unique (s := CSC.mir s) (t := CSC.mir t) h1 h2 hr
    cases s; cases t
    simp only [CSC.mir, CSR.mk.injEq] at h3
    simp [h3]
  | dense s =>
    cases b <;> simp [kind] at hk
    rename_i t
    have e : s.data = t.data := by
      have w1 : s.WF := ha
      have w2 : t.WF := hb
      have hr' : s.r = t.r := hr
      have hc' : s.c = t.c := hc
      apply List.ext_getElem (by rw [w1.rows, w2.rows, hr'])
      intro i hi hi'
      have hir : i < s.r := by rw [← w1.rows]; exact hi
      have l1 := w1.cols _ (List.getElem_mem hi)
      have l2 := w2.cols _ (List.getElem_mem hi')
      apply List.ext_getElem (by rw [l1, l2, hc'])
      intro j hj hj'
      have hjc : j < s.c := by rw [← l1]; exact hj
      have := hv i j hir hjc
      rw [val_dense w1 hir hjc, val_dense w2 (hr' ▸ hir) (hc' ▸ hjc)] at this
      simpa [Dense.cell, List.getD, hi, hi', hj, hj'] using this
    cases s; cases t
    simp only [rows, cols] at hr hc e
    subst hr hc e; rfl
  | dvec s =>
    cases b <;> simp [kind] at hk
    rename_i t
    have e : s.values = t.values := by
      have w1 : s.values.length = s.l := ha
      have w2 : t.values.length = t.l := hb
      have hr' : s.l = t.l := hr
      apply List.ext_getElem (by rw [w1, w2, hr'])
      intro i hi hi'
      have := hv i 0 (by rw [w1] at hi; exact hi) (by simp [cols])
      rw [val_dvec ha (by omega), val_dvec hb (by omega)] at this
      simpa [DVec.cell, List.getD, hi, hi'] using this
    cases s; cases t
    simp only [rows] at hr e
    subst hr e; rfl
  | svec s =>
    cases b <;> simp [kind] at hk
    rename_i t
    obtain ⟨es, h1, p1⟩ := ha
    obtain ⟨es', h2, p2⟩ := hb
    have hl : s.l = t.l := hr
    have : es = es' := by
      rw [row_eq_nz (n := s.l) h1.sorted h1.bound h1.nz,
        row_eq_nz (n := s.l) h2.sorted (by rw [hl]; exact h2.bound) h2.nz]
      apply nz_congr
      intro j hj
      have := hv j 0 hj (by simp [cols])
      rwa [val_svec h1 hj, val_svec h2 (hl ▸ hj), p1.get, p2.get] at this
    subst this
    rw [SVec.Rep.unique h1 h2 hl]

/-- Two results of writing the same value to the same cell are equal. -/
theorem Wrote.unique {m a b : Mat T} {i j : Nat} {v : T} (ha : Wrote m a i j v) (hb : Wrote m b i j v) :
    a = b := by
  refine ext' ha.wf hb.wf ⟨ha.same.1.trans hb.same.1.symm, ha.same.2.1.trans hb.same.2.1.symm,
    ha.same.2.2.trans hb.same.2.2.symm⟩ (fun p q hp hq => ?_)
  rw [ha.same.2.1] at hp
  rw [ha.same.2.2] at hq
  by_cases h : p = i ∧ q = j
  · rw [h.1, h.2, ha.hit, hb.hit]
  · rw [ha.miss p q hp hq h, hb.miss p q hp hq h]

/-- Reading, in every reachable state. -/
theorem Inv.at_ok {m : Mat T} (h : m.Inv) {i j : Nat} (hi : i < m.rows) (hj : j < m.cols) :
    m.at' i j = .ok (m.val i j, m) := by
  cases m with
  | csr s => exact Mat.at_ok (m := .csr s) h hi hj
  | csc s => exact Mat.at_ok (m := .csc s) h hi hj
  | dense s => exact Mat.at_ok (m := .dense s) h hi hj
  | dvec s => exact Mat.at_ok (m := .dvec s) h hi hj
  | svec s =>
    obtain rfl : j = 0 := by simp [cols] at hj; omega
    obtain ⟨v, h1, h2⟩ := SVec.Weak.at_self h hi
    simp only [val, at', Int.natCast_zero] at *
    simp [SVec.at', SVec.updateWith, h1, h2, show i < s.l from hi, show inRange 0 1 = true from rfl]

theorem Inv.element_ok {m : Mat T} (h : m.Inv) {i j : Nat} (hi : i < m.rows) (hj : j < m.cols) :
    m.element i j = .ok (GoNum.glt 0 (m.val i j), m) := by
  cases m with
  | csr s => exact Mat.element_ok (m := .csr s) h hi hj
  | csc s => exact Mat.element_ok (m := .csc s) h hi hj
  | dense s => exact Mat.element_ok (m := .dense s) h hi hj
  | dvec s => exact Mat.element_ok (m := .dvec s) h hi hj
  | svec s =>
    obtain rfl : j = 0 := by simp [cols] at hj; omega
    obtain ⟨v, h1, h2⟩ := SVec.Weak.at_self h hi
    simp only [val, at', element, SVec.element, Int.natCast_zero] at *
    simp [SVec.at', SVec.updateWith, h1, h2, show i < s.l from hi, show inRange 0 1 = true from rfl]

end Mat
end GB
