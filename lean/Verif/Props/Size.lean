import Verif.Lemmas.Ordered
import Verif.Props.Rune
import Verif.Props.Exact
import Verif.Props.Signed
import Verif.Lemmas.FloatOps

/-!
# `Size()` and the strings of rune matrices: C74, C75
-/

namespace GB

set_option linter.unusedSectionVars false

open M

/-! ## C74 -/

section
variable {T : Type} [GoNum T]

/-- C74 in full: `Size()` is the number of rows times the number of columns. -/
def SizeIsProduct (T : Type) [GoNum T] : Prop :=
  ∀ m : IMat T, IsInt m.rows → IsInt m.cols → m.size = m.rows * m.cols

/-- C74. `Size()` is the number of rows times the number of columns exactly when that product is an `int`; dimensions
of any sign.

Missing: products that are no `int` (`C74_refuted`). -/
theorem C74_size_partial (m : IMat T) (hr : IsInt m.rows) :
    m.size = m.rows * m.cols ↔ IsInt (m.rows * m.cols) := by
  have vec : ∀ l : Int, IsInt l → (l = l * 1 ↔ IsInt (l * 1)) := by
    intro l hl; rw [mul_one]; exact ⟨fun _ => hl, fun _ => rfl⟩
  cases m with
  | csr r c v i s => exact goInt_eq_iff _
  | csc r c v i s => exact goInt_eq_iff _
  | dense r c d => exact goInt_eq_iff _
  | dvec l v => exact vec l hr
  | svec l v i => exact vec l hr

/-- C74. In any case it is an `int` that differs from the product by a multiple of 2^64. -/
theorem C74_size_wraps (m : IMat T) (hr : IsInt m.rows) :
    IsInt m.size ∧ m.size ≡ m.rows * m.cols [ZMOD 2 ^ 64] := by
  cases m with
  | csr r c v i s => exact ⟨goInt_isInt _, goInt_congr _⟩
  | csc r c v i s => exact ⟨goInt_isInt _, goInt_congr _⟩
  | dense r c d => exact ⟨goInt_isInt _, goInt_congr _⟩
  | dvec l v => exact ⟨hr, by simp [IMat.size, IMat.rows, IMat.cols]⟩
  | svec l v i => exact ⟨hr, by simp [IMat.size, IMat.rows, IMat.cols]⟩

/-- C74. The size of the rest of the model is that of the signed one. -/
theorem C74_size_nat (m : Mat T) : (IMat.ofMat m).size = m.size := by cases m <;> rfl

/-- C74. `NewCSRMatrix(3, 1<<62)` has a negative size, `NewCSCMatrix(1<<62, 4)` size 0. Neither allocates more than five
numbers. -/
theorem C74_refuted : ¬ SizeIsProduct ℤ ∧
    (IMat.size <$> IMat.newCSR (T := ℤ) 3 (2 ^ 62)) = .ok (-2 ^ 62) ∧
    (IMat.size <$> IMat.newCSC (T := ℤ) (2 ^ 62) 4) = .ok 0 := by
  refine ⟨fun h => ?_, by decide +kernel, by decide +kernel⟩
  have := h (.csr 3 (2 ^ 62) [] [] [0, 0, 0, 0]) (by constructor <;> decide +kernel) (by constructor <;> decide +kernel)
  revert this
  decide +kernel

end

/-! ## C75 -/

/-- The runes `String` writes: all cells row by row for the dense formats; the non-zero ones only for the compressed
formats, row by row for CSR and the sparse vector, column by column for CSC. -/
def writtenRunes (m : Mat Rune) : List Rune :=
  match m.kind with
  | .dense | .dvec => (cells m.rows m.cols).map (fun p => m.val p.1 p.2)
  | .csr | .svec => ((cells m.rows m.cols).map (fun p => m.val p.1 p.2)).filter (fun v => v ≠ 0)
  | .csc => ((cells m.cols m.rows).map (fun p => m.val p.2 p.1)).filter (fun v => v ≠ 0)

/-- A faithful list of the non-zero cells in row-major order. -/
theorem rowMajor_values {r c : Nat} {val : Nat → Nat → Rune} {es : List (Nat × Nat × Rune)} (hf : Faithful r c val es)
    (ho : RowMajor es) (hz : ∀ e ∈ es, e.2.2 ≠ 0) :
    es.map (fun e => e.2.2) = ((cells r c).map (fun p => val p.1 p.2)).filter (fun v => v ≠ 0) := by
  have key : es = ((cells r c).filter (fun p => val p.1 p.2 ≠ 0)).map (fun p => (p.1, p.2, val p.1 p.2)) := by
    refine sorted_ext (lt := fun (a b : Nat × Nat × Rune) => a.1 < b.1 ∨ (a.1 = b.1 ∧ a.2.1 < b.2.1)) (by intro a; omega)
      (by intro a b c; omega) ho ?_ ?_
    · rw [List.pairwise_map]
      exact (cells_rowMajor r c).filter _
    · intro e
      simp only [List.mem_map, List.mem_filter, mem_cells, decide_eq_true_eq]
      constructor
      · intro he
        refine ⟨(e.1, e.2.1), ⟨hf.range e he, ?_⟩, ?_⟩
        · rw [hf.value e he]; exact hz e he
        · simp only [hf.value e he]
      · rintro ⟨p, ⟨⟨h1, h2⟩, h3⟩, rfl⟩
        exact hf.complete _ _ h1 h2 h3
  rw [List.filter_map]
  conv_lhs => rw [key]
  rw [List.map_map]
  rfl

theorem colMajor_values {r c : Nat} {val : Nat → Nat → Rune} {es : List (Nat × Nat × Rune)} (hf : Faithful r c val es)
    (ho : ColMajor es) (hz : ∀ e ∈ es, e.2.2 ≠ 0) :
    es.map (fun e => e.2.2) = ((cells c r).map (fun p => val p.2 p.1)).filter (fun v => v ≠ 0) := by
  have hf' : Faithful c r (fun i j => val j i) (es.map (fun e => (e.2.1, e.1, e.2.2))) := by
    refine ⟨?_, ?_, ?_, ?_⟩
    · intro e he
      obtain ⟨x, hx, rfl⟩ := List.mem_map.1 he
      exact ⟨(hf.range x hx).2, (hf.range x hx).1⟩
    · rw [List.pairwise_map]
      exact hf.distinct.imp (fun h h' => h ⟨h'.2, h'.1⟩)
    · intro e he
      obtain ⟨x, hx, rfl⟩ := List.mem_map.1 he
      exact hf.value x hx
    · intro i j hi hj hne
      exact List.mem_map.2 ⟨_, hf.complete j i hj hi hne, rfl⟩
  have := rowMajor_values hf' (by unfold RowMajor; rw [List.pairwise_map]; exact ho) (by
    intro e he
    obtain ⟨x, hx, rfl⟩ := List.mem_map.1 he
    exact hz x hx)
  rw [List.map_map] at this
  exact this

theorem ne_of_isZero {v : Rune} (h : isZero v = false) : v ≠ 0 := by
  rintro rfl
  revert h
  decide

/-- What the enumeration delivers. -/
theorem written_entries {m : Mat Rune} (h : m.WF) : ∃ es, Mat.MapAt m m.iter es ∧
    es.map (fun e => e.2.2) = writtenRunes m ∧ es.length = m.nvalues := by
  by_cases hk : m.kind.sparse = false
  · obtain ⟨es, e1, e2, e3⟩ := Mat.dense_entries h hk
    refine ⟨es, e1, ?_, e3⟩
    rw [e2]
    cases m <;> first | rfl | simp [Mat.kind, Kind.sparse] at hk
  · obtain ⟨es, e1, e2, e3, -, e5⟩ := Mat.entries_ok h
    refine ⟨es, e1, ?_, e3⟩
    cases m with
    | csr s =>
      obtain ⟨rows, hr⟩ := h
      have hm : Mat.MapAt (.csr s) (Mat.csr s).iter (CSR.entriesFrom 0 rows) :=
        ⟨rows, 0, hr, hr.iter_init, by omega, by simp⟩
      have := Yields.unique e1.yields hm.yields
      subst this
      exact rowMajor_values e2 hr.rowMajor (fun e he => ne_of_isZero (e5 (by simp [Mat.kind]) e he))
    | csc s =>
      obtain ⟨cols, hr⟩ := h
      have hm : Mat.MapAt (.csc s) (Mat.csc s).iter (CSC.entries cols) :=
        ⟨cols, 0, hr, CSC.Rep.iter_init hr, by omega, by simp⟩
      have := Yields.unique e1.yields hm.yields
      subst this
      exact colMajor_values e2 (CSC.Rep.colMajor hr) (fun e he => ne_of_isZero (e5 (by simp [Mat.kind]) e he))
    | svec s =>
      obtain ⟨xs, hr, hp⟩ := h
      have hm : Mat.MapAt (.svec s) (Mat.svec s).iter (SVec.entries xs) :=
        ⟨xs, 0, hr, hp, rfl, by simp [SVec.iter, hr.values], by omega, by simp⟩
      have := Yields.unique e1.yields hm.yields
      subst this
      refine rowMajor_values e2 ?_ (fun e he => ne_of_isZero (e5 (by simp [Mat.kind]) e he))
      unfold RowMajor SVec.entries
      rw [List.pairwise_map]
      exact hr.sorted.imp (fun hab => Or.inl hab)
    | dense s => simp [Mat.kind, Kind.sparse] at hk
    | dvec s => simp [Mat.kind, Kind.sparse] at hk

/-- C75 in full: `String` returns on every rune matrix. -/
def StringTotal : Prop := ∀ (w : World Rune) (s : Ref), Reach (w.heap s) → (w.heap s).WF →
  (w.heap s).nvalues ≤ w.gas → w.cancel = none → ∃ b, Runes.string s w = .ok b w

/-- C75. `String` of a well-formed rune matrix of any format: it panics when `Size()` is negative and otherwise returns
the UTF-8 encoding of the written runes, in order; nothing changes.

Missing: matrices with a negative `Size()` (`C75_refuted`). -/
theorem C75_string_partial {w : World Rune} {s : Ref} (h : (w.heap s).WF) (hg : (w.heap s).nvalues ≤ w.gas)
    (hc : w.cancel = none) :
    Runes.string s w = if (w.heap s).size < 0 then .panic w else .ok ((writtenRunes (w.heap s)).flatMap Rune.bytes) w := by
  unfold Runes.string
  rw [bind_ok (ofObj_ok (p := s) (w := w) (a := (w.heap s).size) rfl)]
  by_cases hz : (w.heap s).size < 0
  · rw [if_pos hz, if_pos hz]; rfl
  · rw [if_neg hz, if_neg hz]
    obtain ⟨es, e1, e2, e3⟩ := written_entries h
    obtain ⟨x, c, f1, f2⟩ := Runes.stringLoop_ok es w.gas (w.heap s).iter [] w e1.yields (by omega)
    obtain ⟨rfl, rfl⟩ := f2 hc
    refine f1.trans ?_
    rw [← e2, List.flatMap_map, ← hc]
    rfl

/-- C75. `Less` and `Greater` of two well-formed rune matrices of any formats and shapes. -/
theorem C75_less_partial {w : World Rune} {s m : Ref} (hs : (w.heap s).WF) (hm : (w.heap m).WF)
    (hgs : (w.heap s).nvalues ≤ w.gas) (hgm : (w.heap m).nvalues ≤ w.gas) (hc : w.cancel = none) :
    (Runes.less s m w = if (w.heap s).size < 0 ∨ (w.heap m).size < 0 then .panic w else
      .ok (decide ((writtenRunes (w.heap s)).flatMap Rune.bytes < (writtenRunes (w.heap m)).flatMap Rune.bytes)) w) ∧
    Runes.greater m s w = Runes.less s m w := by
  have h1 := C75_string_partial hs hgs hc
  have h2 := C75_string_partial hm hgm hc
  unfold Runes.less Runes.greater
  simp only [bind_apply, h1, h2]
  by_cases z1 : (w.heap s).size < 0 <;> by_cases z2 : (w.heap m).size < 0 <;> simp [z1, z2, h1, h2]

/-- When `Equal` answers `b`: 0 if it is true; otherwise the strings decide. -/
theorem compare_of_equal {w : World Rune} {s m : Ref} (hc : w.cancel = none)
    (hs : (w.heap s).WF) (hm : (w.heap m).WF) (hgs : (w.heap s).nvalues ≤ w.gas) (hgm : (w.heap m).nvalues ≤ w.gas)
    {b : Bool} (e1 : Meth.equal s m w = .ok b w) :
    (b = true → Runes.compare s m w = .ok 0 w) ∧
    (¬ b = true → Runes.compare s m w = if (w.heap s).size < 0 ∨ (w.heap m).size < 0 then .panic w
        else if (writtenRunes (w.heap s)).flatMap Rune.bytes < (writtenRunes (w.heap m)).flatMap Rune.bytes
        then .ok (-1) w else .ok 1 w) := by
  have hp : poll w = .ok false w := by
    have := poll_go (w := w) (by rw [hc]; simp)
    rw [this, hc]
    congr 1
    rw [tick]
    conv_rhs => rw [show w = { w with cancel := none } by rw [← hc]]
  have hl := (C75_less_partial hs hm hgs hgm hc).1
  unfold Runes.compare
  rw [bind_ok hp]
  simp only [Bool.false_eq_true, if_false]
  rw [bind_ok e1]
  constructor
  · intro hb; rw [if_pos hb]; rfl
  · intro hb
    rw [if_neg hb, bind_ok hp]
    simp only [Bool.false_eq_true, if_false, bind_apply, hl]
    by_cases hz : (w.heap s).size < 0 ∨ (w.heap m).size < 0
    · simp [hz]
    · rw [if_neg hz, if_neg hz]
      by_cases hx : (writtenRunes (w.heap s)).flatMap Rune.bytes < (writtenRunes (w.heap m)).flatMap Rune.bytes
      · simp [hx]
      · simp [hx]

/-- C75. `Compare` of two well-formed rune matrices, both dense or both compressed: 0 for equal matrices; otherwise the
strings decide, and there are none when a `Size()` is negative. -/
theorem C75_compare_partial {w : World Rune} {s m : Ref} (hreg : w.reg = initReg) (hc : w.cancel = none)
    (hs : (w.heap s).WF) (hm : (w.heap m).WF) (hgs : (w.heap s).nvalues ≤ w.gas) (hgm : (w.heap m).nvalues ≤ w.gas)
    (hk : (w.heap s).kind.sparse = (w.heap m).kind.sparse) :
    (SameShape (w.heap s) (w.heap m) ∧
        (∀ i j, i < (w.heap s).rows → j < (w.heap s).cols → (w.heap s).val i j = (w.heap m).val i j) →
      Runes.compare s m w = .ok 0 w) ∧
    (¬ (SameShape (w.heap s) (w.heap m) ∧
        ∀ i j, i < (w.heap s).rows → j < (w.heap s).cols → (w.heap s).val i j = (w.heap m).val i j) →
      Runes.compare s m w = if (w.heap s).size < 0 ∨ (w.heap m).size < 0 then .panic w
        else if (writtenRunes (w.heap s)).flatMap Rune.bytes < (writtenRunes (w.heap m)).flatMap Rune.bytes
        then .ok (-1) w else .ok 1 w) := by
  obtain ⟨b, e1, -, e2⟩ := C27_equal_partial hreg hs hm hgs hgm hk
  rw [← e2]
  exact compare_of_equal hc hs hm hgs hgm e1

/-- C75. `Compare` of a dense and a compressed rune matrix, in either order: 0 exactly for matrices that are equal and
have no zero cell, because `Equal` asks each side for the elements the other stores; otherwise the strings decide. -/
theorem C75_compare_mixed {w : World Rune} {s m : Ref} (hreg : w.reg = initReg) (hc : w.cancel = none)
    (hs : (w.heap s).WF) (hm : (w.heap m).WF) (hgs : (w.heap s).nvalues ≤ w.gas) (hgm : (w.heap m).nvalues ≤ w.gas)
    (hk : (w.heap s).kind.sparse ≠ (w.heap m).kind.sparse) :
    (SameShape (w.heap s) (w.heap m) ∧ (∀ i j, i < (w.heap s).rows → j < (w.heap s).cols →
        (w.heap s).val i j = (w.heap m).val i j ∧ (w.heap s).val i j ≠ 0) →
      Runes.compare s m w = .ok 0 w) ∧
    (¬ (SameShape (w.heap s) (w.heap m) ∧ ∀ i j, i < (w.heap s).rows → j < (w.heap s).cols →
        (w.heap s).val i j = (w.heap m).val i j ∧ (w.heap s).val i j ≠ 0) →
      Runes.compare s m w = if (w.heap s).size < 0 ∨ (w.heap m).size < 0 then .panic w
        else if (writtenRunes (w.heap s)).flatMap Rune.bytes < (writtenRunes (w.heap m)).flatMap Rune.bytes
        then .ok (-1) w else .ok 1 w) := by
  have hn : GoNum.gname Rune ≠ "float64" := by decide
  cases h1 : (w.heap s).kind.sparse with
  | true =>
    have h2 : (w.heap m).kind.sparse = false := by
      cases h2 : (w.heap m).kind.sparse
      · rfl
      · exact absurd (h1.trans h2.symm) hk
    obtain ⟨b, e1, -, -, e2⟩ := C27_mixed_exact hreg hs hm hgs hgm (.inl ⟨rfl, rfl⟩) h1 h2
    rw [← e2 hn]
    exact compare_of_equal hc hs hm hgs hgm e1
  | false =>
    have h2 : (w.heap m).kind.sparse = true := by
      cases h2 : (w.heap m).kind.sparse
      · exact absurd (h1.trans h2.symm) hk
      · rfl
    obtain ⟨b, e1, -, -, e2⟩ := C27_mixed_exact hreg hs hm hgs hgm (.inr ⟨rfl, rfl⟩) h2 h1
    rw [← e2 hn]
    exact compare_of_equal hc hs hm hgs hgm e1

/-- `Compare` of a matrix with the same cells in the other storage is not 0 when a cell is zero. -/
theorem C75_refuted_mixed :
    let d : Mat Rune := .dense ⟨1, 2, [[0, 0]]⟩
    let c : Mat Rune := .csr { r := 1, c := 2, values := [], cols := [], rowStart := [0, 0] }
    Reach d ∧ Reach c ∧ (Runes.compare 0 1 (World.of 9 [d, c])).val = some 1 ∧
    (Runes.compare 1 0 (World.of 9 [d, c])).val = some (-1) := by
  refine ⟨Reach.newDense 1 2, Reach.newCSR 1 2, by kernel_rfl, by kernel_rfl⟩

/-! ## Witnesses -/

/-- `NewCSRMatrix[rune](3, 1<<62)`. -/
def hugeRunes : Mat Rune := .csr { r := 3, c := 2 ^ 62, values := [], cols := [], rowStart := [0, 0, 0, 0] }

/-- The same with a rune in its first cell. -/
def hugeRunes1 : Mat Rune :=
  .csr { r := 3, c := 2 ^ 62, values := [rune 0x61], cols := [0], rowStart := [0, 1, 1, 1] }

theorem hugeRunes_reach : Reach hugeRunes ∧ Reach hugeRunes1 := by
  have h : Reach hugeRunes := Reach.newCSR 3 (2 ^ 62)
  have e : (Op.set 0 0 (rune 0x61)).apply hugeRunes = .ok hugeRunes1 := by kernel_rfl
  exact ⟨h, h.call _ e⟩

theorem hugeRunes_wf : hugeRunes.WF ∧ hugeRunes1.WF :=
  ⟨hugeRunes_reach.1.wf (by decide), hugeRunes_reach.2.wf (by decide)⟩

/-- `String` of an empty 3 × 2^62 CSR matrix panics: its `Size()` is -2^62. `Compare` with a matrix that differs in one
cell panics too. -/
theorem C75_refuted : ¬ StringTotal ∧
    (∀ g, Runes.string 0 (World.of g [hugeRunes]) = .panic (World.of g [hugeRunes])) ∧
    (∀ g, 1 ≤ g → (Runes.compare 0 1 (World.of g [hugeRunes, hugeRunes1])).isPanic = true) := by
  have hz : hugeRunes.size < 0 := by decide +kernel
  have key : ∀ g, Runes.string 0 (World.of g [hugeRunes]) = .panic (World.of g [hugeRunes]) := by
    intro g
    rw [C75_string_partial (w := World.of g [hugeRunes]) (s := 0) hugeRunes_wf.1 (Nat.zero_le _) rfl]
    rw [if_pos (show (((World.of g [hugeRunes]).heap 0).size < 0) from hz)]
  refine ⟨fun h => ?_, key, fun g hg => ?_⟩
  · obtain ⟨b, hb⟩ := h (World.of 0 [hugeRunes]) 0 hugeRunes_reach.1 hugeRunes_wf.1 (Nat.zero_le _) rfl
    rw [key] at hb
    cases hb
  · have := (C75_compare_partial (w := World.of g [hugeRunes, hugeRunes1]) (s := 0) (m := 1) rfl rfl hugeRunes_wf.1
      hugeRunes_wf.2 (Nat.zero_le _) hg rfl).2 (by
        rintro ⟨-, h⟩
        have : hugeRunes.val 0 0 = hugeRunes1.val 0 0 := h 0 0 (show 0 < 3 by decide) (show 0 < 2 ^ 62 by decide)
        revert this
        decide +kernel)
    rw [this, if_pos (Or.inl (show (((World.of g [hugeRunes, hugeRunes1]).heap 0).size < 0) from hz))]
    rfl

/-- `a` in the first of two cells, and in the second. -/
def runeLeft : Mat Rune := .csr { r := 1, c := 2, values := [rune 0x61], cols := [0], rowStart := [0, 1] }
def runeRight : Mat Rune := .csr { r := 1, c := 2, values := [rune 0x61], cols := [1], rowStart := [0, 1] }

/-- Compressed matrices of one shape that differ have the same string, so `Compare` is +1 in both directions: the
hypothesis of C28 that the matrices are dense is needed. -/
theorem C75_refuted_order : Reach runeLeft ∧ Reach runeRight ∧
    (Runes.compare 0 1 (World.of 9 [runeLeft, runeRight])).val = some 1 ∧
    (Runes.compare 1 0 (World.of 9 [runeLeft, runeRight])).val = some 1 := by
  refine ⟨?_, ?_, by kernel_rfl, by kernel_rfl⟩
  · exact Reach.arrCSR (data := [[rune 0x61, 0]]) (c := 2) (by unfold Rect; simp) (by kernel_rfl)
  · exact Reach.arrCSR (data := [[0, rune 0x61]]) (c := 2) (by unfold Rect; simp) (by kernel_rfl)

/-- `a c / b _` in two formats. -/
def runesCSR : Mat Rune :=
  .csr { r := 2, c := 2, values := [rune 0x61, rune 0x63, rune 0x62], cols := [0, 1, 0], rowStart := [0, 2, 3] }
def runesCSC : Mat Rune :=
  .csc { r := 2, c := 2, values := [rune 0x61, rune 0x62, rune 0x63], rows := [0, 1, 0], colStart := [0, 2, 3] }

/-- They are written by rows and by columns. -/
example : (Runes.string 0 (World.of 9 [runesCSR])).val = some [0x61, 0x63, 0x62] ∧
    (Runes.string 0 (World.of 9 [runesCSC])).val = some [0x61, 0x62, 0x63] := by
  constructor <;> kernel_rfl

end GB
