import Verif.Props.Sort
import Mathlib.Data.List.Sort

/-!
# The sorted matrix depends only on the rows, not on their order: C71
-/

namespace GB

set_option linter.unusedSectionVars false

theorem RunesLe.antisymm {a b : List Rune} (h1 : RunesLe a b) (h2 : RunesLe b a) : a = b :=
  List.map_injective_iff.2 (fun _ _ => Rune.code_inj) (le_antisymm h1 h2)

theorem RunesLe.refl (a : List Rune) : RunesLe a a := le_refl _

/-- Two sorted enumerations of the same lines are the same. -/
theorem sorted_lines {n : Nat} {f g : Nat → List Rune}
    (hf : ∀ i k, i < k → k < n → RunesLe (f i) (f k)) (hg : ∀ i k, i < k → k < n → RunesLe (g i) (g k))
    (h : ((List.range n).map f).Perm ((List.range n).map g)) : ∀ i, i < n → f i = g i := by
  have sorted : ∀ {f : Nat → List Rune}, (∀ i k, i < k → k < n → RunesLe (f i) (f k)) →
      ((List.range n).map f).Pairwise RunesLe := by
    intro f hf
    rw [List.pairwise_map, List.pairwise_iff_getElem]
    intro i j hi hj hij
    simp only [List.getElem_range]
    exact hf i j hij (by simpa using hj)
  have e := h.eq_of_pairwise (fun a b _ _ h1 h2 => RunesLe.antisymm h1 h2) (sorted hf) (sorted hg)
  intro i hi
  have := List.map_inj_left.1 e i (List.mem_range.2 hi)
  exact this

section
variable {w : World Rune} {a b : Ref}

theorem rows_val {m m' : Mat Rune} (hc : m.cols = m'.cols) {i : Nat} :
    runeRowOf m i = runeRowOf m' i ↔ ∀ j, j < m.cols → m.val i j = m'.val i j := by
  unfold runeRowOf
  rw [← hc, List.map_inj_left]
  exact ⟨fun h j hj => h j (List.mem_range.2 hj), fun h j hj => h j (List.mem_range.1 hj)⟩

theorem cols_val {m m' : Mat Rune} (hc : m.rows = m'.rows) {j : Nat} :
    runeColOf m j = runeColOf m' j ↔ ∀ i, i < m.rows → m.val i j = m'.val i j := by
  unfold runeColOf
  rw [← hc, List.map_inj_left]
  exact ⟨fun h j hj => h j (List.mem_range.2 hj), fun h j hj => h j (List.mem_range.1 hj)⟩

/-- C71, rows: for two dense rune matrices of the same shape, of valid code points, `BubbleRow` returns
the same cells exactly when one has the rows of the other in some order, with the same repetitions. -/
theorem C71_rows (hreg : w.reg = initReg) (hcx : w.cancel = none)
    (ha : (w.heap a).WF) (ka : (w.heap a).kind = .dense) (va : ValidRunes (w.heap a))
    (hb : (w.heap b).WF) (kb : (w.heap b).kind = .dense) (vb : ValidRunes (w.heap b))
    (hr : (w.heap b).rows = (w.heap a).rows) (hc : (w.heap b).cols = (w.heap a).cols)
    (hg : (w.heap a).cols ≤ w.gas) :
    ∃ p u q v, Runes.bubbleRow a w = .ok p u ∧ Runes.bubbleRow b w = .ok q v ∧
      ((∀ i j, i < (w.heap a).rows → j < (w.heap a).cols → (u.heap p).val i j = (v.heap q).val i j) ↔
        ((List.range (w.heap a).rows).map (runeRowOf (w.heap a))).Perm
          ((List.range (w.heap a).rows).map (runeRowOf (w.heap b)))) := by
  obtain ⟨p, u, h1, ⟨-, -, -, hs, hp, -⟩, hle⟩ := C29_rows_partial hreg ha ka hg va
  obtain ⟨q, v, g1, ⟨-, -, -, gs, gp, -⟩, gle⟩ := C29_rows_partial hreg hb kb (by rw [hc]; exact hg) vb
  replace hle := hle hcx
  replace gle := gle hcx
  rw [hr] at gp gle
  refine ⟨p, u, q, v, h1, g1, ?_⟩
  have hcol : (u.heap p).cols = (v.heap q).cols := by rw [hs.2, gs.2, hc]
  have key : (∀ i j, i < (w.heap a).rows → j < (w.heap a).cols → (u.heap p).val i j = (v.heap q).val i j) ↔
      ∀ i, i < (w.heap a).rows → runeRowOf (u.heap p) i = runeRowOf (v.heap q) i := by
    refine ⟨fun h i hi => (rows_val hcol).2 (fun j hj => h i j hi (by rw [← hs.2]; exact hj)),
      fun h i j hi hj => (rows_val hcol).1 (h i hi) j (by rw [hs.2]; exact hj)⟩
  rw [key]
  constructor
  · intro h
    have e : (List.range (w.heap a).rows).map (runeRowOf (u.heap p)) =
        (List.range (w.heap a).rows).map (runeRowOf (v.heap q)) :=
      List.map_congr_left (fun i hi => h i (List.mem_range.1 hi))
    exact hp.symm.trans (by rw [e]; exact gp)
  · intro h
    exact sorted_lines hle gle (hp.trans (h.trans gp.symm))

/-- C71, columns. -/
theorem C71_columns (hreg : w.reg = initReg) (hcx : w.cancel = none)
    (ha : (w.heap a).WF) (ka : (w.heap a).kind = .dense) (va : ValidRunes (w.heap a))
    (hb : (w.heap b).WF) (kb : (w.heap b).kind = .dense) (vb : ValidRunes (w.heap b))
    (hr : (w.heap b).rows = (w.heap a).rows) (hc : (w.heap b).cols = (w.heap a).cols)
    (hg : (w.heap a).rows ≤ w.gas) :
    ∃ p u q v, Runes.bubbleColumns a w = .ok p u ∧ Runes.bubbleColumns b w = .ok q v ∧
      ((∀ i j, i < (w.heap a).rows → j < (w.heap a).cols → (u.heap p).val i j = (v.heap q).val i j) ↔
        ((List.range (w.heap a).cols).map (runeColOf (w.heap a))).Perm
          ((List.range (w.heap a).cols).map (runeColOf (w.heap b)))) := by
  obtain ⟨p, u, h1, ⟨-, -, -, hs, hp, -⟩, hle⟩ := C29_columns_partial hreg ha ka hg va
  obtain ⟨q, v, g1, ⟨-, -, -, gs, gp, -⟩, gle⟩ := C29_columns_partial hreg hb kb (by rw [hr]; exact hg) vb
  replace hle := hle hcx
  replace gle := gle hcx
  rw [hc] at gp gle
  refine ⟨p, u, q, v, h1, g1, ?_⟩
  have hrow : (u.heap p).rows = (v.heap q).rows := by rw [hs.1, gs.1, hr]
  have key : (∀ i j, i < (w.heap a).rows → j < (w.heap a).cols → (u.heap p).val i j = (v.heap q).val i j) ↔
      ∀ j, j < (w.heap a).cols → runeColOf (u.heap p) j = runeColOf (v.heap q) j := by
    refine ⟨fun h j hj => (cols_val hrow).2 (fun i hi => h i j (by rw [← hs.1]; exact hi) hj),
      fun h i j hi hj => (cols_val hrow).1 (h j hj) i (by rw [hs.1]; exact hi)⟩
  rw [key]
  constructor
  · intro h
    have e : (List.range (w.heap a).cols).map (runeColOf (u.heap p)) =
        (List.range (w.heap a).cols).map (runeColOf (v.heap q)) :=
      List.map_congr_left (fun i hi => h i (List.mem_range.1 hi))
    exact hp.symm.trans (by rw [e]; exact gp)
  · intro h
    exact sorted_lines hle gle (hp.trans (h.trans gp.symm))

/-- C71, sorted matrices are fixed points, and the only ones. -/
theorem C71_fixed (hreg : w.reg = initReg) (hcx : w.cancel = none)
    (ha : (w.heap a).WF) (ka : (w.heap a).kind = .dense) (va : ValidRunes (w.heap a)) (hg : (w.heap a).cols ≤ w.gas) :
    ∃ p u, Runes.bubbleRow a w = .ok p u ∧
      ((∀ i j, i < (w.heap a).rows → j < (w.heap a).cols → (u.heap p).val i j = (w.heap a).val i j) ↔
        ∀ i k, i < k → k < (w.heap a).rows → RunesLe (runeRowOf (w.heap a) i) (runeRowOf (w.heap a) k)) := by
  obtain ⟨p, u, h1, ⟨-, -, -, hs, hp, -⟩, hle⟩ := C29_rows_partial hreg ha ka hg va
  replace hle := hle hcx
  refine ⟨p, u, h1, fun h => ?_, fun h i j hi hj => ?_⟩
  · have e : ∀ i, i < (w.heap a).rows → runeRowOf (u.heap p) i = runeRowOf (w.heap a) i :=
      fun i hi => (rows_val hs.2).2 (fun j hj => h i j hi (by rw [← hs.2]; exact hj))
    intro i k hik hk
    rw [← e i (by omega), ← e k hk]
    exact hle i k hik hk
  · exact (rows_val hs.2).1 (sorted_lines hle h hp i hi) j (by rw [hs.2]; exact hj)

/-- C71, the same for columns. -/
theorem C71_fixed_columns (hreg : w.reg = initReg) (hcx : w.cancel = none)
    (ha : (w.heap a).WF) (ka : (w.heap a).kind = .dense) (va : ValidRunes (w.heap a)) (hg : (w.heap a).rows ≤ w.gas) :
    ∃ p u, Runes.bubbleColumns a w = .ok p u ∧
      ((∀ i j, i < (w.heap a).rows → j < (w.heap a).cols → (u.heap p).val i j = (w.heap a).val i j) ↔
        ∀ i k, i < k → k < (w.heap a).cols → RunesLe (runeColOf (w.heap a) i) (runeColOf (w.heap a) k)) := by
  obtain ⟨p, u, h1, ⟨-, -, -, hs, hp, -⟩, hle⟩ := C29_columns_partial hreg ha ka hg va
  replace hle := hle hcx
  refine ⟨p, u, h1, fun h => ?_, fun h i j hi hj => ?_⟩
  · have e : ∀ j, j < (w.heap a).cols → runeColOf (u.heap p) j = runeColOf (w.heap a) j :=
      fun j hj => (cols_val hs.1).2 (fun i hi => h i j (by rw [← hs.1]; exact hi) hj)
    intro i k hik hk
    rw [← e i (by omega), ← e k hk]
    exact hle i k hik hk
  · exact (cols_val hs.1).1 (sorted_lines hle h hp j hj) i (by rw [hs.1]; exact hi)

end

/-! ## Cases -/

theorem runeSquareR_ok : runeSquareR.WF ∧ ValidRunes runeSquareR := by
  constructor
  · exact ⟨rfl, by intro row hr; simp at hr; rcases hr with rfl | rfl | rfl <;> rfl⟩
  · intro i j hi hj
    have hv : ∀ r ∈ runeSquareR.flat, r.valid = true := by decide +kernel
    exact Rune.valid_iff.1 (hv _ (List.mem_map.2 ⟨(i, j), mem_cells.2 ⟨hi, hj⟩, rfl⟩))

/-- Two orders of the rows `ab`, `ba`, `ba` sort to the same matrix. -/
example : ∃ p u q v, Runes.bubbleRow 0 (World.of 9 [runeSquare, runeSquareR]) = .ok p u ∧
    Runes.bubbleRow 1 (World.of 9 [runeSquare, runeSquareR]) = .ok q v ∧
    ∀ i j, i < 3 → j < 2 → (u.heap p).val i j = (v.heap q).val i j := by
  obtain ⟨p, u, q, v, h1, h2, h3⟩ := C71_rows (w := World.of 9 [runeSquare, runeSquareR]) (a := 0) (b := 1) rfl rfl
    runeSquare_ok.1 rfl runeSquare_ok.2 runeSquareR_ok.1 rfl runeSquareR_ok.2 rfl rfl (by decide)
  refine ⟨p, u, q, v, h1, h2, h3.2 ?_⟩
  exact List.Perm.swap _ _ _

end GB
