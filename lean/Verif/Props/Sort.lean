import Verif.Lemmas.Sort
import Verif.Props.Rune

/-!
# Sorting rows and columns of rune matrices: C29
-/

namespace GB

set_option linter.unusedSectionVars false

open M

/-- Row `i` of a rune matrix. -/
def runeRowOf (m : Mat Rune) (i : Nat) : List Rune := (List.range m.cols).map (fun j => m.val i j)
/-- Column `j` of a rune matrix. -/
def runeColOf (m : Mat Rune) (j : Nat) : List Rune := (List.range m.rows).map (fun i => m.val i j)

/-- The lexicographic order of the code points, which is the order of `Compare` (`C28_compare`). -/
def RunesLe (a b : List Rune) : Prop := a.map Rune.code ≤ b.map Rune.code

/-- `BubbleRow(A)` returned a new matrix of the shape of `A` whose rows are those of `A` in another
order; no object of the caller changed. -/
def RowsPermuted (w : World Rune) (a p : Ref) (w' : World Rune) : Prop :=
  w.next ≤ p ∧ (w'.heap p).WF ∧ (w'.heap p).kind = .dense ∧ SameShape (w'.heap p) (w.heap a) ∧
  ((List.range (w.heap a).rows).map (runeRowOf (w'.heap p))).Perm ((List.range (w.heap a).rows).map (runeRowOf (w.heap a))) ∧
  ∀ q, q < w.next → w'.heap q = w.heap q

/-- The same for `BubbleColumns`. -/
def ColsPermuted (w : World Rune) (a p : Ref) (w' : World Rune) : Prop :=
  w.next ≤ p ∧ (w'.heap p).WF ∧ (w'.heap p).kind = .dense ∧ SameShape (w'.heap p) (w.heap a) ∧
  ((List.range (w.heap a).cols).map (runeColOf (w'.heap p))).Perm ((List.range (w.heap a).cols).map (runeColOf (w.heap a))) ∧
  ∀ q, q < w.next → w'.heap q = w.heap q

/-- `Compare(A.RowsAt(i), A.RowsAt(k))`. -/
def compareRows (p : Ref) (i k : Nat) : M Rune Int := do
  let u ← ofObj p (fun m => m.rowsAt i)
  let u ← alloc u.toMat
  let v ← ofObj p (fun m => m.rowsAt k)
  let v ← alloc v.toMat
  Runes.compare u v

/-- `Compare(A.ColumnsAt(i), A.ColumnsAt(k))`. -/
def compareCols (p : Ref) (i k : Nat) : M Rune Int := do
  let u ← ofObj p (fun m => m.columnsAt i)
  let u ← alloc u.toMat
  let v ← ofObj p (fun m => m.columnsAt k)
  let v ← alloc v.toMat
  Runes.compare u v

/-- C29 in full for `BubbleRow`: the rows are permuted, and `Compare` of an earlier with a later row of
the result is at most 0. -/
def BubbleRowSorts (valid : Mat Rune → Prop) : Prop :=
  ∀ (w : World Rune) (a : Ref), w.reg = initReg → w.cancel = none → (w.heap a).WF →
    (w.heap a).kind = .dense → (w.heap a).cols ≤ w.gas → valid (w.heap a) →
    ∃ p w', Runes.bubbleRow a w = .ok p w' ∧ RowsPermuted w a p w' ∧
      ∀ i k, i < k → k < (w.heap a).rows → ∃ x w'', compareRows p i k w' = .ok x w'' ∧ x ≤ 0

theorem base_copy {pos : Nat → Nat → Nat × Nat} {cnt len : Mat Rune → Nat} {w : World Rune} {a : Ref}
    (hreg : w.reg = initReg) (hw : (w.heap a).WF) (hk : (w.heap a).kind = .dense) (hg : len (w.heap a) ≤ w.gas) :
    ∃ w1, M.copy a w = .ok w.next w1 ∧ Runes.Base pos cnt len w w1 (w.heap a) w.next := by
  refine ⟨{ w with heap := Function.update w.heap w.next (w.heap a), next := w.next + 1 }, ?_, ?_⟩
  · unfold M.copy
    rw [bind_ok (ofObj_ok (p := a) (w := w) (f := Mat.copy) (a := w.heap a) (Mat.copy_ok hw))]
    rfl
  · exact
    { wf := by simpa using hw
      same := by simpa using Mat.Same.refl _
      kind := hk
      old := fun q hq => Function.update_of_ne (Nat.ne_of_lt hq) _ _
      fresh := Nat.le_refl _
      lt := Nat.lt_succ_self _
      reg := hreg
      gas := hg
      gas0 := rfl
      cancel := fun h => h
      perm := by simp }

theorem lane_written {pos : Nat → Nat → Nat × Nat} {len : Mat Rune → Nat} {m : Mat Rune} {k : Nat}
    {A : Mat Rune} {n : Nat}
    (hp : ((List.range n).map (Runes.lane pos len m)).Perm ((List.range n).map (Runes.lane pos len A)))
    (hv : ∀ k, k < n → ∀ r ∈ Runes.lane pos len A k, r.valid = true) (hk : k < n) :
    ∀ r ∈ Runes.lane pos len m k, r.valid = true := by
  have : Runes.lane pos len m k ∈ _ := hp.subset (List.mem_map.2 ⟨k, List.mem_range.2 hk, rfl⟩)
  obtain ⟨k', hk', he⟩ := List.mem_map.1 this
  rw [← he]
  exact hv k' (List.mem_range.1 hk')

/-- C29, rows, any runes. `BubbleRow` of a dense rune matrix returns, whatever becomes of the context, a new matrix
whose rows are a permutation of the rows of the input; the input is not modified; and if the context is not cancelled
the strings of the rows are in non-decreasing order. -/
theorem C29_rows {w : World Rune} {a : Ref} (hreg : w.reg = initReg)
    (hw : (w.heap a).WF) (hk : (w.heap a).kind = .dense) (hg : (w.heap a).cols ≤ w.gas) :
    ∃ p w', Runes.bubbleRow a w = .ok p w' ∧ RowsPermuted w a p w' ∧
      (w.cancel = none → ∀ i k, i < k → k < (w.heap a).rows →
        written (runeRowOf (w'.heap p) i) ≤ written (runeRowOf (w'.heap p) k)) := by
  obtain ⟨w1, e1, hB⟩ := base_copy (pos := fun k c => (k, c)) (cnt := Mat.rows) (len := Mat.cols) hreg hw hk hg
  obtain ⟨w', f1, f2, f3⟩ := Runes.sortLines_ok Runes.lanes_rows hB
  refine ⟨w.next, w', ?_, ⟨Nat.le_refl _, f2.wf, by rw [f2.same.1, hk], ⟨f2.same.2.1, f2.same.2.2⟩, f2.perm, f2.old⟩, ?_⟩
  · unfold Runes.bubbleRow
    rw [bind_ok (show rowsOf a w = .ok (w.heap a).rows w from rfl), bind_ok e1, bind_ok f1]
    rfl
  · intro hc i k hik hk'
    rw [written_eq, written_eq]
    exact f3 hc i k hik hk'

/-- C29, columns, any runes. -/
theorem C29_columns {w : World Rune} {a : Ref} (hreg : w.reg = initReg)
    (hw : (w.heap a).WF) (hk : (w.heap a).kind = .dense) (hg : (w.heap a).rows ≤ w.gas) :
    ∃ p w', Runes.bubbleColumns a w = .ok p w' ∧ ColsPermuted w a p w' ∧
      (w.cancel = none → ∀ i k, i < k → k < (w.heap a).cols →
        written (runeColOf (w'.heap p) i) ≤ written (runeColOf (w'.heap p) k)) := by
  obtain ⟨w1, e1, hB⟩ := base_copy (pos := fun k c => (c, k)) (cnt := Mat.cols) (len := Mat.rows) hreg hw hk hg
  obtain ⟨w', f1, f2, f3⟩ := Runes.sortLines_ok Runes.lanes_cols hB
  refine ⟨w.next, w', ?_, ⟨Nat.le_refl _, f2.wf, by rw [f2.same.1, hk], ⟨f2.same.2.1, f2.same.2.2⟩, f2.perm, f2.old⟩, ?_⟩
  · unfold Runes.bubbleColumns
    rw [bind_ok (show colsOf a w = .ok (w.heap a).cols w from rfl), bind_ok e1, bind_ok f1]
    rfl
  · intro hc i k hik hk'
    rw [written_eq, written_eq]
    exact f3 hc i k hik hk'

/-- C29, rows. On valid code points the order of the strings is that of the code points.

Missing: invalid code points (surrogates, negative numbers), on which `Compare` is no order
(`C29_refuted`, `C29_rows_iff`). -/
theorem C29_rows_partial {w : World Rune} {a : Ref} (hreg : w.reg = initReg)
    (hw : (w.heap a).WF) (hk : (w.heap a).kind = .dense) (hg : (w.heap a).cols ≤ w.gas) (hv : ValidRunes (w.heap a)) :
    ∃ p w', Runes.bubbleRow a w = .ok p w' ∧ RowsPermuted w a p w' ∧
      (w.cancel = none → ∀ i k, i < k → k < (w.heap a).rows →
        RunesLe (runeRowOf (w'.heap p) i) (runeRowOf (w'.heap p) k)) := by
  obtain ⟨p, w', h1, h2, h3⟩ := C29_rows hreg hw hk hg
  refine ⟨p, w', h1, h2, fun hc i k hik hk' => ?_⟩
  have hval : ∀ k, k < (w.heap a).rows → ∀ r ∈ runeRowOf (w'.heap p) k, r.valid = true := fun k (hk : k < (w.heap a).rows) => lane_written (k := k) (pos := fun k c => (k, c)) (len := Mat.cols) h2.2.2.2.2.1 (by
    intro k hk r hr
    obtain ⟨c, hc, rfl⟩ := List.mem_map.1 hr
    exact Rune.valid_iff.2 (hv k c hk (List.mem_range.1 hc))) hk
  have := h3 hc i k hik hk'
  rwa [written_valid (hval i (by omega)), written_valid (hval k hk')] at this

/-- C29, columns. -/
theorem C29_columns_partial {w : World Rune} {a : Ref} (hreg : w.reg = initReg)
    (hw : (w.heap a).WF) (hk : (w.heap a).kind = .dense) (hg : (w.heap a).rows ≤ w.gas) (hv : ValidRunes (w.heap a)) :
    ∃ p w', Runes.bubbleColumns a w = .ok p w' ∧ ColsPermuted w a p w' ∧
      (w.cancel = none → ∀ i k, i < k → k < (w.heap a).cols →
        RunesLe (runeColOf (w'.heap p) i) (runeColOf (w'.heap p) k)) := by
  obtain ⟨p, w', h1, h2, h3⟩ := C29_columns hreg hw hk hg
  refine ⟨p, w', h1, h2, fun hc i k hik hk' => ?_⟩
  have hval : ∀ k, k < (w.heap a).cols → ∀ r ∈ runeColOf (w'.heap p) k, r.valid = true := fun k (hk : k < (w.heap a).cols) => lane_written (k := k) (pos := fun k c => (c, k)) (len := Mat.rows) h2.2.2.2.2.1 (by
    intro k hk r hr
    obtain ⟨c, hc, rfl⟩ := List.mem_map.1 hr
    exact Rune.valid_iff.2 (hv c k (List.mem_range.1 hc) hk)) hk
  have := h3 hc i k hik hk'
  rwa [written_valid (hval i (by omega)), written_valid (hval k hk')] at this

/-- `Compare` of two lines of a matrix, as the sort calls it. -/
theorem compareLines_ok {line : Mat Rune → Int → Out (Vec Rune)} {pos : Nat → Nat → Nat × Nat}
    {cnt len : Mat Rune → Nat} (L : Runes.Lanes line pos cnt len) {w : World Rune} {p : Ref} {i k : Nat}
    (hreg : w.reg = initReg) (hc : w.cancel = none) (hw : (w.heap p).WF) (hk : (w.heap p).kind = .dense)
    (hn : p < w.next) (hi : i < cnt (w.heap p)) (hk' : k < cnt (w.heap p)) (hg : len (w.heap p) ≤ w.gas) :
    ∃ w', (do
      let u ← ofObj p (fun m => line m i)
      let u ← alloc u.toMat
      let v ← ofObj p (fun m => line m k)
      let v ← alloc v.toMat
      Runes.compare u v : M Rune Int) w =
      .ok (if Runes.lane pos len (w.heap p) i = Runes.lane pos len (w.heap p) k then 0
        else if written (Runes.lane pos len (w.heap p) i) < written (Runes.lane pos len (w.heap p) k) then -1 else 1) w' := by
  set m := w.heap p with hm
  set u : DVec Rune := { l := len m, values := Runes.lane pos len m i } with hu
  set v : DVec Rune := { l := len m, values := Runes.lane pos len m k } with hv'
  have wu : u.WF := by simp [DVec.WF, hu, Runes.lane]
  have wv : v.WF := by simp [DVec.WF, hv', Runes.lane]
  set w1 : World Rune := { w with heap := Function.update w.heap w.next (.dvec u), next := w.next + 1 } with hw1
  set w2 : World Rune := { w1 with heap := Function.update w1.heap w1.next (.dvec v), next := w1.next + 1 } with hw2
  have r1 : w1.heap p = m := Function.update_of_ne (Nat.ne_of_lt hn) _ _
  have eu : w2.heap w.next = .dvec u := by
    refine (Function.update_of_ne (Nat.ne_of_lt (Nat.lt_succ_self _)) _ _).trans ?_
    rw [hw1]; simp
  have ev : w2.heap w1.next = .dvec v := by rw [hw2]; simp
  obtain ⟨x, c, g1, g2⟩ := Runes.compare_ok (w := w2) (s := w.next) (m := w1.next) hreg (by rw [eu]; exact wu)
    (by rw [ev]; exact wv) (by rw [eu]; rfl) (by rw [ev]; rfl) (by rw [eu]; exact hg) (by rw [ev]; exact hg)
    (by rw [eu]; exact Int.natCast_nonneg _) (by rw [ev]; exact Int.natCast_nonneg _)
  rw [eu, ev, Runes.flat_dvec wu, Runes.flat_dvec wv] at g2
  refine ⟨{ w2 with cancel := c }, ?_⟩
  rw [bind_ok (ofObj_ok (p := p) (w := w) (a := .dvec u) (L.line_ok m hw hk i hi))]
  rw [bind_ok (show alloc (Vec.toMat (.dvec u)) w = .ok w.next w1 from rfl)]
  rw [bind_ok (ofObj_ok (p := p) (w := w1) (a := .dvec v) (by rw [r1]; exact L.line_ok m hw hk k hk'))]
  rw [bind_ok (show alloc (Vec.toMat (.dvec v)) w1 = .ok w1.next w2 from rfl)]
  rw [g1, (g2 hc).2]
  congr 1
  have h1 : (SameShape (Mat.dvec u) (Mat.dvec v) ∧ u.values = v.values) ↔
      Runes.lane pos len m i = Runes.lane pos len m k := ⟨fun h => h.2, fun h => ⟨⟨rfl, rfl⟩, h⟩⟩
  have h2 : u.values.flatMap Rune.bytes < v.values.flatMap Rune.bytes ↔
      written (Runes.lane pos len m i) < written (Runes.lane pos len m k) := by
    rw [bytes_lt_shown_iff, written_eq, written_eq]
  simp only [h1, h2]

/-- No two different lines have the same string. -/
theorem written_inj_iff {pos : Nat → Nat → Nat × Nat} {len : Mat Rune → Nat} {m A : Mat Rune} {n : Nat}
    (hp : ((List.range n).map (Runes.lane pos len m)).Perm ((List.range n).map (Runes.lane pos len A)))
    (hs : ∀ i k, i < k → k < n → written (Runes.lane pos len m i) ≤ written (Runes.lane pos len m k)) :
    (∀ i k, i < k → k < n → (if Runes.lane pos len m i = Runes.lane pos len m k then (0 : ℤ)
        else if written (Runes.lane pos len m i) < written (Runes.lane pos len m k) then -1 else 1) ≤ 0) ↔
    ∀ i k, i < n → k < n → written (Runes.lane pos len A i) = written (Runes.lane pos len A k) →
      Runes.lane pos len A i = Runes.lane pos len A k := by
  have key : ∀ B : Mat Rune, (∀ i k, i < n → k < n → written (Runes.lane pos len B i) = written (Runes.lane pos len B k) →
      Runes.lane pos len B i = Runes.lane pos len B k) ↔
      ∀ x ∈ (List.range n).map (Runes.lane pos len B), ∀ y ∈ (List.range n).map (Runes.lane pos len B),
        written x = written y → x = y := by
    intro B
    constructor
    · intro h x hx y hy
      obtain ⟨i, hi, rfl⟩ := List.mem_map.1 hx
      obtain ⟨k, hk, rfl⟩ := List.mem_map.1 hy
      exact h i k (List.mem_range.1 hi) (List.mem_range.1 hk)
    · intro h i k hi hk
      exact h _ (List.mem_map.2 ⟨i, List.mem_range.2 hi, rfl⟩) _ (List.mem_map.2 ⟨k, List.mem_range.2 hk, rfl⟩)
  have hmem : ∀ x, x ∈ (List.range n).map (Runes.lane pos len m) ↔ x ∈ (List.range n).map (Runes.lane pos len A) :=
    fun x => hp.mem_iff
  rw [key A]
  simp only [← hmem]
  rw [← key m]
  constructor
  · intro h
    have one : ∀ i k, i < k → k < n → written (Runes.lane pos len m i) = written (Runes.lane pos len m k) →
        Runes.lane pos len m i = Runes.lane pos len m k := by
      intro i k hik hk he
      by_contra hne
      have := h i k hik hk
      rw [if_neg hne, he, if_neg (lt_irrefl _)] at this
      omega
    intro i k hi hk he
    rcases Nat.lt_trichotomy i k with h | rfl | h
    · exact one i k h hk he
    · rfl
    · exact (one k i h hi he.symm).symm
  · intro h i k hik hk
    by_cases he : Runes.lane pos len m i = Runes.lane pos len m k
    · rw [if_pos he]
    · rw [if_neg he, if_pos (lt_of_le_of_ne (hs i k hik hk) (fun h' => he (h i k (by omega) hk h')))]
      omega

/-- C29, rows, in terms of `Compare` itself: the result of `BubbleRow` is in `Compare` order exactly when no two
different rows of the input have the same string. -/
theorem C29_rows_iff {w : World Rune} {a : Ref} (hreg : w.reg = initReg) (hc : w.cancel = none)
    (hw : (w.heap a).WF) (hk : (w.heap a).kind = .dense) (hg : (w.heap a).cols ≤ w.gas) :
    ∃ p w', Runes.bubbleRow a w = .ok p w' ∧ RowsPermuted w a p w' ∧
      ((∀ i k, i < k → k < (w.heap a).rows → ∃ x w'', compareRows p i k w' = .ok x w'' ∧ x ≤ 0) ↔
        ∀ i k, i < (w.heap a).rows → k < (w.heap a).rows →
          written (runeRowOf (w.heap a) i) = written (runeRowOf (w.heap a) k) →
            runeRowOf (w.heap a) i = runeRowOf (w.heap a) k) := by
  obtain ⟨w1, e1, hB⟩ := base_copy (pos := fun k c => (k, c)) (cnt := Mat.rows) (len := Mat.cols) hreg hw hk hg
  obtain ⟨w', f1, f2, f3⟩ := Runes.sortLines_ok Runes.lanes_rows hB
  refine ⟨w.next, w', ?_, ⟨Nat.le_refl _, f2.wf, by rw [f2.same.1, hk], ⟨f2.same.2.1, f2.same.2.2⟩, f2.perm, f2.old⟩, ?_⟩
  · unfold Runes.bubbleRow
    rw [bind_ok (show rowsOf a w = .ok (w.heap a).rows w from rfl), bind_ok e1, bind_ok f1]
    rfl
  · have hr : (w'.heap w.next).rows = (w.heap a).rows := f2.same.2.1
    refine Iff.trans ?_ (written_inj_iff f2.perm (fun i k hik hk' => by
      rw [written_eq, written_eq]; exact f3 hc i k hik hk'))
    refine forall_congr' fun i => forall_congr' fun k => forall_congr' fun hik => forall_congr' fun hk' => ?_
    obtain ⟨w'', e⟩ := compareLines_ok Runes.lanes_rows (w := w') (p := w.next) (i := i) (k := k) f2.reg (f2.cancel hc) f2.wf
      (by rw [f2.same.1, hk]) f2.lt (by rw [hr]; omega) (by rw [hr]; exact hk') (by rw [f2.same.2.2]; exact f2.gas)
    constructor
    · rintro ⟨x, w2, h1, h2⟩
      have h1' := e.symm.trans h1
      injection h1' with h3
      rw [h3]; exact h2
    · intro h
      exact ⟨_, w'', e, h⟩

/-- C29, columns, in terms of `Compare` itself. -/
theorem C29_columns_iff {w : World Rune} {a : Ref} (hreg : w.reg = initReg) (hc : w.cancel = none)
    (hw : (w.heap a).WF) (hk : (w.heap a).kind = .dense) (hg : (w.heap a).rows ≤ w.gas) :
    ∃ p w', Runes.bubbleColumns a w = .ok p w' ∧ ColsPermuted w a p w' ∧
      ((∀ i k, i < k → k < (w.heap a).cols → ∃ x w'', compareCols p i k w' = .ok x w'' ∧ x ≤ 0) ↔
        ∀ i k, i < (w.heap a).cols → k < (w.heap a).cols →
          written (runeColOf (w.heap a) i) = written (runeColOf (w.heap a) k) →
            runeColOf (w.heap a) i = runeColOf (w.heap a) k) := by
  obtain ⟨w1, e1, hB⟩ := base_copy (pos := fun k c => (c, k)) (cnt := Mat.cols) (len := Mat.rows) hreg hw hk hg
  obtain ⟨w', f1, f2, f3⟩ := Runes.sortLines_ok Runes.lanes_cols hB
  refine ⟨w.next, w', ?_, ⟨Nat.le_refl _, f2.wf, by rw [f2.same.1, hk], ⟨f2.same.2.1, f2.same.2.2⟩, f2.perm, f2.old⟩, ?_⟩
  · unfold Runes.bubbleColumns
    rw [bind_ok (show colsOf a w = .ok (w.heap a).cols w from rfl), bind_ok e1, bind_ok f1]
    rfl
  · have hr : (w'.heap w.next).cols = (w.heap a).cols := f2.same.2.2
    refine Iff.trans ?_ (written_inj_iff f2.perm (fun i k hik hk' => by
      rw [written_eq, written_eq]; exact f3 hc i k hik hk'))
    refine forall_congr' fun i => forall_congr' fun k => forall_congr' fun hik => forall_congr' fun hk' => ?_
    obtain ⟨w'', e⟩ := compareLines_ok Runes.lanes_cols (w := w') (p := w.next) (i := i) (k := k) f2.reg (f2.cancel hc) f2.wf
      (by rw [f2.same.1, hk]) f2.lt (by rw [hr]; omega) (by rw [hr]; exact hk') (by rw [f2.same.2.1]; exact f2.gas)
    constructor
    · rintro ⟨x, w2, h1, h2⟩
      have h1' := e.symm.trans h1
      injection h1' with h3
      rw [h3]; exact h2
    · intro h
      exact ⟨_, w'', e, h⟩

/-- C29, rows, in terms of `Compare` itself, on valid code points. -/
theorem C29_rows_compare_partial : BubbleRowSorts ValidRunes := by
  intro w a hreg hc hw hk hg hv
  obtain ⟨p, w', h1, h2, h3⟩ := C29_rows_iff hreg hc hw hk hg
  refine ⟨p, w', h1, h2, h3.2 ?_⟩
  have hval : ∀ k, k < (w.heap a).rows → ∀ r ∈ runeRowOf (w.heap a) k, r.valid = true := by
    intro k hk r hr
    obtain ⟨c, hc, rfl⟩ := List.mem_map.1 hr
    exact Rune.valid_iff.2 (hv k c hk (List.mem_range.1 hc))
  intro i k hi hk' he
  rw [written_valid (hval i hi), written_valid (hval k hk')] at he
  exact List.map_injective_iff.2 (fun _ _ => Rune.code_inj) he

/-! ## Witnesses -/

/-- Rows `ba`, `ab`, `ba`. -/
def runeSquare : Mat Rune :=
  .dense { r := 3, c := 2, data := [[rune 0x62, rune 0x61], [rune 0x61, rune 0x62], [rune 0x62, rune 0x61]] }

/-- Its rows sorted, its columns sorted. -/
def runeSquareR : Mat Rune :=
  .dense { r := 3, c := 2, data := [[rune 0x61, rune 0x62], [rune 0x62, rune 0x61], [rune 0x62, rune 0x61]] }
def runeSquareC : Mat Rune :=
  .dense { r := 3, c := 2, data := [[rune 0x61, rune 0x62], [rune 0x62, rune 0x61], [rune 0x61, rune 0x62]] }

example : (Runes.bubbleRow 0 (World.of 9 [runeSquare])).obj = some runeSquareR := by kernel_rfl
example : (Runes.bubbleColumns 0 (World.of 9 [runeSquare])).obj = some runeSquareC := by kernel_rfl

theorem runeSquare_ok : runeSquare.WF ∧ ValidRunes runeSquare := by
  constructor
  · exact ⟨rfl, by intro row hr; simp at hr; rcases hr with rfl | rfl | rfl <;> rfl⟩
  · intro i j hi hj
    have hv : ∀ r ∈ runeSquare.flat, r.valid = true := by decide +kernel
    exact Rune.valid_iff.1 (hv _ (List.mem_map.2 ⟨(i, j), mem_cells.2 ⟨hi, hj⟩, rfl⟩))

/-- The hypotheses of `C29_rows_partial` and `C29_columns_partial` hold of a matrix that is not sorted. -/
example : ∃ p w', Runes.bubbleRow 0 (World.of 9 [runeSquare]) = .ok p w' ∧ RowsPermuted (World.of 9 [runeSquare]) 0 p w' := by
  obtain ⟨p, w', h1, h2, -⟩ := C29_rows_partial (w := World.of 9 [runeSquare]) (a := 0) rfl runeSquare_ok.1 rfl (by decide)
    runeSquare_ok.2
  exact ⟨p, w', h1, h2⟩

/-- A surrogate in one row, U+FFFD, the rune it is written as, in another: the condition of `C29_rows_iff` fails;
`0xD800` next to `b` and `a` meets it. -/
def runeClash : Mat Rune := .dense { r := 2, c := 1, data := [[rune 0xFFFD], [rune 0xD800]] }
def runeMixed : Mat Rune := .dense { r := 3, c := 1, data := [[rune 0xD800], [rune 0x62], [rune 0x61]] }

example : written (runeRowOf runeClash 0) = written (runeRowOf runeClash 1) ∧
    runeRowOf runeClash 0 ≠ runeRowOf runeClash 1 := by decide +kernel
example : ∀ i, i < 3 → ∀ k, k < 3 → written (runeRowOf runeMixed i) = written (runeRowOf runeMixed k) →
    runeRowOf runeMixed i = runeRowOf runeMixed k := by decide +kernel
example : (Runes.bubbleRow 0 (World.of 9 [runeMixed])).obj =
    some (.dense { r := 3, c := 1, data := [[rune 0x61], [rune 0x62], [rune 0xD800]] }) := by kernel_rfl

/-- Two surrogates, one per row. -/
def surrogates : Mat Rune := .dense { r := 2, c := 1, data := [[rune 0xD800], [rune 0xD801]] }

/-- With surrogates the result is not in `Compare` order: `Compare` of its first row with its second
row is +1. -/
theorem C29_refuted : Reach surrogates ∧ ¬ BubbleRowSorts (fun _ => True) := by
  constructor
  · exact Reach.arrDense (data := [[rune 0xD800], [rune 0xD801]]) (c := 1)
      (by intro row hr; simp at hr; rcases hr with rfl | rfl <;> rfl) (by kernel_rfl)
  · intro h
    obtain ⟨p, w', h1, -, h3⟩ := h (World.of 9 [surrogates]) 0 rfl rfl
      ⟨rfl, by intro row hr; simp at hr; rcases hr with rfl | rfl <;> rfl⟩ rfl (by decide) trivial
    obtain ⟨x, w'', h4, h5⟩ := h3 0 1 (by decide) (by decide)
    have key : (Runes.bubbleRow 0 >>= fun p => compareRows p 0 1) (World.of 9 [surrogates]) = .ok x w'' := by
      rw [bind_ok h1]; exact h4
    have hv := congrArg Res.val key
    have h6 : ((Runes.bubbleRow 0 >>= fun p => compareRows p 0 1) (World.of 9 [surrogates])).val = some 1 := by kernel_rfl
    rw [h6] at hv
    have : x = 1 := by simpa [Res.val] using hv.symm
    omega

end GB
