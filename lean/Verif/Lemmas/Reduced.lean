import Verif.Model.Reduced
import Verif.Lemmas.World
import Mathlib.LinearAlgebra.Span.Basic
import Mathlib.Tactic.Ring
import Mathlib.Tactic.FieldSimp

/-!
# Row operations, the pivot search and the echelon invariant
-/

namespace GB

set_option linter.unusedSectionVars false

namespace Reduced

variable {T : Type} [GoNum T] [GoStore T]

/-- What a format keeps of a written value. -/
def kept (k : Kind) (v : T) : T :=
  match k with
  | .dense | .dvec => v
  | _ => norm v

theorem keep_eq (m : Mat T) (v : T) : m.keep v = kept m.kind v := rfl

@[simp] theorem kept_lawful [GoLawful T] (k : Kind) (v : T) : kept k v = v := by
  unfold kept; split <;> simp

/-- `m` is a well-formed `n × c` matrix of type `k` with the cells `t`. -/
structure Holds (k : Kind) (n c : Nat) (t : Nat → Nat → T) (m : Mat T) : Prop where
  wf : m.WF
  kind : m.kind = k
  rows : m.rows = n
  cols : m.cols = c
  val : ∀ i j, i < n → j < c → m.val i j = t i j

variable {k : Kind} {n c : Nat} {t : Nat → Nat → T} {m : Mat T}

theorem Holds.congr (h : Holds k n c t m) {t' : Nat → Nat → T}
    (e : ∀ i j, i < n → j < c → t i j = t' i j) : Holds k n c t' m :=
  ⟨h.wf, h.kind, h.rows, h.cols, fun i j hi hj => (h.val i j hi hj).trans (e i j hi hj)⟩

theorem Holds.at' (h : Holds k n c t m) {i j : Nat} (hi : i < n) (hj : j < c) :
    m.at' i j = .ok (t i j, m) := by
  rw [Mat.at_ok h.wf (by rw [h.rows]; exact hi) (by rw [h.cols]; exact hj), h.val i j hi hj]

theorem rowsAtToArray_ok (hw : m.WF) (hk : m.kind ≠ .svec) {i : Nat} (hi : i < m.rows) :
    m.rowsAtToArray i = .ok ((List.range m.cols).map (fun j => m.val i j)) := by
  cases m with
  | csr s =>
    obtain ⟨rows, h⟩ := hw
    refine (h.rowsAtToArray_ok hi).trans ?_
    congr 1
    apply List.map_congr_left
    intro j hj
    exact (Mat.val_csr h hi (by simpa using hj)).symm
  | csc s =>
    obtain ⟨rows, h⟩ := hw
    refine (CSC.Rep.rowsAtToArray_ok h hi).trans ?_
    congr 1
    apply List.map_congr_left
    intro j hj
    exact (Mat.val_csc h hi (by simpa using hj)).symm
  | dense s =>
    refine (Dense.rowsAtToArray_ok hw hi).trans ?_
    congr 1
    apply List.map_congr_left
    intro j hj
    exact (Mat.val_dense hw hi (by simpa using hj)).symm
  | dvec s =>
    have hi : i < s.l := hi
    unfold Mat.rowsAtToArray DVec.rowsAtToArray
    simp only [inRange_natCast, hi, decide_true, if_true, DVec.atVec_ok hw hi, Out.ok_bind]
    have : (Mat.dvec s).cols = 1 := rfl
    rw [this]
    simp [Mat.val_dvec (j := 0) hw hi]
  | svec s => exact absurd rfl hk

theorem Holds.row (h : Holds k n c t m) (hk : k ≠ .svec) {i : Nat} (hi : i < n) :
    m.rowsAtToArray i = .ok ((List.range c).map (fun j => t i j)) := by
  rw [rowsAtToArray_ok h.wf (by rw [h.kind]; exact hk) (by rw [h.rows]; exact hi), h.cols]
  congr 1
  apply List.map_congr_left
  intro j hj
  exact h.val i j hi (by simpa using hj)

theorem Holds.update (h : Holds k n c t m) (hk : k ≠ .svec) {i j : Nat} (hi : i < n) (hj : j < c)
    (f : T → T) : ∃ m', m.update i j f = .ok m' ∧
      Holds k n c (fun a b => if a = i ∧ b = j then kept k (f (t i j)) else t a b) m' := by
  obtain ⟨m', h1, h2⟩ := Mat.update_ok h.wf (by rw [h.kind]; exact hk)
    (by rw [h.rows]; exact hi) (by rw [h.cols]; exact hj) f
  refine ⟨m', h1, h2.wf, h2.same.1.trans h.kind, h2.same.2.1.trans h.rows,
    h2.same.2.2.trans h.cols, fun a b ha hb => ?_⟩
  by_cases e : a = i ∧ b = j
  · obtain ⟨rfl, rfl⟩ := e
    rw [h2.hit, if_pos ⟨rfl, rfl⟩, keep_eq, h.kind, h.val _ _ ha hb]
  · rw [if_neg e, h2.miss a b (by rw [h.rows]; exact ha) (by rw [h.cols]; exact hb) e,
      h.val _ _ ha hb]

theorem Holds.set (h : Holds k n c t m) (hk : k ≠ .svec) {i j : Nat} (hi : i < n) (hj : j < c)
    (v : T) : ∃ m', m.set i j v = .ok m' ∧
      Holds k n c (fun a b => if a = i ∧ b = j then kept k v else t a b) m' := by
  rw [Mat.set_eq_update h.wf (by rw [h.kind]; exact hk)
    (by rw [h.rows]; exact hi) (by rw [h.cols]; exact hj)]
  exact h.update hk hi hj _

/-- A loop over the cells of one row. -/
theorem rowLoop {r : Nat} (g : Nat → T → T) {f : Nat → Mat T → Out (Mat T)}
    (hf : ∀ b m t', b < c → Holds k n c t' m → ∃ m', f b m = .ok m' ∧
      Holds k n c (fun a b' => if a = r ∧ b' = b then g b (t' r b) else t' a b') m')
    (h : Holds k n c t m) :
    ∃ m', loop c 0 f m = .ok m' ∧ Holds k n c (fun a b => if a = r then g b (t r b) else t a b) m' := by
  obtain ⟨m', h1, h2⟩ := loop_inv (f := f)
    (Inv := fun b m => Holds k n c (fun a b' => if a = r ∧ b' < b then g b' (t r b') else t a b') m)
    c 0 m (h.congr (by simp))
    (by
      intro b m _ hb hm
      obtain ⟨m', h1, h2⟩ := hf b m _ (by omega) hm
      refine ⟨m', h1, h2.congr ?_⟩
      intro a b' _ _
      by_cases ha : a = r
      · subst ha
        rcases lt_trichotomy b' b with hlt | rfl | hgt
        · simp [hlt, Nat.ne_of_lt hlt, Nat.lt_succ_of_lt hlt]
        · simp
        · have : ¬ b' < b + 1 := by omega
          simp [Nat.ne_of_gt hgt, this, Nat.not_lt_of_gt hgt]
      · simp [ha])
  refine ⟨m', h1, h2.congr ?_⟩
  intro a b _ hb
  by_cases ha : a = r <;> simp [ha, hb]

theorem idx_row {t : Nat → T} {b : Nat} (hb : b < c) :
    idx ((List.range c).map t) b = .ok (t b) := by
  unfold idx; simp [hb]

theorem Holds.setRow (h : Holds k n c t m) (hk : k ≠ .svec) {r : Nat} (hr : r < n)
    (u : Nat → T) : ∃ m', setRow r ((List.range c).map u) m = .ok m' ∧
      Holds k n c (fun a b => if a = r then kept k (u b) else t a b) m' := by
  unfold Reduced.setRow
  rw [List.length_map, List.length_range]
  refine rowLoop (fun b _ => kept k (u b)) ?_ h
  intro b m t' hb hm
  simp only [idx_row hb, Out.ok_bind]
  exact hm.set hk hr hb _

/-- The cells after an exchange of rows. -/
def swapT (k : Kind) (i r : Nat) (t : Nat → Nat → T) (a b : Nat) : T :=
  if i = r then t a b else if a = i then kept k (t r b) else if a = r then kept k (t i b) else t a b

theorem Holds.swapRows (h : Holds k n c t m) (hk : k ≠ .svec) {i r : Nat} (hi : i < n) (hr : r < n) :
    ∃ m', swapRows i r m = .ok m' ∧ Holds k n c (swapT k i r t) m' := by
  unfold Reduced.swapRows
  by_cases e : i = r
  · rw [if_neg (by simp [e])]
    exact ⟨m, rfl, h.congr (by simp [swapT, e])⟩
  · rw [if_pos e]
    simp only [h.row hk hi, h.row hk hr, Out.ok_bind]
    obtain ⟨m1, h1, h2⟩ := h.setRow hk hr (fun j => t i j)
    obtain ⟨m2, h3, h4⟩ := h2.setRow hk hi (fun j => t r j)
    refine ⟨m2, by rw [h1, Out.ok_bind, h3], h4.congr ?_⟩
    intro a b _ _
    simp [swapT, e]

/-- The cells after a row is multiplied by `f`. -/
def scaleT (k : Kind) (r : Nat) (f : T) (t : Nat → Nat → T) (a b : Nat) : T :=
  if a = r then kept k (t r b * f) else t a b

theorem Holds.scaleRow (h : Holds k n c t m) (hk : k ≠ .svec) {r lead : Nat} (hr : r < n)
    (hl : lead < c) {f : T} (hf : GoNum.gdiv 1 (t r lead) = some f) :
    ∃ m', scaleRow r lead m = .ok m' ∧ Holds k n c (scaleT k r f t) m' := by
  unfold Reduced.scaleRow
  simp only [h.at' hr hl, Out.ok_bind, hf, h.row hk hr]
  unfold scaleCells
  rw [List.length_map, List.length_range]
  refine rowLoop (fun b _ => kept k (t r b * f)) ?_ h
  intro b m t' hb hm
  simp only [idx_row hb, Out.ok_bind]
  exact hm.set hk hr hb _

/-- The cells after the pivot column is cleared. -/
def elimT (k : Kind) (r lead : Nat) (t : Nat → Nat → T) (a b : Nat) : T :=
  if a = r then t a b else kept k (t a b - t r b * t a lead)

theorem Holds.eliminate (h : Holds k n c t m) (hk : k ≠ .svec) {r lead : Nat} (hr : r < n)
    (hl : lead < c) :
    ∃ m', eliminate n r lead m = .ok m' ∧ Holds k n c (elimT k r lead t) m' := by
  unfold Reduced.eliminate
  obtain ⟨m', h1, h2⟩ := loop_inv (f := fun i (m : Mat T) =>
    if i ≠ r then do
      let (f, m) ← m.at' i lead
      let vector ← m.rowsAtToArray r
      subCells i f vector m
    else .ok m)
    (Inv := fun i m => Holds k n c (fun a b => if a < i then elimT k r lead t a b else t a b) m)
    n 0 m (h.congr (by simp))
    (by
      intro i m _ hi hm
      have hi : i < n := by omega
      by_cases e : i = r
      · refine ⟨m, by simp [e], hm.congr ?_⟩
        intro a b _ _
        rcases lt_trichotomy a i with hlt | rfl | hgt
        · simp [hlt, Nat.lt_succ_of_lt hlt]
        · simp [elimT, e]
        · have : ¬ a < i + 1 := by omega
          simp [this, Nat.not_lt_of_gt hgt]
      · have hrow : (fun b => if r < i then elimT k r lead t r b else t r b) = fun b => t r b := by
          funext b; simp [elimT]
        rw [if_pos e]
        simp only [hm.at' hi hl, hm.row hk hr, hrow, Nat.lt_irrefl, if_false, Out.ok_bind]
        unfold subCells
        rw [List.length_map, List.length_range]
        obtain ⟨m', h1, h2⟩ := rowLoop (r := i) (fun b v => kept k (v - t r b * t i lead))
          (f := fun b (m : Mat T) => do
            let value ← idx ((List.range c).map fun j => t r j) b
            m.update i b (fun v => v - value * t i lead))
          (by
            intro b m t' hb hm
            simp only [idx_row hb, Out.ok_bind]
            exact hm.update hk hi hb _) hm
        refine ⟨m', h1, h2.congr ?_⟩
        intro a b _ _
        rcases lt_trichotomy a i with hlt | rfl | hgt
        · simp [hlt, Nat.lt_succ_of_lt hlt, Nat.ne_of_lt hlt]
        · simp [elimT, e]
        · have : ¬ a < i + 1 := by omega
          simp [this, Nat.not_lt_of_gt hgt, Nat.ne_of_gt hgt])
  refine ⟨m', h1, h2.congr ?_⟩
  intro a b ha _
  simp [ha]

/-- The pivot search: it ends within one turn per cell it can visit; it stops at the first
non-zero, or finds that everything from the start on is zero. -/
theorem pivot_ok {r : Nat} : ∀ (gas i lead : Nat), Holds k n c t m → r ≤ i → i < n → lead < c →
    (c - lead) * (n - r) ≤ gas + (i - r) →
    ∃ p, pivot n c r gas i lead m = .ok (p, m) ∧
      match p with
      | none => ∀ a b, r ≤ a → a < n → lead ≤ b → b < c → (b = lead → i ≤ a) → isZero (t a b) = true
      | some (i', l') => r ≤ i' ∧ i' < n ∧ lead ≤ l' ∧ l' < c ∧ isZero (t i' l') = false ∧
          ∀ a b, r ≤ a → a < n → lead ≤ b → b < l' → (b = lead → i ≤ a) → isZero (t a b) = true := by
  intro gas
  induction gas with
  | zero =>
    intro i lead _ h1 h2 h3 h4
    exfalso
    have : 1 * (n - r) ≤ (c - lead) * (n - r) := Nat.mul_le_mul_right _ (by omega)
    omega
  | succ gas ih =>
    intro i lead hm h1 h2 h3 h4
    unfold pivot
    simp only [hm.at' h2 h3, Out.ok_bind]
    cases hz : isZero (t i lead) with
    | false =>
      refine ⟨some (i, lead), by simp, h1, h2, le_refl _, h3, hz, ?_⟩
      intro a b _ _ hb hb' _; omega
    | true =>
      simp only [if_true]
      by_cases e1 : n = i + 1
      · rw [if_pos e1]
        by_cases e2 : c = lead + 1
        · rw [if_pos e2]
          refine ⟨none, rfl, ?_⟩
          intro a b _ _ _ _ hb
          obtain rfl : b = lead := by omega
          have := hb rfl
          obtain rfl : a = i := by omega
          exact hz
        · rw [if_neg e2]
          obtain ⟨p, h5, h6⟩ := ih r (lead + 1) hm (le_refl _) (by omega) (by omega) (by
            obtain ⟨d, hd⟩ : ∃ d, c - lead = d + 1 := ⟨c - lead - 1, by omega⟩
            rw [hd, Nat.succ_mul] at h4
            rw [show c - (lead + 1) = d by omega]
            omega)
          refine ⟨p, h5, ?_⟩
          cases p with
          | none =>
            intro a b ha hn hb hc hbi
            by_cases e : b = lead
            · have := hbi e
              obtain rfl : a = i := by omega
              rw [e]; exact hz
            · exact h6 a b ha hn (by omega) hc (fun _ => ha)
          | some q =>
            obtain ⟨i', l'⟩ := q
            obtain ⟨g1, g2, g3, g4, g5, g6⟩ := h6
            refine ⟨g1, g2, by omega, g4, g5, ?_⟩
            intro a b ha hn hb hc hbi
            by_cases e : b = lead
            · have := hbi e
              obtain rfl : a = i := by omega
              rw [e]; exact hz
            · exact g6 a b ha hn (by omega) hc (fun _ => ha)
      · rw [if_neg e1]
        obtain ⟨p, h5, h6⟩ := ih (i + 1) lead hm (by omega) (by omega) h3 (by omega)
        refine ⟨p, h5, ?_⟩
        cases p with
        | none =>
          intro a b ha hn hb hc hbi
          by_cases e : b = lead ∧ a = i
          · rw [e.1, e.2]; exact hz
          · exact h6 a b ha hn hb hc (fun hb => by have := hbi hb; omega)
        | some q =>
          obtain ⟨i', l'⟩ := q
          obtain ⟨g1, g2, g3, g4, g5, g6⟩ := h6
          refine ⟨g1, g2, g3, g4, g5, ?_⟩
          intro a b ha hn hb hc hbi
          by_cases e : b = lead ∧ a = i
          · rw [e.1, e.2]; exact hz
          · exact g6 a b ha hn hb hc (fun hb => by have := hbi hb; omega)

/-- Division of 1 by anything that is not `== 0` does not panic. -/
def Divides (T : Type) [GoNum T] : Prop := ∀ v : T, isZero v = false → ∃ f, GoNum.gdiv 1 v = some f

/-- The outer loop preserves an invariant `P r lead t` that the three row operations at a found
pivot preserve. -/
theorem rows_ok (hk : k ≠ .svec) (hd : Divides T) {gas : Nat} (hg : c * n ≤ gas)
    (P : Nat → Nat → (Nat → Nat → T) → Prop) (Q : (Nat → Nat → T) → Prop)
    (hstep : ∀ r lead i l t f, P r lead t → r ≤ i → i < n → lead ≤ l → l < c →
      isZero (t i l) = false →
      (∀ a b, r ≤ a → a < n → lead ≤ b → b < l → isZero (t a b) = true) →
      GoNum.gdiv 1 (swapT k i r t r l) = some f →
      P (r + 1) (l + 1) (elimT k r l (scaleT k r f (swapT k i r t))))
    (hswap : ∀ i r l (t : Nat → Nat → T), isZero (t i l) = false → isZero (swapT k i r t r l) = false)
    (hzero : ∀ r lead t, P r lead t →
      (∀ a b, r ≤ a → a < n → lead ≤ b → b < c → isZero (t a b) = true) → Q t) :
    ∀ (d r lead : Nat) (t : Nat → Nat → T) (m : Mat T), Holds k n c t m → r + d = n → lead ≤ c → P r lead t →
      ∃ m' t', rows n c gas d r lead m = .ok m' ∧ Holds k n c t' m' ∧ Q t' := by
  intro d
  induction d with
  | zero =>
    intro r lead t m hm hr hl hP
    exact ⟨m, t, rfl, hm, hzero r lead t hP (fun a b h1 h2 => by omega)⟩
  | succ d ih =>
    intro r lead t m hm hr hl hP
    unfold rows
    by_cases e : c ≤ lead
    · rw [if_pos e]
      exact ⟨m, t, rfl, hm, hzero r lead t hP (fun a b _ _ h1 h2 => by omega)⟩
    · rw [if_neg e]
      obtain ⟨p, h1, h2⟩ := pivot_ok (r := r) gas r lead hm (le_refl _) (by omega) (by omega) (by
        have : (c - lead) * (n - r) ≤ c * n := Nat.mul_le_mul (by omega) (by omega)
        omega)
      simp only [h1, Out.ok_bind]
      cases p with
      | none =>
        exact ⟨m, t, rfl, hm, hzero r lead t hP (fun a b a1 a2 a3 a4 => h2 a b a1 a2 a3 a4 (fun _ => a1))⟩
      | some q =>
        obtain ⟨i, l⟩ := q
        obtain ⟨g1, g2, g3, g4, g5, g6⟩ := h2
        have hrn : r < n := by omega
        obtain ⟨f, hf⟩ := hd _ (hswap i r l t g5)
        obtain ⟨m1, a1, b1⟩ := hm.swapRows hk g2 hrn
        obtain ⟨m2, a2, b2⟩ := b1.scaleRow hk hrn g4 hf
        obtain ⟨m3, a3, b3⟩ := b2.eliminate hk hrn g4
        simp only [a1, a2, a3, Out.ok_bind]
        refine ih (r + 1) (l + 1) _ m3 b3 (by omega) (by omega) (hstep r lead i l t f hP g1 g2 g3 g4 g5
          (fun a b a1 a2 a3 a4 => g6 a b a1 a2 a3 a4 (fun _ => a1)) hf)

end Reduced

end GB
