import Verif.SpecLin
import Verif.Lemmas.Reduced
import Mathlib.Algebra.BigOperators.Ring.Finset

/-!
# The algebra of Gauss-Jordan elimination
-/

namespace GB

set_option linter.unusedSectionVars false
set_option linter.unusedVariables false

section Algebra

variable {K : Type} [Field K] {n c : Nat} {t t' : Nat → Nat → K}

theorem row_mem {i : Nat} (hi : i < n) : tableRow c t i ∈ rowSpace n c t :=
  Submodule.subset_span ⟨i, hi, rfl⟩

theorem rowSpace_le (h : ∀ i, i < n → tableRow c t' i ∈ rowSpace n c t) :
    rowSpace n c t' ≤ rowSpace n c t := by
  refine Submodule.span_le.2 ?_
  rintro v ⟨i, hi, rfl⟩
  exact h i hi

theorem rowSpace_congr (h : ∀ i j, i < n → j < c → t i j = t' i j) :
    rowSpace n c t = rowSpace n c t' := by
  have e : ∀ i, i < n → tableRow c t i = tableRow c t' i := by
    intro i hi
    funext j
    unfold tableRow
    split
    · exact h i j hi (by assumption)
    · rfl
  apply le_antisymm
  · exact rowSpace_le (fun i hi => by rw [e i hi]; exact row_mem hi)
  · exact rowSpace_le (fun i hi => by rw [← e i hi]; exact row_mem hi)

theorem IsRREF.congr (h : IsRREF n c t) (e : ∀ i j, i < n → j < c → t i j = t' i j) :
    IsRREF n c t' := by
  obtain ⟨ρ, p, h1, h2, h3, h4, h5⟩ := h
  refine ⟨ρ, p, h1, h2, h3, fun k hk => ?_, fun i hi hn j hj => by rw [← e i j hn hj]; exact h5 i hi hn j hj⟩
  obtain ⟨a1, a2, a3⟩ := h4 k hk
  have hp := h2 k hk
  refine ⟨by rw [← e _ _ (by omega) hp]; exact a1, fun i hi hne => ?_, fun j hj => ?_⟩
  · rw [← e _ _ hi hp]; exact a2 i hi hne
  · rw [← e _ _ (by omega) (by omega)]; exact a3 j hj

/-- The solutions are what is orthogonal to the row space. -/
theorem mem_solutions {x : Nat → K} : x ∈ solutions n c t ↔
    ∀ v ∈ rowSpace n c t, ∑ j ∈ Finset.range c, v j * x j = 0 := by
  have key : ∀ i, ∑ j ∈ Finset.range c, tableRow c t i j * x j = ∑ j ∈ Finset.range c, t i j * x j := by
    intro i
    refine Finset.sum_congr rfl (fun j hj => ?_)
    unfold tableRow
    rw [if_pos (Finset.mem_range.1 hj)]
  constructor
  · intro hx v hv
    unfold rowSpace at hv
    induction hv using Submodule.span_induction with
    | mem v hv => obtain ⟨i, hi, rfl⟩ := hv; rw [key]; exact hx i hi
    | zero => simp
    | add a b _ _ ha hb => simp only [Pi.add_apply, add_mul, Finset.sum_add_distrib, ha, hb, add_zero]
    | smul a v _ hv =>
      simp only [Pi.smul_apply, smul_eq_mul, mul_assoc, ← Finset.mul_sum, hv, mul_zero]
  · intro h i hi
    rw [← key]
    exact h _ (row_mem hi)

theorem solutions_of_rowSpace (h : rowSpace n c t = rowSpace n c t') :
    solutions n c t = solutions n c t' := by
  ext x
  rw [mem_solutions, mem_solutions, h]

/-- A table each of whose rows is a combination of two rows of another one. -/
theorem rowSpace_le_of {i : Nat → Nat} {j : Nat → Nat} {a b : Nat → K}
    (hi : ∀ k, k < n → i k < n) (hj : ∀ k, k < n → j k < n)
    (e : ∀ k l, k < n → l < c → t' k l = a k * t (i k) l + b k * t (j k) l) :
    rowSpace n c t' ≤ rowSpace n c t := by
  refine rowSpace_le (fun k hk => ?_)
  have : tableRow c t' k = a k • tableRow c t (i k) + b k • tableRow c t (j k) := by
    funext l
    simp only [tableRow, Pi.add_apply, Pi.smul_apply, smul_eq_mul]
    split
    · exact e k l hk (by assumption)
    · simp
  rw [this]
  exact Submodule.add_mem _ (Submodule.smul_mem _ _ (row_mem (hi k hk)))
    (Submodule.smul_mem _ _ (row_mem (hj k hk)))

/-! ## The reduced row echelon form is unique -/

/-- The coordinates of a vector of the row space are its values at the pivots. -/
theorem rref_expand {ρ : Nat} {p : Nat → Nat} (h1 : ρ ≤ n) (h2 : ∀ k, k < ρ → p k < c)
    (h4 : ∀ k, k < ρ → t k (p k) = 1 ∧ ∀ i, i < n → i ≠ k → t i (p k) = 0)
    (h5 : ∀ i, ρ ≤ i → i < n → ∀ j, j < c → t i j = 0) {v : Nat → K} (hv : v ∈ rowSpace n c t) :
    ∀ j, v j = ∑ k ∈ Finset.range ρ, v (p k) * tableRow c t k j := by
  unfold rowSpace at hv
  induction hv using Submodule.span_induction with
  | mem v hv =>
    obtain ⟨i, hi, rfl⟩ := hv
    intro j
    by_cases hir : i < ρ
    · rw [Finset.sum_eq_single i]
      · have : tableRow c t i (p i) = 1 := by unfold tableRow; rw [if_pos (h2 i hir)]; exact (h4 i hir).1
        rw [this, one_mul]
      · intro k hk hne
        have hk := Finset.mem_range.1 hk
        have : tableRow c t i (p k) = 0 := by
          unfold tableRow; rw [if_pos (h2 k hk)]; exact (h4 k hk).2 i hi (Ne.symm hne)
        rw [this, zero_mul]
      · intro h; exact absurd (Finset.mem_range.2 hir) h
    · have z : ∀ j, tableRow c t i j = 0 := by
        intro j
        unfold tableRow
        split
        · exact h5 i (by omega) hi j (by assumption)
        · rfl
      simp [z]
  | zero => intro j; simp
  | add a b _ _ ha hb =>
    intro j
    simp only [Pi.add_apply, add_mul, Finset.sum_add_distrib]
    rw [← ha j, ← hb j]
  | smul a v _ hv =>
    intro j
    simp only [Pi.smul_apply, smul_eq_mul, mul_assoc, ← Finset.mul_sum]
    rw [← hv j]

/-- `j` is where some vector of `V` has its first non-zero. -/
def LeadsAt (V : Submodule K (Nat → K)) (j : Nat) : Prop := ∃ v ∈ V, v j ≠ 0 ∧ ∀ i, i < j → v i = 0

theorem rref_leads {ρ : Nat} {p : Nat → Nat} (h1 : ρ ≤ n) (h2 : ∀ k, k < ρ → p k < c)
    (h3 : ∀ k l, k < l → l < ρ → p k < p l)
    (h4 : ∀ k, k < ρ → t k (p k) = 1 ∧ (∀ i, i < n → i ≠ k → t i (p k) = 0) ∧ ∀ j, j < p k → t k j = 0)
    (h5 : ∀ i, ρ ≤ i → i < n → ∀ j, j < c → t i j = 0) (j : Nat) :
    LeadsAt (rowSpace n c t) j ↔ ∃ k, k < ρ ∧ p k = j := by
  have row0 : ∀ k, k < ρ → ∀ j, j < p k → tableRow c t k j = 0 := by
    intro k hk j hj
    unfold tableRow
    split
    · exact (h4 k hk).2.2 j hj
    · rfl
  constructor
  · rintro ⟨v, hv, hne, hz⟩
    have hx := rref_expand h1 h2 (fun k hk => ⟨(h4 k hk).1, (h4 k hk).2.1⟩) h5 hv
    by_contra hno
    push Not at hno
    apply hne
    rw [hx j]
    refine Finset.sum_eq_zero (fun k hk => ?_)
    have hk := Finset.mem_range.1 hk
    rcases Nat.lt_or_ge (p k) j with hlt | hge
    · rw [hz _ hlt, zero_mul]
    · have := hno k hk
      rw [row0 k hk j (by omega), mul_zero]
  · rintro ⟨k, hk, rfl⟩
    refine ⟨tableRow c t k, row_mem (by omega), ?_, fun i hi => row0 k hk i hi⟩
    unfold tableRow
    rw [if_pos (h2 k hk), (h4 k hk).1]
    exact one_ne_zero

/-- Two strictly increasing enumerations of the same set agree. -/
theorem enum_unique {ρ ρ' : Nat} {p p' : Nat → Nat} (h3 : ∀ k l, k < l → l < ρ → p k < p l)
    (h3' : ∀ k l, k < l → l < ρ' → p' k < p' l)
    (h : ∀ j, (∃ k, k < ρ ∧ p k = j) ↔ ∃ k, k < ρ' ∧ p' k = j) :
    ∀ k, k < ρ → k < ρ' ∧ p' k = p k := by
  intro k
  induction k using Nat.strong_induction_on with
  | _ k ih =>
    intro hk
    obtain ⟨l, hl, e⟩ := (h (p k)).1 ⟨k, hk, rfl⟩
    rcases lt_trichotomy l k with hlt | rfl | hgt
    · obtain ⟨_, e'⟩ := ih l hlt (by omega)
      have := h3 l k hlt hk
      omega
    · exact ⟨hl, e⟩
    · obtain ⟨q, hq, e'⟩ := (h (p' k)).2 ⟨k, by omega, rfl⟩
      have h7 := h3' k l hgt hl
      rcases lt_trichotomy q k with a | rfl | a
      · obtain ⟨b1, b2⟩ := ih q a (by omega)
        have := h3' q k a (by omega)
        omega
      · omega
      · have := h3 k q a hq
        omega

theorem rref_unique (h : IsRREF n c t) (h' : IsRREF n c t') (e : rowSpace n c t = rowSpace n c t') :
    ∀ i j, i < n → j < c → t i j = t' i j := by
  obtain ⟨ρ, p, h1, h2, h3, h4, h5⟩ := h
  obtain ⟨ρ', p', h1', h2', h3', h4', h5'⟩ := h'
  have hl : ∀ j, (∃ k, k < ρ ∧ p k = j) ↔ ∃ k, k < ρ' ∧ p' k = j := by
    intro j
    rw [← rref_leads h1 h2 h3 h4 h5, ← rref_leads h1' h2' h3' h4' h5', e]
  have f1 := enum_unique h3 h3' hl
  have f2 := enum_unique h3' h3 (fun j => (hl j).symm)
  intro i j hi hj
  by_cases hir : i < ρ
  · obtain ⟨hi', _⟩ := f1 i hir
    have hmem : tableRow c t' i ∈ rowSpace n c t := by rw [e]; exact row_mem hi
    have hx := rref_expand h1 h2 (fun k hk => ⟨(h4 k hk).1, (h4 k hk).2.1⟩) h5 hmem j
    rw [Finset.sum_eq_single i] at hx
    · unfold tableRow at hx
      rw [if_pos hj, if_pos (h2 i hir), if_pos hj, ← (f1 i hir).2, (h4' i hi').1, one_mul] at hx
      exact hx.symm
    · intro k hk hne
      have hk := Finset.mem_range.1 hk
      obtain ⟨hk', ek⟩ := f1 k hk
      have : tableRow c t' i (p k) = 0 := by
        unfold tableRow; rw [if_pos (h2 k hk), ← ek]; exact (h4' k hk').2.1 i hi (Ne.symm hne)
      rw [this, zero_mul]
    · intro h; exact absurd (Finset.mem_range.2 hir) h
  · have hir' : ¬ i < ρ' := fun h => hir (f2 i h).1
    rw [h5 i (by omega) hi j hj, h5' i (by omega) hi j hj]

end Algebra

namespace Reduced

variable {K : Type} [GoField K] [GoLawful K] {k : Kind} {n c : Nat}

theorem divides_field : Divides K := by
  intro v hv
  have : v ≠ 0 := by
    intro h
    rw [(isZero_iff v).2 h] at hv
    exact absurd hv (by simp)
  exact ⟨1 / v, GoField.div_eq 1 v this⟩

/-- What the outer loop has established when it reaches row `r` and column `lead`. -/
structure Echelon (n c : Nat) (A : Nat → Nat → K) (r lead : Nat) (t : Nat → Nat → K) : Prop where
  span : rowSpace n c t = rowSpace n c A
  le : r ≤ n
  piv : ∃ p : Nat → Nat, (∀ q, q < r → p q < lead) ∧ (∀ q l, q < l → l < r → p q < p l) ∧
    (∀ q, q < r → t q (p q) = 1 ∧ (∀ i, i < n → i ≠ q → t i (p q) = 0) ∧ ∀ j, j < p q → t q j = 0)
  lec : lead ≤ c
  zero : ∀ i, r ≤ i → i < n → ∀ j, j < lead → t i j = 0

theorem Echelon.rref {A t : Nat → Nat → K} {r lead : Nat} (h : Echelon n c A r lead t)
    (hz : ∀ a b, r ≤ a → a < n → lead ≤ b → b < c → isZero (t a b) = true) : IsRREF n c t := by
  obtain ⟨p, h1, h2, h3⟩ := h.piv
  have := h.lec
  refine ⟨r, p, h.le, fun q hq => by have := h1 q hq; omega, h2, h3, fun i hi hn j hj => ?_⟩
  by_cases e : j < lead
  · exact h.zero i hi hn j e
  · exact (isZero_iff _).1 (hz i j hi hn (by omega) hj)

variable {t : Nat → Nat → K} {i r l : Nat}

theorem swapT_lawful (a b : Nat) :
    swapT k i r t a b = if a = i then t r b else if a = r then t i b else t a b := by
  unfold swapT
  simp only [kept_lawful]
  by_cases e : i = r
  · subst e
    by_cases ha : a = i <;> simp [ha]
  · rw [if_neg e]

theorem span_swap (hi : i < n) (hr : r < n) : rowSpace n c (swapT k i r t) = rowSpace n c t := by
  have hs : ∀ a, a < n → (if a = i then r else if a = r then i else a) < n := by
    intro a ha; split
    · exact hr
    · split
      · exact hi
      · exact ha
  apply le_antisymm
  · refine rowSpace_le_of (i := fun a => if a = i then r else if a = r then i else a)
      (j := fun a => a) (a := fun _ => 1) (b := fun _ => 0) hs (fun _ h => h) ?_
    intro a b _ _
    rw [swapT_lawful]
    split
    · simp
    · split <;> simp
  · refine rowSpace_le_of (i := fun a => if a = i then r else if a = r then i else a)
      (j := fun a => a) (a := fun _ => 1) (b := fun _ => 0) hs (fun _ h => h) ?_
    intro a b _ _
    rw [swapT_lawful]
    by_cases h1 : a = i
    · subst h1
      by_cases h2 : r = a <;> simp [h2]
    · by_cases h2 : a = r
      · subst h2; simp [h1]
      · simp [h1, h2]

theorem span_scale {f : K} (hf : f ≠ 0) : rowSpace n c (scaleT k r f t) = rowSpace n c t := by
  apply le_antisymm
  · refine rowSpace_le_of (i := fun a => a) (j := fun a => a) (a := fun a => if a = r then f else 1)
      (b := fun _ => 0) (fun _ h => h) (fun _ h => h) ?_
    intro a b _ _
    unfold scaleT
    by_cases e : a = r
    · subst e; simp [mul_comm]
    · simp [e]
  · refine rowSpace_le_of (i := fun a => a) (j := fun a => a) (a := fun a => if a = r then f⁻¹ else 1)
      (b := fun _ => 0) (fun _ h => h) (fun _ h => h) ?_
    intro a b _ _
    unfold scaleT
    by_cases e : a = r
    · subst e; simp; field_simp
    · simp [e]

theorem span_elim (hr : r < n) : rowSpace n c (elimT k r l t) = rowSpace n c t := by
  apply le_antisymm
  · refine rowSpace_le_of (i := fun a => a) (j := fun _ => r) (a := fun _ => 1)
      (b := fun a => if a = r then 0 else - t a l) (fun _ h => h) (fun _ _ => hr) ?_
    intro a b _ _
    unfold elimT
    by_cases e : a = r
    · subst e; simp
    · simp [e]; ring
  · refine rowSpace_le_of (i := fun a => a) (j := fun _ => r) (a := fun _ => 1)
      (b := fun a => if a = r then 0 else t a l) (fun _ h => h) (fun _ _ => hr) ?_
    intro a b _ _
    unfold elimT
    by_cases e : a = r
    · subst e; simp
    · simp [e]; ring

theorem Echelon.step {A : Nat → Nat → K} {lead : Nat} {f : K} (h : Echelon n c A r lead t)
    (h1 : r ≤ i) (h2 : i < n) (h3 : lead ≤ l) (h4 : l < c) (h5 : isZero (t i l) = false)
    (h6 : ∀ a b, r ≤ a → a < n → lead ≤ b → b < l → isZero (t a b) = true)
    (hf : GoNum.gdiv 1 (swapT k i r t r l) = some f) :
    Echelon n c A (r + 1) (l + 1) (elimT k r l (scaleT k r f (swapT k i r t))) := by
  have hr : r < n := by omega
  have hrl : swapT k i r t r l = t i l := by
    rw [swapT_lawful]
    by_cases e : r = i
    · simp [e]
    · simp [e]
  have hne : t i l ≠ 0 := by
    intro h0
    rw [(isZero_iff _).2 h0] at h5
    exact absurd h5 (by simp)
  have hfe : f = 1 / t i l := by
    rw [hrl] at hf
    exact (Option.some.inj ((GoField.div_eq 1 _ hne).symm.trans hf)).symm
  have hf0 : f ≠ 0 := by rw [hfe]; exact one_div_ne_zero hne
  have z : ∀ a b, r ≤ a → a < n → b < l → t a b = 0 := by
    intro a b ha hn hb
    by_cases e : b < lead
    · exact h.zero a ha hn b e
    · exact (isZero_iff _).1 (h6 a b ha hn (by omega) hb)
  -- the cells after the three operations
  have cr : ∀ b, elimT k r l (scaleT k r f (swapT k i r t)) r b = t i b * f := by
    intro b
    unfold elimT scaleT
    simp only [if_true, kept_lawful]
    rw [swapT_lawful]
    by_cases e : r = i <;> simp [e]
  have co : ∀ a b, a ≠ r → elimT k r l (scaleT k r f (swapT k i r t)) a b =
      (if a = i then t r b else t a b) - t i b * f * (if a = i then t r l else t a l) := by
    intro a b ha
    unfold elimT scaleT
    simp only [if_neg ha, if_true, kept_lawful]
    rw [swapT_lawful, swapT_lawful, swapT_lawful]
    have e2 : (if r = i then t r b else if r = r then t i b else t r b) = t i b := by
      by_cases e : r = i <;> simp [e]
    rw [e2]
    simp only [if_neg ha]
  obtain ⟨p, p1, p2, p3⟩ := h.piv
  refine ⟨?_, by omega, ?_, by omega, ?_⟩
  · rw [span_elim hr, span_scale hf0, span_swap h2 hr, h.span]
  · refine ⟨fun q => if q = r then l else p q, ?_, ?_, ?_⟩
    · intro q hq
      by_cases e : q = r
      · simp [e]
      · have := p1 q (by omega)
        simp only [if_neg e]; omega
    · intro q q' hq hq'
      have e : q ≠ r := by omega
      have := p1 q (by omega)
      by_cases e' : q' = r
      · simp only [if_neg e, if_pos e']; omega
      · simp only [if_neg e, if_neg e']; exact p2 q q' hq (by omega)
    · intro q hq
      by_cases e : q = r
      · subst e
        simp only [if_true]
        refine ⟨?_, ?_, ?_⟩
        · rw [cr, hfe]; field_simp
        · intro a ha hne'
          rw [co a l hne', hfe]
          field_simp
          ring
        · intro j hj
          rw [cr, z i j h1 h2 hj, zero_mul]
      · simp only [if_neg e]
        have hq' : q < r := by omega
        have hpl := p1 q hq'
        obtain ⟨a1, a2, a3⟩ := p3 q hq'
        have hqi : q ≠ i := by omega
        refine ⟨?_, ?_, ?_⟩
        · rw [co q _ e, if_neg hqi, a1, z i _ h1 h2 (by omega)]; ring
        · intro a ha hne'
          by_cases ear : a = r
          · subst ear
            rw [cr, z i _ h1 h2 (by omega), zero_mul]
          · rw [co a _ ear, z i _ h1 h2 (by omega)]
            by_cases eai : a = i
            · rw [if_pos eai, z r _ (le_refl _) hr (by omega)]; ring
            · rw [if_neg eai, a2 a ha hne']; ring
        · intro j hj
          rw [co q _ e, if_neg hqi, a3 j hj, z i _ h1 h2 (by omega)]; ring
  · intro a ha hn j hj
    have ear : a ≠ r := by omega
    rw [co a j ear]
    by_cases ej : j = l
    · subst ej
      rw [hfe]; field_simp; ring
    · rw [z i j h1 h2 (by omega)]
      by_cases eai : a = i
      · rw [if_pos eai, z r j (le_refl _) hr (by omega)]; ring
      · rw [if_neg eai, z a j (by omega) hn (by omega)]; ring

/-- The elimination on a well-formed copy. -/
theorem onCopy_ok (hk : k ≠ .svec) {m : Mat K} {A : Nat → Nat → K} {gas : Nat} (hg : c * n ≤ gas)
    (h : Holds k n c A m) : ∃ m' t', onCopy gas m = .ok m' ∧ Holds k n c t' m' ∧
      rowSpace n c t' = rowSpace n c A ∧ IsRREF n c t' := by
  unfold onCopy
  rw [h.rows, h.cols]
  obtain ⟨m', t', h1, h2, h3⟩ := rows_ok (k := k) (n := n) (c := c) hk divides_field hg
    (P := fun r lead t => Echelon n c A r lead t)
    (Q := fun t => rowSpace n c t = rowSpace n c A ∧ IsRREF n c t)
    (fun r lead i l t f hP a1 a2 a3 a4 a5 a6 a7 => hP.step a1 a2 a3 a4 a5 a6 a7)
    (by
      intro i r l t h
      rw [swapT_lawful]
      by_cases e : r = i
      · simpa [e] using h
      · simpa [e] using h)
    (fun r lead t hP hz => ⟨hP.span, hP.rref hz⟩)
    n 0 0 A m h (by omega) (by omega)
    ⟨rfl, by omega, ⟨fun _ => 0, by simp, by simp, by simp⟩, by omega, by simp⟩
  exact ⟨m', t', h1, h2, h3⟩

end Reduced

end GB
