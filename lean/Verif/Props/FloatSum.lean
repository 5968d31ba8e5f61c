import Verif.Props.Float
import Verif.Props.Reduce
import Verif.Props.Reduced

/-!
# Floating-point elements: C61 (accuracy of sums), C62 (`Reduced`), and concrete cases for C58-C62
-/

namespace GB

set_option linter.unusedSectionVars false

open M Meth

variable {f : Fmt} {w : World (Fl f)} {s : Ref} {mask : Mask}

/-! ## C61 -/

theorem Faithful.image {T S : Type} [GoNum T] [GoRing S] {r c : Nat} {val : Nat → Nat → T} {es : List (Nat × Nat × T)}
    (h : Faithful r c val es) (g : Nat → Nat → S) (hg : ∀ i j, i < r → j < c → g i j ≠ 0 → val i j ≠ 0) :
    Faithful r c g (es.map (fun e => (e.1, e.2.1, g e.1 e.2.1))) where
  range e he := by
    obtain ⟨e', h1, rfl⟩ := List.mem_map.1 he
    exact h.range e' h1
  distinct := by rw [List.pairwise_map]; exact h.distinct
  value e he := by
    obtain ⟨e', h1, rfl⟩ := List.mem_map.1 he
    rfl
  complete i j hi hj hne := List.mem_map.2 ⟨_, h.complete i j hi hj (hg i j hi hj hne), rfl⟩

theorem Faithful.image_sum {T S : Type} [GoNum T] [GoRing S] {r c : Nat} {val : Nat → Nat → T} {es : List (Nat × Nat × T)}
    (h : Faithful r c val es) (g : Nat → Nat → S) (hg : ∀ i j, i < r → j < c → g i j ≠ 0 → val i j ≠ 0)
    (keep : Nat → Nat → Bool) :
    ((es.filter (fun e => keep e.1 e.2.1)).map (fun e => g e.1 e.2.1)).sum =
      ∑ i ∈ Finset.range r, ∑ j ∈ Finset.range c, if keep i j then g i j else 0 := by
  rw [← (h.image g hg).sum_eq keep, List.filter_map, List.map_map]
  rfl

/-- C61. `ReduceMatrixToScalar(A, mask)` for floating-point elements: a finite result comes from finite cells and misses the exact sum of
the unmasked cells by at most `((1+u)^(n-1) - 1) Σ|a|`, `n` the number of entries `A` stores; and if the unmasked cells are integers with
`Σ|a| ≤ 2^prec` the result is their sum. -/
theorem C61_sum (hs : (w.heap s).WF) (hg : (w.heap s).nvalues ≤ w.gas) (hc : w.cancel = none)
    (hS : mask.Sound w) (hF : mask.Fits w s) :
    ∃ v, Ops.reduceMatrixToScalar s mask w = .ok v w ∧
      (v.Fin →
        (∀ i j, i < (w.heap s).rows → j < (w.heap s).cols → mask.bit w i j = false → ((w.heap s).val i j).Fin) ∧
        |v.rat - ∑ i ∈ Finset.range (w.heap s).rows, ∑ j ∈ Finset.range (w.heap s).cols,
            (if mask.bit w i j then 0 else ((w.heap s).val i j).rat)| ≤
          ((1 + f.unit) ^ ((w.heap s).nvalues - 1) - 1) *
            ∑ i ∈ Finset.range (w.heap s).rows, ∑ j ∈ Finset.range (w.heap s).cols,
              (if mask.bit w i j then 0 else |((w.heap s).val i j).rat|)) ∧
      ∀ Z : Nat → Nat → ℤ,
        (∀ i j, i < (w.heap s).rows → j < (w.heap s).cols → mask.bit w i j = false →
          ((w.heap s).val i j).Fin ∧ ((w.heap s).val i j).rat = Z i j) →
        ∑ i ∈ Finset.range (w.heap s).rows, ∑ j ∈ Finset.range (w.heap s).cols,
          (if mask.bit w i j then 0 else |Z i j|) ≤ 2 ^ f.prec →
        v.Fin ∧ v.rat = ((∑ i ∈ Finset.range (w.heap s).rows, ∑ j ∈ Finset.range (w.heap s).cols,
          (if mask.bit w i j then 0 else Z i j) : ℤ) : ℚ) := by
  obtain ⟨es, hy, h2, h3, -⟩ := C31_fold_partial (MonoID.addition (Fl f)) hs hg hc hS hF
  have hlen : es.length = (w.heap s).nvalues := by
    obtain ⟨es', h1', -, hl', -⟩ := Mat.entries_ok hs
    rw [← hl', Yields.unique hy h1'.yields]
  set L := (es.filter (fun e => !mask.bit w e.1 e.2.1)).map (fun e => e.2.2) with hL
  have hLlen : L.length ≤ (w.heap s).nvalues := by
    rw [hL, List.length_map, ← hlen]; exact List.length_filter_le _ _
  have hmem : ∀ {e}, e ∈ es.filter (fun e => !mask.bit w e.1 e.2.1) →
      e ∈ es ∧ mask.bit w e.1 e.2.1 = false := by
    intro e he
    have := List.mem_filter.1 he
    exact ⟨this.1, by simpa using this.2⟩
  have hz : (0 : Fl f).rat = 0 := Fl.zero_rat
  refine ⟨_, h3, fun hfin => ?_, fun Z hZ hb => ?_⟩
  · obtain ⟨f1, f2⟩ := Fl.foldl_err L hfin
    have s1 : (L.map Fl.rat).sum = ∑ i ∈ Finset.range (w.heap s).rows, ∑ j ∈ Finset.range (w.heap s).cols,
        (if mask.bit w i j then 0 else ((w.heap s).val i j).rat) := by
      have := h2.image_sum (S := ℚ) (fun i j => ((w.heap s).val i j).rat)
        (fun i j _ _ h h0 => h (by rw [h0]; exact hz)) (fun i j => !mask.bit w i j)
      rw [hL, List.map_map]
      refine Eq.trans ?_ (this.trans ?_)
      · congr 1
        refine List.map_congr_left fun e he => ?_
        simp only [Function.comp, h2.value e (hmem he).1]
      · refine Finset.sum_congr rfl fun i _ => Finset.sum_congr rfl fun j _ => ?_
        cases mask.bit w i j <;> rfl
    have s2 : (L.map (fun x => |x.rat|)).sum = ∑ i ∈ Finset.range (w.heap s).rows, ∑ j ∈ Finset.range (w.heap s).cols,
        (if mask.bit w i j then 0 else |((w.heap s).val i j).rat|) := by
      have := h2.image_sum (S := ℚ) (fun i j => |((w.heap s).val i j).rat|)
        (fun i j _ _ h h0 => h (by rw [h0, hz, abs_zero])) (fun i j => !mask.bit w i j)
      rw [hL, List.map_map]
      refine Eq.trans ?_ (this.trans ?_)
      · congr 1
        refine List.map_congr_left fun e he => ?_
        simp only [Function.comp, h2.value e (hmem he).1]
      · refine Finset.sum_congr rfl fun i _ => Finset.sum_congr rfl fun j _ => ?_
        cases mask.bit w i j <;> rfl
    refine ⟨fun i j hi hj hm => ?_, ?_⟩
    · by_cases h0 : (w.heap s).val i j = 0
      · rw [h0]; exact Fl.zero_fin
      · exact f1 _ (List.mem_map.2 ⟨_, List.mem_filter.2 ⟨h2.complete i j hi hj h0, by simp [hm]⟩, rfl⟩)
    · rw [← s1, ← s2]
      refine f2.trans (mul_le_mul_of_nonneg_right ?_ ?_)
      · have hu := f.unit_pos
        have := pow_le_pow_right₀ (show (1 : ℚ) ≤ 1 + f.unit by linarith) (Nat.sub_le_sub_right hLlen 1)
        linarith
      · exact List.sum_nonneg fun x hx => by
          obtain ⟨y, -, rfl⟩ := List.mem_map.1 hx
          exact abs_nonneg _
  · set Y : Nat → Nat → ℤ := fun i j => if mask.bit w i j then 0 else Z i j with hY
    have hv : ∀ i j, i < (w.heap s).rows → j < (w.heap s).cols → Y i j ≠ 0 → (w.heap s).val i j ≠ 0 := by
      intro i j hi hj hne h0
      apply hne
      simp only [hY]
      cases hm : mask.bit w i j
      · have := (hZ i j hi hj hm).2
        rw [h0, hz] at this
        simpa using this.symm
      · rfl
    set es' := es.filter (fun e => !mask.bit w e.1 e.2.1) with hes'
    obtain ⟨g1, g2⟩ := Fl.foldl_int L (es'.map fun e => Y e.1 e.2.1) (by
      rw [hL, List.map_map, List.map_map]
      refine List.map_congr_left fun e he => ?_
      obtain ⟨q1, q2⟩ := hmem he
      have := (hZ e.1 e.2.1 (h2.range e q1).1 (h2.range e q1).2 q2).2
      rw [h2.value e q1] at this
      simp only [Function.comp, this, hY, q2, Bool.false_eq_true, if_false]) (by
      intro x hx
      obtain ⟨e, he, rfl⟩ := List.mem_map.1 hx
      obtain ⟨q1, q2⟩ := hmem he
      have := (hZ e.1 e.2.1 (h2.range e q1).1 (h2.range e q1).2 q2).1
      rwa [h2.value e q1] at this) (by
      have := h2.image_sum (S := ℤ) (fun i j => |Y i j|)
        (fun i j hi hj h => hv i j hi hj (fun h' => h (by rw [h', abs_zero]))) (fun i j => !mask.bit w i j)
      rw [List.map_map]
      refine le_trans (le_of_eq ?_) hb
      refine Eq.trans ?_ (this.trans ?_)
      · rfl
      · refine Finset.sum_congr rfl fun i _ => Finset.sum_congr rfl fun j _ => ?_
        simp only [hY]
        cases mask.bit w i j <;> rfl)
    refine ⟨g1, g2.trans ?_⟩
    congr 1
    refine (h2.image_sum (S := ℤ) Y hv (fun i j => !mask.bit w i j)).trans ?_
    refine Finset.sum_congr rfl fun i _ => Finset.sum_congr rfl fun j _ => ?_
    simp only [hY]
    cases mask.bit w i j <;> rfl

/-! ## C62 -/

/-- C62. `Reduced` with floating-point elements always returns, with a matrix of the shape and format of its argument, which is not
changed. -/
theorem C62_returns_partial {gas : Nat} (hs : (w.heap s).WF) (hk : (w.heap s).kind ≠ .svec)
    (hg : (w.heap s).cols * (w.heap s).rows ≤ gas) :
    ∃ t, Returns w (w.heap s).kind (w.heap s).rows (w.heap s).cols t (Reduced.reduced gas s w) :=
  C39_terminates hs hk (fun _ _ h => nomatch h) hg

/-! ## Concrete cases -/

namespace FloatEx

/-- `float64` constants. -/
def c (q : ℚ) : F64 := Fl.of binary64 q

/-- A dense matrix of two rows. -/
def two (a b : List F64) : Mat F64 := .dense ⟨2, a.length, [a, b]⟩

/-- The contents of a dense result. -/
def out {α : Type} (r : Res F64 α) (p : Ref) : Option (List (List F64)) :=
  match r with
  | .ok _ w => match w.heap p with | .dense d => some d.data | _ => none
  | _ => none

/-- The sum of `0.1` and `0.2` is not `0.3` but the number after it. -/
example : out (Meth.add 0 1 (World.of 9 [two [c 0.1, c 1] [c 0, c 2], two [c 0.2, c 1] [c 0, c 2]])) 2 =
    some [[c 0.30000000000000004, c 2], [c 0, c 4]] := by decide +kernel
example : c 0.30000000000000004 ≠ c 0.3 := by decide +kernel

/-- `-0` in a dense receiver: a dense argument turns it into `+0`, a compressed one leaves it. -/
example : out (Meth.add 0 1 (World.of 9 [two [Fl.negZero, c 1] [c 0, c 2], two [c 0, c 1] [c 0, c 2]])) 2 =
    some [[c 0, c 2], [c 0, c 4]] := by decide +kernel
example : out (Meth.add 0 1 (World.of 9 [two [Fl.negZero, c 1] [c 0, c 2],
    .csr ⟨2, 2, [c 1], [1], [0, 1, 1]⟩])) 2 = some [[Fl.negZero, c 2], [c 0, c 2]] := by decide +kernel

/-- C58: addition is not associative: `(A + B) + C` and `A + (B + C)` differ. -/
theorem C58_not_associative : ∃ w : World F64, w.reg = initReg ∧ ∃ w1 w2 : World F64, ∃ x y : List (List F64),
    Meth.add 0 1 w = .ok 3 w1 ∧ out (Meth.add 3 2 w1) 4 = some x ∧
    Meth.add 1 2 w = .ok 3 w2 ∧ out (Meth.add 0 3 w2) 4 = some y ∧ x ≠ y :=
  ⟨World.of 9 [two [c (10 ^ 16)] [c 0], two [c (-10 ^ 16)] [c 0], two [c 1] [c 0]], rfl, _, _,
    [[c 1], [c 0]], [[c 0], [c 0]], rfl, by decide +kernel, rfl, by decide +kernel, by decide +kernel⟩

/-- Infinity minus itself. -/
example : out (Meth.subtract 0 0 (World.of 9 [two [Fl.inf false, c 1] [Fl.nan, c 2]])) 1 =
    some [[Fl.nan, c 0], [Fl.nan, c 0]] := by decide +kernel

/-- C59: the inner product of `(0.1, 0.3)` and `(3, -1)` is computed as `2^-54`. -/
example : out (Meth.multiply 0 1 (World.of 9 [two [c 0.1, c 0.3] [c 0, c 2], two [c 3, c 1] [c (-1), c 1]])) 2 =
    some [[c (1 / 2 ^ 54), c 0.4], [c (-2), c 2]] := by decide +kernel

/-- C59: integers. -/
example : out (Meth.multiply 0 1 (World.of 9 [two [c 94906265, c 1] [c 0, c 2], two [c 94906265, c 1] [c (-7), c 1]])) 2 =
    some [[c (94906265 * 94906265 - 7), c 94906266], [c (-14), c 2]] := by decide +kernel

/-- C59: beyond `2^53` a product of integers is rounded. -/
theorem C59_not_exact : out (Meth.multiply 0 1 (World.of 9 [two [c 94906267, c 1] [c 0, c 0], two [c 94906267, c 1] [c 0, c 0]])) 2 =
    some [[c (94906267 * 94906267 - 1), c 94906267], [c 0, c 0]] := by decide +kernel

/-- C60: `-0` equals `+0`; a matrix with a NaN is not equal to itself. -/
example : (Meth.equal 0 1 (World.of 9 [two [Fl.negZero, c 1] [c 0, c 2], two [c 0, c 1] [c 0, c 2]])).val = some true := by
  decide +kernel
example : (Meth.equal 0 0 (World.of 9 [two [Fl.nan, c 1] [c 0, c 2]])).val = some false := by decide +kernel

/-- `[[1e16, 1], [-1e16, 1]]` by rows and by columns. -/
def byRows : Mat F64 := .csr ⟨2, 2, [c (10 ^ 16), c 1, c (-10 ^ 16), c 1], [0, 1, 0, 1], [0, 2, 4]⟩
def byCols : Mat F64 := .csc ⟨2, 2, [c (10 ^ 16), c (-10 ^ 16), c 1, c 1], [0, 1, 0, 1], [0, 2, 4]⟩

/-- C61: the sum depends on the format of the matrix: 1 for rows, 2 (the exact sum) for columns. -/
theorem C61_format_matters :
    (∀ i, i < 2 → ∀ j, j < 2 → byRows.val i j = byCols.val i j) ∧
    (Ops.reduceMatrixToScalar 0 .nil (World.of 9 [byRows])).val = some (c 1) ∧
    (Ops.reduceMatrixToScalar 0 .nil (World.of 9 [byCols])).val = some (c 2) := by decide +kernel

/-- C62 in full: the rank is right. -/
def ReducedKeepsRank : Prop := ∀ (a b : F64), a.Fin → b.Fin → isZero a = false →
  ∀ x, out (Reduced.reduced 4 0 (World.of 9 [two [a, b] [a, b]])) 1 = some x →
    ∀ v ∈ x.getD 1 [], isZero v = true

/-- C62 in full: false. `[[5, 3], [5, 3]]`, of rank 1, is reduced to the identity. -/
theorem C62_refuted : ¬ ReducedKeepsRank := by
  intro h
  have hf : ∀ x : F64, x.1 = .num x.rat → x.Fin := fun x h => by unfold Fl.Fin; rw [h]; trivial
  have := h (c 5) (c 3) (hf _ (by decide +kernel)) (hf _ (by decide +kernel)) (by decide +kernel) [[c 1, c 0], [Fl.negZero, c 1]] (by decide +kernel) (c 1)
    (by decide +kernel)
  exact absurd this (by decide +kernel)

/-- C62: nor does every pivot become 1: `[[49]]` is reduced to `1 - 2^-53`. -/
theorem C62_pivot_refuted : out (Reduced.reduced 1 0 (World.of 9 [.dense ⟨1, 1, [[c 49]]⟩])) 1 = some [[c (1 - 1 / 2 ^ 53)]] ∧
    c (1 - 1 / 2 ^ 53) ≠ (1 : F64) := by decide +kernel

/-- C62: a subnormal pivot has an infinite reciprocal: `[[2^-1074, 0]]` becomes `[[Inf, NaN]]`. -/
theorem C62_nan : out (Reduced.reduced 2 0 (World.of 9 [.dense ⟨1, 2, [[c (1 / 2 ^ 1074), c 0]]⟩])) 1 =
    some [[Fl.inf false, Fl.nan]] := by decide +kernel

end FloatEx

end GB
