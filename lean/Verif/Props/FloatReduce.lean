import Verif.Props.ReduceAny
import Verif.Props.FloatSum

/-!
# Sums of floating-point matrices across storage formats: C83

Addition of floats is not associative, and 0 is not neutral for it (`-0 + 0` is `0`). Yet a sum that begins with
the unit `+0` of `DefaultMonoIDAddition` never is `-0`, so the cells the compressed formats leave out do not matter,
and what is left is the order: rows first for dense and CSR, columns first for CSC.
-/

namespace GB

set_option linter.unusedSectionVars false

open Reduce

variable {f : Fmt}

/-- Adding a zero of any sign to anything but `-0` changes no bit. -/
theorem Fl.add_isZero {x z : Fl f} (hx : x ≠ Fl.negZero) (hz : isZero z = true) : x + z = x := by
  refine Fl.ext ?_
  show x.1.add f z.1 = x.1
  have hz' : ∃ s, z.1 = .zero s := by
    rcases Fl.isZero_iff.1 hz with rfl | rfl
    · exact ⟨false, rfl⟩
    · exact ⟨true, rfl⟩
  obtain ⟨s, hs⟩ := hz'
  rw [hs]
  cases h : x.1 with
  | nan => rfl
  | inf t => rfl
  | zero t =>
    cases t
    · rfl
    · exact absurd (Fl.ext (by rw [h]; rfl)) hx
  | num q =>
    have hok : (Raw.num q).Ok f := h ▸ x.2
    show f.round false (q + 0) = .num q
    rw [add_zero, Fmt.round_rep f hok.1 hok.2]

/-- A sum is `-0` only if both summands are. -/
theorem Fl.add_eq_negZero {x y : Fl f} : x + y = Fl.negZero ↔ x = Fl.negZero ∧ y = Fl.negZero := by
  constructor
  · intro h
    have hfin : (x + y).Fin := by rw [h]; trivial
    obtain ⟨-, -, herr, -⟩ := Fl.add_fin hfin
    have hr : (x + y).rat = 0 := by rw [h]; rfl
    rw [hr, zero_sub, abs_neg] at herr
    have hu : f.unit < 1 := by
      have h2 := f.two_le
      have : pow2 (-(f.prec : ℤ)) < pow2 0 := pow2_lt.2 (by omega)
      exact this
    have h0 : x.rat + y.rat = 0 := by
      by_contra hne
      have := abs_pos.2 hne
      nlinarith
    have h' : x.1.add f y.1 = .zero true := congrArg Subtype.val h
    have hx : (x = Fl.negZero ↔ x.1 = .zero true) := ⟨fun h => by rw [h]; rfl, fun h => Fl.ext (y := Fl.negZero) h⟩
    have hy : (y = Fl.negZero ↔ y.1 = .zero true) := ⟨fun h => by rw [h]; rfl, fun h => Fl.ext (y := Fl.negZero) h⟩
    rw [hx, hy]
    have hrx : x.rat = x.1.val := rfl
    have hry : y.rat = y.1.val := rfl
    rw [hrx, hry] at h0
    have hok := x.2
    have hok' := y.2
    have hr0 : f.round false 0 = .zero false := by simp [Fmt.round]
    revert h' h0 hok hok'
    generalize x.1 = a
    generalize y.1 = b
    intro h0 h' hok hok'
    cases a <;> cases b <;> simp_all [Raw.add, Raw.val, Raw.Ok]
    split at h' <;> cases h'
  · rintro ⟨rfl, rfl⟩; rfl

/-- A sum that begins with `+0` is never `-0`. -/
theorem Fl.fold_ne_negZero (l : List (Fl f)) : l.foldl (MonoID.addition (Fl f)).op (MonoID.addition (Fl f)).unit ≠ Fl.negZero := by
  induction l using List.reverseRecOn with
  | nil => intro h; exact absurd (congrArg Subtype.val h) (by intro h; cases h)
  | append_singleton l x ih =>
    rw [List.foldl_append]
    exact fun h => ih (Fl.add_eq_negZero.1 h).1

/-- Leaving out zeros changes no bit of the sum. -/
theorem C83_skipsZero : (MonoID.addition (Fl f)).SkipsZero :=
  fun l => Fl.add_isZero (Fl.fold_ne_negZero l) rfl

/-- C83 in full: the sum is the rounded sum row by row, in every format. -/
def FloatSumRight (f : Fmt) : Prop := ∀ k, k = .csr ∨ k = .csc ∨ k = .dense ∨ k = .dvec → ReducesRight (MonoID.addition (Fl f)) k

/-- C83 for dense matrices, dense vectors and CSR matrices: the sum, row by row, of the unmasked cells, each addition
rounded.

Missing for the full property: CSC matrices, where it is false (`C83_refuted`) and the order is that of the columns
(`C83_columns`). -/
theorem C83_rows_partial {k : Kind} (hk : k = .csr ∨ k = .dense ∨ k = .dvec) : ReducesRight (MonoID.addition (Fl f)) k := by
  rcases hk with rfl | rfl | rfl
  · exact C81_csr C83_skipsZero
  · exact C81_dense _ (Or.inl rfl)
  · exact C81_dense _ (Or.inr rfl)

/-- Sums of cells that are the same up to the sign of zeros are the same, to the bit. -/
theorem Fl.fold_congr {l l' : List (Fl f)} (h : l.map norm = l'.map norm) :
    l.foldl (MonoID.addition (Fl f)).op (MonoID.addition (Fl f)).unit =
      l'.foldl (MonoID.addition (Fl f)).op (MonoID.addition (Fl f)).unit := by
  have key : ∀ l : List (Fl f), (l.map norm).foldl (MonoID.addition (Fl f)).op (MonoID.addition (Fl f)).unit =
      l.foldl (MonoID.addition (Fl f)).op (MonoID.addition (Fl f)).unit := by
    intro l
    induction l using List.reverseRecOn with
    | nil => rfl
    | append_singleton l x ih =>
      rw [List.map_append, List.foldl_append, List.foldl_append, ih]
      show _ + norm x = _ + x
      unfold norm
      split
      · rename_i hz
        rw [Fl.add_isZero (Fl.fold_ne_negZero l) hz, Fl.add_isZero (Fl.fold_ne_negZero l) rfl]
      · rfl
  rw [← key l, h, key l']

/-- C83. Two objects, each a dense matrix, dense vector or CSR matrix, that hold the same unmasked cells up to the sign of
zeros, have the same sum, bit for bit: which of these formats is used cannot be told from the sum, NaN, infinities and
rounding included. -/
theorem C83_same {w w' : World (Fl f)} {s s' : Ref} {mask mask' : Mask}
    (hr : Reach (w.heap s)) (hk : (w.heap s).kind = .csr ∨ (w.heap s).kind = .dense ∨ (w.heap s).kind = .dvec)
    (hg : (w.heap s).nvalues ≤ w.gas) (hc : w.cancel = none) (hS : mask.Sound w) (hF : mask.Fits w s)
    (hr' : Reach (w'.heap s')) (hk' : (w'.heap s').kind = .csr ∨ (w'.heap s').kind = .dense ∨ (w'.heap s').kind = .dvec)
    (hg' : (w'.heap s').nvalues ≤ w'.gas) (hc' : w'.cancel = none) (hS' : mask'.Sound w') (hF' : mask'.Fits w' s')
    (hrows : (w.heap s).rows = (w'.heap s').rows) (hcols : (w.heap s).cols = (w'.heap s').cols)
    (hbit : ∀ i j, i < (w.heap s).rows → j < (w.heap s).cols → mask.bit w i j = mask'.bit w' i j)
    (hval : ∀ i j, i < (w.heap s).rows → j < (w.heap s).cols → mask.bit w i j = false →
      norm ((w.heap s).val i j) = norm ((w'.heap s').val i j)) :
    ∃ v, Ops.reduceMatrixToScalar s mask w = .ok v w ∧ Ops.reduceMatrixToScalar s' mask' w' = .ok v w' := by
  refine ⟨_, C83_rows_partial hk w s mask hr rfl hg hc hS hF, ?_⟩
  refine (C83_rows_partial hk' w' s' mask' hr' rfl hg' hc' hS' hF').trans ?_
  congr 1
  unfold foldTable
  refine Fl.fold_congr ?_
  rw [← hrows, ← hcols, List.map_map, List.map_map,
    List.filter_congr (q := fun p => !mask.bit w p.1 p.2) (fun p hp => by
      have := mem_cells.1 hp
      rw [hbit _ _ this.1 this.2])]
  refine List.map_congr_left fun p hp => ?_
  obtain ⟨h1, h2⟩ := List.mem_filter.1 hp
  have := mem_cells.1 h1
  exact (hval _ _ this.1 this.2 (by simpa using h2)).symm

namespace FloatEx

/-- A dense matrix with a `-0`. -/
def rowsDense : Mat F64 := .dense ⟨2, 2, [[c (10 ^ 16), c 1], [Fl.negZero, c 1]]⟩
/-- The same cells, but for the sign of the zero, as CSR matrix. -/
def rowsCSR : Mat F64 := .csr ⟨2, 2, [c (10 ^ 16), c 1, c 1], [0, 1, 1], [0, 2, 3]⟩

/-- A case of `C83_same`, and what the sum is: `10^16`, both ones lost. -/
example : (∃ v, Ops.reduceMatrixToScalar 0 .nil (World.of 9 [rowsDense]) = .ok v (World.of 9 [rowsDense]) ∧
      Ops.reduceMatrixToScalar 0 .nil (World.of 9 [rowsCSR]) = .ok v (World.of 9 [rowsCSR])) ∧
    (Ops.reduceMatrixToScalar 0 .nil (World.of 9 [rowsCSR])).val = some (c (10 ^ 16)) := by
  refine ⟨C83_same (Reach.arrDense (data := [[c (10 ^ 16), c 1], [Fl.negZero, c 1]]) (c := 2) (by unfold Rect; simp) (by kernel_rfl))
    (Or.inr (Or.inl rfl)) (by decide) rfl trivial trivial
    (Reach.arrCSR (data := [[c (10 ^ 16), c 1], [c 0, c 1]]) (c := 2) (by unfold Rect; simp) (by kernel_rfl))
    (Or.inl rfl) (by decide) rfl trivial trivial rfl rfl (fun _ _ _ _ => rfl) ?_, by decide +kernel⟩
  intro i j hi hj _
  have key : ∀ i, i < 2 → ∀ j, j < 2 → norm (rowsDense.val i j) = norm (rowsCSR.val i j) := by decide +kernel
  exact key i hi j hj

end FloatEx

/-- C83, CSC: the sum column by column. -/
theorem C83_columns {w : World (Fl f)} {s : Ref} {mask : Mask} (hr : Reach (w.heap s)) (hk : (w.heap s).kind = .csc)
    (hg : (w.heap s).nvalues ≤ w.gas) (hc : w.cancel = none) (hS : mask.Sound w) (hF : mask.Fits w s) :
    Ops.reduceMatrixToScalar s mask w = .ok (foldTable (MonoID.addition (Fl f)) (w.heap s).cols (w.heap s).rows
      (fun j i => mask.bit w i j) (fun j i => (w.heap s).val i j)) w := by
  have hw := hr.wf (by rw [hk]; simp)
  refine (C81_fold_partial _ hw hg hc hS hF).trans ?_
  dsimp only
  rw [hk]
  dsimp only
  rw [C83_skipsZero.filter]
  · unfold foldTable
    rw [List.filter_map, List.map_map]
    rfl
  · intro v hv hz
    obtain ⟨p, hp, rfl⟩ := List.mem_map.1 hv
    have := mem_cellsByColumn.1 (List.mem_filter.1 hp).1
    exact hw.zero_of_isZero (by rw [hk]; rfl) this.1 this.2 hz

/-- C83, sums of the columns (`ReduceMatrixToVectorWithMonoID` with the addition): right in every format, the cells of a
column from top to bottom. -/
theorem C83_vector {k : Kind} (hk : k = .csr ∨ k = .csc ∨ k = .dense ∨ k = .dvec) :
    ReducesColumnsRight (MonoID.addition (Fl f)) k := by
  rcases hk with rfl | rfl | rfl | rfl
  · exact C81_vector_compressed C83_skipsZero (Or.inl rfl)
  · exact C81_vector_compressed C83_skipsZero (Or.inr rfl)
  · exact C81_vector_dense _ (Or.inl rfl)
  · exact C81_vector_dense _ (Or.inr rfl)

/-- C83 in full: false. `[[10^16, 1], [-10^16, 1]]` as CSC matrix: the sum is 2, row by row it would be 1. -/
theorem C83_refuted : ¬ FloatSumRight binary64 := by
  intro h
  have hr : Reach FloatEx.byCols :=
    Reach.arrCSC (data := [[FloatEx.c (10 ^ 16), FloatEx.c 1], [FloatEx.c (-10 ^ 16), FloatEx.c 1]]) (c := 2)
      (by unfold Rect; simp) (by kernel_rfl)
  have := h .csc (Or.inr (Or.inl rfl)) (World.of 9 [FloatEx.byCols]) 0 .nil hr rfl (by decide) rfl trivial trivial
  have h2 : (Ops.reduceMatrixToScalar 0 .nil (World.of 9 [FloatEx.byCols])).val = some (FloatEx.c 2) := by decide +kernel
  have h3 : foldTable (MonoID.addition F64) 2 2 (Mask.bit (World.of 9 [FloatEx.byCols]) .nil) FloatEx.byCols.val = FloatEx.c 1 := by
    decide +kernel
  have h4 := congrArg Res.val this
  exact absurd (h2.symm.trans h4) (by
    show ¬ some (FloatEx.c 2) = some (foldTable (MonoID.addition F64) 2 2 (Mask.bit (World.of 9 [FloatEx.byCols]) .nil) FloatEx.byCols.val)
    rw [h3]; decide +kernel)

end GB
