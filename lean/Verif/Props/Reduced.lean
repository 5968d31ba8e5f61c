import Verif.Lemmas.Rref
import Verif.Lemmas.Ops3

/-!
# Gauss-Jordan elimination: C39
-/

namespace GB

set_option linter.unusedSectionVars false

open M

/-- C39 in full, for a sparse vector over the rationals made from an array: `Reduced` returns a
matrix whose cells have the row space of the array. -/
def ReducedKeepsSparse : Prop := ∀ (data : List ℚ) (s : SVec ℚ), SVec.fromArray data = .ok s →
  ∃ m, (Reduced.reduced data.length 0 (World.of (T := ℚ) 0 [.svec s])).obj = some m ∧
    rowSpace data.length 1 m.val = rowSpace data.length 1 (fun i _ => data.getD i 0)

theorem Reduced.reduced_of {T : Type} [GoNum T] [GoStore T] {w : World T} {s : Ref} {gas : Nat}
    (hs : (w.heap s).WF) {t : Nat → Nat → T} {m : Mat T}
    (h1 : onCopy gas (w.heap s) = .ok m)
    (h2 : Holds (w.heap s).kind (w.heap s).rows (w.heap s).cols t m) :
    Returns w (w.heap s).kind (w.heap s).rows (w.heap s).cols t (reduced gas s w) := by
  unfold reduced
  have hc : M.copy s w = .ok w.next
      { w with heap := Function.update w.heap w.next (w.heap s), next := w.next + 1 } := by
    unfold M.copy
    rw [bind_ok (ofObj_ok (w := w) (Mat.copy_ok hs))]
    rfl
  rw [bind_ok hc]
  have hw : M.withObj w.next (fun a => do let a ← onCopy gas a; .ok ((), a))
      { w with heap := Function.update w.heap w.next (w.heap s), next := w.next + 1 } =
      .ok () { w with heap := Function.update w.heap w.next m, next := w.next + 1 } := by
    unfold M.withObj
    simp only [Function.update_self, h1, Out.ok_bind, Function.update_idem]
  rw [bind_ok hw]
  refine ⟨w.next, _, rfl, le_refl _, Nat.lt_succ_self _, ?_, rfl, rfl, rfl, ?_⟩
  · intro q hq
    exact Function.update_of_ne (Nat.ne_of_lt hq) _ _
  · simp only [Function.update_self]
    exact ⟨h2.wf, h2.kind, h2.rows, h2.cols, h2.val⟩

section
variable {K : Type} [GoField K] [GoLawful K]

/-- C39, the part that holds: for every matrix, compressed or dense, and every dense vector over a
field, within one turn of the pivot search per cell, `Reduced` returns a new matrix of the same type
and shape that is in reduced row echelon form and has the row space and the solutions of its
argument; it is the only such matrix; nothing that existed is changed.
Missing: sparse vectors, for which it is false (`C39_refuted`). -/
theorem C39_reduced_partial {w : World K} {s : Ref} {gas : Nat} (hs : (w.heap s).WF)
    (hk : (w.heap s).kind ≠ .svec) (hg : (w.heap s).cols * (w.heap s).rows ≤ gas) :
    ∃ t, Returns w (w.heap s).kind (w.heap s).rows (w.heap s).cols t (Reduced.reduced gas s w) ∧
      IsRREF (w.heap s).rows (w.heap s).cols t ∧
      rowSpace (w.heap s).rows (w.heap s).cols t =
        rowSpace (w.heap s).rows (w.heap s).cols (w.heap s).val ∧
      solutions (w.heap s).rows (w.heap s).cols t =
        solutions (w.heap s).rows (w.heap s).cols (w.heap s).val ∧
      ∀ t', IsRREF (w.heap s).rows (w.heap s).cols t' →
        rowSpace (w.heap s).rows (w.heap s).cols t' =
          rowSpace (w.heap s).rows (w.heap s).cols (w.heap s).val →
        ∀ i j, i < (w.heap s).rows → j < (w.heap s).cols → t i j = t' i j := by
  obtain ⟨m', t, h1, h2, h3, h4⟩ := Reduced.onCopy_ok (n := (w.heap s).rows) (c := (w.heap s).cols)
    (A := (w.heap s).val) (gas := gas) hk hg ⟨hs, rfl, rfl, rfl, fun _ _ _ _ => rfl⟩
  exact ⟨t, Reduced.reduced_of hs h1 h2, h4, h3, solutions_of_rowSpace h3,
    fun t' a b => rref_unique h4 a (h3.trans b.symm)⟩

end

section
variable {T : Type} [GoNum T] [GoStore T]

/-- C39, termination alone, for every element type in which `1 / v` does not panic for `v ≠ 0`
(every numeric Go type, wrap-around integers and floats included): `Reduced` returns a new matrix of
the type and shape of its argument, whatever the rounding, and changes nothing that existed. -/
theorem C39_terminates {w : World T} {s : Ref} {gas : Nat} (hs : (w.heap s).WF)
    (hk : (w.heap s).kind ≠ .svec) (hd : ∀ v : T, isZero v = false → GoNum.gdiv 1 v ≠ none)
    (hg : (w.heap s).cols * (w.heap s).rows ≤ gas) :
    ∃ t, Returns w (w.heap s).kind (w.heap s).rows (w.heap s).cols t (Reduced.reduced gas s w) := by
  have hz : ∀ v : T, isZero v = false → isZero (Reduced.kept (w.heap s).kind v) = false := by
    intro v hv
    unfold Reduced.kept norm
    split
    · exact hv
    · exact hv
    · rw [hv]; simpa using hv
  obtain ⟨m', t, h1, h2, -⟩ := Reduced.rows_ok (k := (w.heap s).kind) (n := (w.heap s).rows)
    (c := (w.heap s).cols) hk (fun v hv => Option.ne_none_iff_exists'.1 (hd v hv)) hg
    (fun _ _ _ => True) (fun _ => True) (fun _ _ _ _ _ _ _ _ _ _ _ _ _ _ => trivial)
    (by
      intro i r l t h
      unfold Reduced.swapT
      split
      · rename_i e; rw [← e]; exact h
      · rename_i e
        rw [if_neg (fun h => e h.symm), if_pos rfl]
        exact hz _ h)
    (fun _ _ _ _ _ => trivial) (w.heap s).rows 0 0 (w.heap s).val (w.heap s)
    ⟨hs, rfl, rfl, rfl, fun _ _ _ _ => rfl⟩ (by omega) (by omega) trivial
  exact ⟨t, Reduced.reduced_of hs h1 h2⟩

end

/-! ## Cases -/

/-- A 2 × 3 matrix that needs an exchange of rows. -/
def redA : Mat ℚ := .dense ⟨2, 3, [[0, 2, 4], [3, 1, 5]]⟩

theorem redA_wf : redA.WF := ⟨rfl, by simp⟩

/-- The hypotheses of `C39_reduced_partial` hold for it. -/
example : ∃ t, Returns (World.of (T := ℚ) 10 [redA]) .dense 2 3 t
      (Reduced.reduced 6 0 (World.of (T := ℚ) 10 [redA])) ∧ IsRREF 2 3 t := by
  obtain ⟨t, h1, h2, -⟩ := C39_reduced_partial (w := World.of (T := ℚ) 10 [redA]) (s := 0) (gas := 6)
    redA_wf (by decide) (by decide)
  exact ⟨t, h1, h2⟩

/-- The outcome: `[[1, 0, 1], [0, 1, 2]]`. -/
example : ((Reduced.reduced 6 0 (World.of (T := ℚ) 10 [redA])).obj.bind
    fun m => match m with | .dense d => some d.data | _ => none) = some [[1, 0, 1], [0, 1, 2]] := by
  kernel_rfl

/-- Integer division keeps the row space from surviving: over `int`, `[[2, 1]]` becomes `[[0, 0]]`.
The hypothesis "over a field" is needed. -/
theorem C39_field_needed : ((Reduced.reduced 2 0
    (World.of (T := ℤ) 10 [.dense ⟨1, 2, [[2, 1]]⟩])).obj.bind
    fun m => match m with | .dense d => some d.data | _ => none) = some [[0, 0]] := by
  kernel_rfl

/-- The sparse vector `[0, 0, 5]`. -/
def redS : SVec ℚ := ⟨3, [5], [2]⟩

/-- The sparse vector `[0, 0, 5]` reads as zero (its `At` misses the only entry), so `Reduced` finds
no pivot and returns a vector that reads as zero, with a smaller row space than the array. -/
theorem C39_refuted : ¬ ReducedKeepsSparse := by
  intro h
  obtain ⟨m, h1, h2⟩ := h [0, 0, 5] redS (by kernel_rfl)
  have e : (Reduced.reduced 3 0 (World.of (T := ℚ) 0 [.svec redS])).obj = some (.svec redS) := by
    kernel_rfl
  have hm : m = .svec redS := Option.some.inj (h1.symm.trans e)
  subst hm
  have z : ∀ i, i < 3 → ∀ j, j < 1 → (Mat.svec redS).val i j = 0 := by
    intro i hi j hj
    obtain rfl : j = 0 := by omega
    obtain rfl | rfl | rfl : i = 0 ∨ i = 1 ∨ i = 2 := by omega
    all_goals kernel_rfl
  have hbot : rowSpace 3 1 (Mat.svec redS).val ≤ ⊥ := by
    refine Submodule.span_le.2 ?_
    rintro v ⟨i, hi, rfl⟩
    show tableRow 1 _ i = 0
    funext j
    unfold tableRow
    split
    · exact z i hi j (by assumption)
    · rfl
  have hmem : tableRow 1 (fun i _ => ([0, 0, 5] : List ℚ).getD i 0) 2 ∈
      rowSpace 3 1 (fun i _ => ([0, 0, 5] : List ℚ).getD i 0) := row_mem (by omega)
  have h3 : rowSpace 3 1 (fun i _ => ([0, 0, 5] : List ℚ).getD i 0) ≤ ⊥ := h2 ▸ hbot
  have h4 : tableRow 1 (fun i _ => ([0, 0, 5] : List ℚ).getD i 0) 2 = 0 := h3 hmem
  have h5 := congrFun h4 0
  simp [tableRow] at h5

/-- `C39_terminates` applies to `int64`. -/
example : ∀ v : SInt 64, isZero v = false → GoNum.gdiv 1 v ≠ none := by
  intro v hv h
  have e : (GoNum.gdiv 1 v : Option (SInt 64)) = if v = 0 then none else some (BitVec.sdiv 1 v) := rfl
  rw [e] at h
  by_cases h0 : v = 0
  · rw [(isZero_iff v).2 h0] at hv; exact absurd hv (by simp)
  · rw [if_neg h0] at h; exact absurd h (by simp)

end GB
