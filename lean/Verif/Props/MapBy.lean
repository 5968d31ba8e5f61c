import Verif.Lemmas.MapByEnds
import Verif.Props.LiveIter
import Verif.KernelRfl

/-!
# C110: the function given to `Map` uses the matrix itself

The claim: `for it := m.Map(); it.HasNext(); { it.Map(f) }` does what
`for each stored cell (i, j) { m.Set(i, j, f(i, j, m.At(i, j))) }` does (`eachSet`), whatever `f` does with `m` meanwhile: it
may read it, write it, panic or not return.
-/

namespace GB

set_option linter.unusedSectionVars false

open Mat

variable {T : Type} [GoNum T] [GoStore T]

/-- C110 for the loop over `m` with the function `f`: the places are those of the cells that `m` stores at the beginning, in
the order of the format. -/
def MapsAsLoop (f : CellFn T) (m : Mat T) : Prop :=
  mapAll f m.nvalues m m.iter =
    eachSet f (m.scan.filter (fun p => !(m.kind.sparse && isZero (m.val p.1 p.2)))) m

theorem maps_core {P : Mat T → Prop} (hwf : ∀ m, P m → m.WF)
    (hset : ∀ (m u : Mat T) (i j : Nat) (x : T), P m → u.WF → Same u m → m.set i j x = .ok u → P u) {f : CellFn T} {m : Mat T} (hm : P m)
    (hf : f.Orderly P m) : MapsAsLoop f m := by
  obtain ⟨es, h1, h2, -, h4⟩ := ordered_entries (hwf m hm)
  unfold MapsAsLoop
  rw [mapAll_eq hwf hset hf m.nvalues m m.iter es h1 hm (Same.refl m) (fun _ _ _ _ => Iff.rfl) (by omega)]
  congr 1
  rw [h4]
  simp [placesOf, Function.comp_def]

/-- C110 for the matrices and the dense vector. The condition on `f` is `Orderly`: on a dense object it only says that `f`
keeps type and shape, as every method does.

Missing: compressed formats with an `f` that answers zero before the end of a line (at the end: `C110_ends_partial`), or makes
a cell zero or non-zero (`C110_refuted`). -/
theorem C110_map_partial {f : CellFn T} {m : Mat T} (h : Reach m) (hk : m.kind ≠ .svec)
    (hf : f.Orderly (fun t => Reach t ∧ t.kind ≠ .svec) m) : MapsAsLoop f m :=
  maps_core (P := fun t => Reach t ∧ t.kind ≠ .svec) (fun _ h => h.1.wf h.2)
    (fun m u i j x h _ hs e => ⟨.call (.set i j x) h.1 e, by rw [hs.1]; exact h.2⟩) ⟨h, hk⟩ hf

/-- C110 for compressed matrices and functions that may also answer zero at the end of a line (row of a CSR matrix, column of a
CSC matrix); otherwise as `C110_map_partial`, which the matrix losing cells on the way does not cover. -/
theorem C110_ends_partial {f : CellFn T} {m : Mat T} (h : Reach m) (hk : m.kind = .csr ∨ m.kind = .csc)
    (hf : f.OrderlyEnds (fun t => Reach t ∧ t.kind ≠ .svec) m) : MapsAsLoop f m := by
  have hns : m.kind ≠ .svec := by rcases hk with hk | hk <;> rw [hk] <;> simp
  obtain ⟨es, h1, h2, -, h4⟩ := ordered_entries (h.wf hns)
  unfold MapsAsLoop
  rw [mapAll_ends (P := fun t => Reach t ∧ t.kind ≠ .svec) (fun _ h => h.1.wf h.2)
    (fun m u i j x h _ hs e => ⟨.call (.set i j x) h.1 e, by rw [hs.1]; exact h.2⟩) hf m.nvalues m m.iter es
    (leftAt_init (h.wf hns) hk h1) ⟨h, hns⟩ (Same.refl m) (fun _ _ _ _ h => h) (by omega)]
  congr 1
  rw [h4]
  simp [placesOf, Function.comp_def]

/-- C110 for dense matrices and vectors, every `f` that keeps type and shape when it answers; nothing is asked of the calls
that panic or do not return. -/
theorem C110_dense {f : CellFn T} {m : Mat T} (h : Reach m) (hk : m.kind = .dense ∨ m.kind = .dvec)
    (hf : ∀ (i j : Nat) (v : T) (a : Mat T), Reach a → a.kind = m.kind → a.rows = m.rows → a.cols = m.cols →
      ∀ x t, f i j v a = (.ok x, t) → Reach t ∧ t.kind = m.kind ∧ t.rows = m.rows ∧ t.cols = m.cols) :
    mapAll f m.nvalues m m.iter = eachSet f (cells m.rows m.cols) m := by
  have hns : m.kind ≠ .svec := by rcases hk with hk | hk <;> rw [hk] <;> simp
  have := C110_map_partial (f := f) h hns (by
    intro i j a v ha e1 e2 e3 _ _ _ _ _ x t hx
    obtain ⟨g1, g2, g3, g4⟩ := hf i j v a ha.1 e1 e2 e3 x t hx
    refine ⟨⟨g1, by rw [g2]; exact hns⟩, g2.trans e1.symm, g3.trans e2.symm, g4.trans e3.symm, ?_⟩
    rw [e1]
    exact hk.imp_right Or.inl)
  rw [MapsAsLoop] at this
  rw [this]
  congr 1
  rcases hk with hk | hk <;> simp [scan, hk, Kind.sparse]

/-- C110 for sparse vectors none of whose entries lies beyond position (number of entries), the ones `At` reads right (C04). -/
theorem C110_sparse_vector_partial {f : CellFn T} {s : SVec T} {ps : List (Nat × T)} (h : s.Rep ps) (hp : SVec.Packed ps)
    (hf : f.Orderly Mat.WF (.svec s)) : MapsAsLoop f (.svec s) :=
  maps_core (P := Mat.WF) (fun _ h => h) (fun _ _ _ _ _ _ h _ _ => h) (m := .svec s) ⟨ps, h, hp⟩ hf

/-- A function that adds to a cell of a vector the one before it. -/
def addPrev : CellFn ℤ := fun i _ v m =>
  match i with
  | 0 => (.ok v, m)
  | i + 1 =>
    match m.at' (i : Nat) 0 with
    | .ok (u, m) => (.ok (u + v), m)
    | .panic => (.panic, m)
    | .hang => (.hang, m)

/-- Running sums. -/
example : mapAll addPrev 4 (.dvec ⟨4, [1, 2, 3, 4]⟩) (Mat.iter (.dvec ⟨4, [1, 2, 3, 4]⟩)) = (.ok (), .dvec ⟨4, [1, 3, 6, 10]⟩) := by
  kernel_rfl

/-- The hypotheses of `C110_dense` hold of it, for every vector. -/
example (l : List ℤ) : mapAll addPrev (Mat.dvec (DVec.fromArray l)).nvalues (.dvec (DVec.fromArray l)) (Mat.dvec (DVec.fromArray l)).iter =
    eachSet addPrev (cells (Mat.dvec (DVec.fromArray l)).rows 1) (.dvec (DVec.fromArray l)) := by
  refine C110_dense (.arrDVec l) (Or.inr rfl) ?_
  intro i j v a ha e1 e2 e3 x t hx
  have key : t = a := by
    cases i with
    | zero => exact (Prod.mk.inj hx).2.symm
    | succ i =>
      cases a <;> simp only [kind, reduceCtorEq] at e1
      rename_i s
      simp only [addPrev, Mat.at'] at hx
      cases hs : s.at' (i : Nat) 0 with
      | panic => simp [hs] at hx
      | hang => simp [hs] at hx
      | ok u => simp [hs] at hx; exact hx.2.symm
  subst key
  exact ⟨ha, e1, e2, e3⟩

/-- A function that doubles and, at `(0, 0)`, sets the cell `(i, j)` to `y` as well. -/
def doubleAndSet (i j : Nat) (y : ℤ) : CellFn ℤ := fun r c v m =>
  if r = 0 ∧ c = 0 then
    match m.set i j y with
    | .ok t => (.ok (2 * v), t)
    | .panic => (.panic, m)
    | .hang => (.hang, m)
  else (.ok (2 * v), m)

/-- Writing ahead of the iterator: the value written is doubled in its turn, in every format. -/
example :
    mapAll (doubleAndSet 2 2 7) 6 (.csr liveCSR) (Mat.csr liveCSR).iter =
      (.ok (), .csr ⟨3, 3, [2, 4, 6, 8, 10, 14], [0, 1, 2, 1, 0, 2], [0, 3, 4, 6]⟩) ∧
    mapAll (doubleAndSet 1 1 7) 4 (.dense ⟨2, 2, [[1, 0], [3, 4]]⟩) (Mat.dense (⟨2, 2, [[1, 0], [3, 4]]⟩ : Dense ℤ)).iter =
      (.ok (), .dense ⟨2, 2, [[2, 0], [6, 14]]⟩) := by
  constructor <;> kernel_rfl

/-- The hypotheses of `C110_map_partial` hold of it: `(2, 2)` is not zero and is set to something that is not zero. -/
example : MapsAsLoop (doubleAndSet 2 2 7) (.csr liveCSR) := by
  refine C110_map_partial liveCSR_reach (by decide) ?_
  intro i j m v hm e1 e2 e3 hp hi hj hv hst x t hx
  have hw := hm.1.wf hm.2
  have hv' : m.val i j = v := by
    rw [at_ok hw (by rw [e2]; exact hi) (by rw [e3]; exact hj)] at hv
    injection hv with hv
    exact (Prod.mk.inj hv).1
  have hvz : isZero v = false := by
    have := (stored_iff hw (by rw [e2]; exact hi) (by rw [e3]; exact hj)).1 hst
    rw [e1, hv'] at this
    exact (this.resolve_left (by decide)).resolve_left (by decide)
  have h2v : isZero (2 * v) = false := by
    rw [← Bool.not_eq_true, isZero_iff] at hvz ⊢
    omega
  unfold doubleAndSet at hx
  split at hx
  · have r2 : 2 < m.rows := by rw [e2]; decide
    have c2 : 2 < m.cols := by rw [e3]; decide
    have h22 : isZero (m.val 2 2) = false := by
      have := (stored_iff hw r2 c2).1 ((hp 2 2 (by decide) (by decide)).2
        (Or.inr (Or.inr ⟨6, by kernel_rfl, by decide⟩)))
      rw [e1] at this
      exact (this.resolve_left (by decide)).resolve_left (by decide)
    obtain ⟨u, g1, g2⟩ := set_ok hw hm.2 r2 c2 (7 : ℤ)
    rw [g1] at hx
    obtain ⟨hx1, rfl⟩ := Prod.mk.inj hx
    injection hx1 with hx1
    subst hx1
    refine ⟨⟨.call (.set 2 2 7) hm.1 g1, by rw [g2.same.1]; exact hm.2⟩, g2.same.1, g2.same.2.1, g2.same.2.2,
      Or.inr (Or.inr ⟨h2v, fun a b ha hb => ?_⟩)⟩
    rw [stored_iff hw ha hb, stored_iff g2.wf (by rw [g2.same.2.1]; exact ha) (by rw [g2.same.2.2]; exact hb), g2.same.1]
    by_cases he : a = 2 ∧ b = 2
    · obtain ⟨rfl, rfl⟩ := he
      rw [g2.hit, h22, keep_lawful, show isZero (7 : ℤ) = false from rfl]
    · rw [g2.miss a b ha hb he]
  · obtain ⟨hx1, rfl⟩ := Prod.mk.inj hx
    injection hx1 with hx1
    subst hx1
    exact ⟨hm, rfl, rfl, rfl, Or.inr (Or.inr ⟨h2v, fun _ _ _ _ => Iff.rfl⟩)⟩

/-- A function that doubles, and drops the last entry of each row: it answers zero where the rest of the row is zero. -/
def dropLast : CellFn ℤ := fun i j v m =>
  (.ok (if (List.range m.cols).all (fun b => decide (b ≤ j) || isZero (m.val i b)) then 0 else 2 * v), m)

example : mapAll dropLast 6 (.csr liveCSR) (Mat.csr liveCSR).iter = (.ok (), .csr ⟨3, 3, [2, 4, 10], [0, 1, 0], [0, 2, 2, 3]⟩) := by
  kernel_rfl

/-- The hypotheses of `C110_ends_partial` hold of it, for every CSR matrix. -/
example {s : CSR ℤ} (h : Reach (.csr s)) : MapsAsLoop dropLast (.csr s) := by
  refine C110_ends_partial h (Or.inl rfl) ?_
  intro i j m v hm e1 e2 e3 _ hi hj hv hst x t hx
  obtain ⟨hx1, rfl⟩ := Prod.mk.inj hx
  injection hx1 with hx1
  have hw := hm.1.wf hm.2
  have hi' : i < m.rows := by rw [e2]; exact hi
  have hj' : j < m.cols := by rw [e3]; exact hj
  have hk : m.kind = .csr ∨ m.kind = .csc := Or.inl e1
  refine ⟨hm, rfl, rfl, rfl, fun _ _ _ _ => Iff.rfl, ?_⟩
  split at hx1
  · rename_i hall
    refine Or.inr (Or.inl ⟨e1, fun b hb hbc => ?_⟩)
    have := List.all_eq_true.1 hall b (List.mem_range.2 hbc)
    rw [stored_compressed hk hw hi' hbc]
    simp only [Bool.or_eq_true, decide_eq_true_eq] at this
    rcases this with h | h
    · omega
    · simp [h]
  · left
    have hvz : isZero v = false := by
      rw [at_ok hw hi' hj'] at hv
      injection hv with hv
      rw [← (Prod.mk.inj hv).1]
      exact (stored_compressed hk hw hi' hj').1 hst
    rw [← hx1]
    rw [← Bool.not_eq_true, isZero_iff] at hvz ⊢
    omega

/-- A function that answers zero at `(0, 0)` and the value elsewhere. -/
def dropFirst : CellFn ℤ := fun i j v m => (.ok (if i = 0 ∧ j = 0 then 0 else v), m)

/-- With zero answered before the end of a line the claim fails, although `f` does not use the matrix: the loop never ends. -/
theorem C110_zero_refuted : Reach (.csr liveCSR) ∧ ¬ MapsAsLoop dropFirst (.csr liveCSR) := by
  refine ⟨liveCSR_reach, fun h => ?_⟩
  unfold MapsAsLoop at h
  have h1 : (mapAll dropFirst (Mat.csr liveCSR).nvalues (.csr liveCSR) (Mat.csr liveCSR).iter).1 = .hang := by kernel_rfl
  rw [h] at h1
  have h2 : (eachSet dropFirst ((Mat.csr liveCSR).scan.filter
    (fun p => !((Mat.csr liveCSR).kind.sparse && isZero ((Mat.csr liveCSR).val p.1 p.2)))) (.csr liveCSR)).1 = .ok () := by kernel_rfl
  rw [h2] at h1
  cases h1

/-- A function that panics at `(1, 1)` after having set `(0, 0)`. -/
def panicAt11 : CellFn ℤ := fun r c v m =>
  if r = 1 ∧ c = 1 then
    match m.set 0 0 9 with
    | .ok t => (.panic, t)
    | _ => (.panic, m)
  else (.ok (2 * v), m)

/-- The panic leaves the cells before `(1, 1)` doubled, the others as they were, and what the function wrote. -/
example : mapAll panicAt11 6 (.csr liveCSR) (Mat.csr liveCSR).iter =
    (.panic, .csr ⟨3, 3, [9, 4, 6, 4, 5, 6], [0, 1, 2, 1, 0, 2], [0, 3, 4, 6]⟩) := by kernel_rfl

/-- C110 fails for the compressed formats when `f` makes another cell zero, here `(0, 1)` at `(0, 0)`: the loop never ends
where the loop of `Set` returns. -/
theorem C110_refuted : Reach (.csr liveCSR) ∧ Reach (.csc liveCSC) ∧
    ¬ MapsAsLoop (doubleAndSet 0 1 0) (.csr liveCSR) ∧ ¬ MapsAsLoop (doubleAndSet 1 0 0) (.csc liveCSC) := by
  refine ⟨liveCSR_reach, liveCSC_reach, ?_, ?_⟩
  · intro h
    have h1 : (mapAll (doubleAndSet 0 1 0) (Mat.csr liveCSR).nvalues (.csr liveCSR) (Mat.csr liveCSR).iter).1 = .hang := by kernel_rfl
    unfold MapsAsLoop at h
    rw [h] at h1
    have h2 : (eachSet (doubleAndSet 0 1 0) ((Mat.csr liveCSR).scan.filter
      (fun p => !((Mat.csr liveCSR).kind.sparse && isZero ((Mat.csr liveCSR).val p.1 p.2)))) (.csr liveCSR)).1 = .ok () := by kernel_rfl
    rw [h2] at h1
    cases h1
  · intro h
    have h1 : (mapAll (doubleAndSet 1 0 0) (Mat.csc liveCSC).nvalues (.csc liveCSC) (Mat.csc liveCSC).iter).1 = .hang := by kernel_rfl
    unfold MapsAsLoop at h
    rw [h] at h1
    have h2 : (eachSet (doubleAndSet 1 0 0) ((Mat.csc liveCSC).scan.filter
      (fun p => !((Mat.csc liveCSC).kind.sparse && isZero ((Mat.csc liveCSC).val p.1 p.2)))) (.csc liveCSC)).1 = .ok () := by kernel_rfl
    rw [h2] at h1
    cases h1

end GB
