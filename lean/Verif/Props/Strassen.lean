import Verif.Lemmas.StrassenRing
import Verif.Lemmas.StrassenPanic
import Verif.Props.Multiply

/-!
# Strassen's multiplication: C40, C41

`k` is the crossover point of `MultiplyCrossoverPoint`; `Multiply` has 64. `gas` only bounds the
iterator loops inside `Add` and `Subtract`.
-/

namespace GB

set_option linter.unusedSectionVars false

open Strassen

/-- C41, every element type, every shape, every crossover point: if some schedule of the goroutines
makes the call return a matrix, all schedules do, they return the same matrix, and no schedule is
endless, blocks or panics. -/
theorem C41_schedule {T : Type} [GoNum T] {gas n : Nat} {crossover : Int} {a b v : Mat T}
    (h : Steps gas crossover true n (.start a b) (.ret v)) :
    AlwaysReturns gas crossover true (.start a b) (fun v' => v' = v) := by
  obtain ⟨m, hg⟩ := good_start h trivial 1 v ⟨rfl, rfl⟩
  exact good_always trivial hg ⟨n, h⟩

/-- C41: it is what the call returns when the workers run one after the other. -/
theorem C41_sequential {T : Type} [GoNum T] {gas n : Nat} {crossover : Int} {a b v : Mat T}
    (h : Steps gas crossover true n (.start a b) (.ret v)) : ∃ d, eval gas crossover d a b = .ok v := by
  obtain ⟨m, d, -, hd⟩ := good_start h trivial 1 v ⟨rfl, rfl⟩
  exact ⟨d, hd⟩

/-- C41: whenever a call, at whatever depth, is about to return or to assemble its result, the sends
of all the workers it started have been received; the context may be cancelled. -/
theorem C41_received {T : Type} [GoNum T] {gas n i : Nat} {crossover : Int} {live : Bool} {a b : Mat T}
    {c c' : Call T} {kid : Fin 7 → Call T} {m : Nat → Option (Mat T)}
    (h : Steps gas crossover live n (.start a b) c) (hin : Inside (.wait kid m i) c)
    (hs : Step gas crossover live (.wait kid m i) c') (hc : ∀ kid' m' i', c' ≠ .wait kid' m' i') :
    ∀ k, kid k = .gone := by
  have hcnt : Counted (.wait kid m i) := counted_inside hin (counted_steps h trivial)
  cases hs with
  | work => exact absurd rfl (hc _ _ _)
  | deliver => exact absurd rfl (hc _ _ _)
  | done _ _ h7 => exact gone_of_seven (hcnt.1 ▸ h7)
  | donePanic _ _ h7 => exact gone_of_seven (hcnt.1 ▸ h7)

/-- Two square matrices of order `n`. -/
structure SquareCall {T : Type} [GoNum T] (n : Nat) (a b : Mat T) : Prop where
  awf : a.WF
  bwf : b.WF
  arows : a.rows = n
  acols : a.cols = n
  brows : b.rows = n
  bcols : b.cols = n

section
variable {T : Type} [GoNum T] [GoStore T]

/-- C41: on square matrices, for every crossover point from 0 and every element type, the call
returns in every schedule, whenever the context is cancelled (`live = false`) or not. It returns a
dense square matrix; its order is `n` halved (rounding down) until it is at most the crossover point
and then doubled as many times. -/
theorem C41_returns {gas k n : Nat} {a b : Mat T} (h : SquareCall n a b) (hg : n * n ≤ gas) (live : Bool) :
    AlwaysReturns gas (k : Int) live (.start a b) (fun v => v.WF ∧ v.kind = .dense ∧
      ∃ j, n / 2 ^ j ≤ k ∧ (∀ i, i < j → k < n / 2 ^ i) ∧ v.rows = n / 2 ^ j * 2 ^ j ∧ v.cols = n / 2 ^ j * 2 ^ j) := by
  have hf : Fine gas k False (.start a b) n (sres k n a.val b.val) (cost (dep k n)) :=
    ⟨_, _, ⟨h.awf, h.acols, fun _ => h.arows, fun _ => Cells.operand h.awf (by rw [h.arows]; omega) (by rw [h.acols]; omega),
      fun x => x.elim⟩, ⟨h.bwf, h.brows, fun _ => h.bcols,
        fun _ => Cells.operand h.bwf (by rw [h.brows]; omega) (by rw [h.bcols]; omega), fun x => x.elim⟩, hg, rfl, fun x => x.elim⟩
  have h0 := fine_always (live := live) (c := .start a b) trivial (fun x => x.elim) hf
  have key : ∀ v : Mat T, Sq False (ord k n) (sres k n a.val b.val) v → v.WF ∧ v.kind = .dense ∧
      ∃ j, n / 2 ^ j ≤ k ∧ (∀ i, i < j → k < n / 2 ^ i) ∧ v.rows = n / 2 ^ j * 2 ^ j ∧ v.cols = n / 2 ^ j * 2 ^ j := by
    intro v hv
    obtain ⟨j, h1, h2, h3⟩ := ord_pow (k := k) n
    exact ⟨hv.wf, hv.kind, j, h1, h2, by rw [← h3]; exact hv.rows, by rw [← h3]; exact hv.cols⟩
  refine ⟨h0.bounded, h0.reaches, fun m c' hs hh => ?_, fun m v hs => key v (h0.returned m v hs)⟩
  obtain ⟨v, e, hv⟩ := h0.ends m c' hs hh
  exact ⟨v, e, key v hv⟩

/-- C40, where it fails: if `n` cannot be halved evenly down to the crossover point the matrix
returned is too small. -/
theorem C40_too_small {gas k n m : Nat} {live : Bool} {a b v : Mat T} (h : SquareCall n a b) (hg : n * n ≤ gas)
    (hn : ¬ Halves k n) (hs : Steps gas (k : Int) live m (.start a b) (.ret v)) : v.rows < n ∧ v.cols < n := by
  obtain ⟨-, -, j, h1, -, h3, h4⟩ := (C41_returns h hg live).returned m v hs
  rw [h3, h4]
  have : n / 2 ^ j * 2 ^ j < n := by
    refine lt_of_le_of_ne (Nat.div_mul_le_self _ _) (fun e => hn ⟨_, j, h1, e.symm⟩)
  exact ⟨this, this⟩

end

/-- C40, where it fails: with a negative crossover point the call never returns, whatever the
operands. -/
theorem C40_negative {T : Type} [GoNum T] {gas n : Nat} {crossover : Int} {live : Bool} {a b v : Mat T}
    (hn : crossover < 0) : ¬ Steps gas crossover live n (.start a b) (.ret v) := by
  have : ∀ {c c' : Call T} {n : Nat}, Steps gas crossover live n c c' → Endless c → Endless c' := by
    intro c c' n h
    induction h with
    | refl => exact id
    | tail _ h2 ih => exact fun h => endless_step hn h2 (ih h)
  intro h
  exact this h trivial

section
variable {T : Type} [GoRing T] [GoLawful T]

/-- C40, the part that holds: for square matrices whose order can be halved evenly down to the
crossover point, over every commutative ring, wrap-around integers included, in every schedule the
call returns the product. The operands may be of any storage type if the order is above the crossover
point; otherwise compressed ones must fit, as in C20 (dense ones always do).
Missing: other orders (`C40_too_small`, `C40_refuted`), negative crossover points (`C40_negative`),
compressed operands at most at the crossover point that do not fit. -/
theorem C40_product_partial {gas k n : Nat} {a b : Mat T} (h : SquareCall n a b) (hg : n * n ≤ gas)
    (hn : Halves k n) (ha : n ≤ k → a.RowsFit) (hb : n ≤ k → b.ColsFit) :
    AlwaysReturns gas (k : Int) true (.start a b) (fun v => v.WF ∧ v.kind = .dense ∧ v.rows = n ∧ v.cols = n ∧
      ∀ i j, i < n → j < n → v.val i j = ∑ l ∈ Finset.range n, a.val i l * b.val l j) := by
  have hf : Fine gas k True (.start a b) n (prod n a.val b.val) (cost (dep k n)) := by
    refine ⟨a.val, b.val, ⟨h.awf, h.acols, fun _ => h.arows,
        fun _ => Cells.operand h.awf (by rw [h.arows]; omega) (by rw [h.acols]; omega), fun _ hk i j hi hj => ?_⟩,
      ⟨h.bwf, h.brows, fun _ => h.bcols,
        fun _ => Cells.operand h.bwf (by rw [h.brows]; omega) (by rw [h.bcols]; omega), fun _ hk i j hi hj => ?_⟩, hg, rfl, fun _ i j hi hj => ?_⟩
    · exact rowVal_exact (ha hk) (by rw [h.arows]; exact hi) (by rw [h.acols]; exact hj)
    · exact colVal_exact (hb hk) (by rw [h.bcols]; exact hj) (by rw [h.brows]; exact hi)
    · rw [(ord_halves n).2 hn] at hi hj
      exact sres_prod n hn _ _ i j hi hj
  have h0 := fine_always (live := true) (c := .start a b) trivial (fun _ => rfl) hf
  have key : ∀ v : Mat T, Sq True (ord k n) (prod n a.val b.val) v → v.WF ∧ v.kind = .dense ∧ v.rows = n ∧ v.cols = n ∧
      ∀ i j, i < n → j < n → v.val i j = ∑ l ∈ Finset.range n, a.val i l * b.val l j := by
    intro v hv
    rw [(ord_halves n).2 hn] at hv
    exact ⟨hv.wf, hv.kind, hv.rows, hv.cols, fun i j hi hj => (hv.val trivial i j hi hj).trans (prod_sum n _ _ i j)⟩
  refine ⟨h0.bounded, h0.reaches, fun m c' hs hh => ?_, fun m v hs => key v (h0.returned m v hs)⟩
  obtain ⟨v, e, hv⟩ := h0.ends m c' hs hh
  exact ⟨v, e, key v hv⟩

theorem sum_getD (L : List Nat) (g : Nat → T) : ∑ l ∈ Finset.range L.length, g (L.getD l 0) = (L.map g).sum := by
  induction L with
  | nil => rfl
  | cons x L ih =>
    rw [List.length_cons, Finset.sum_range_succ', List.map_cons, List.sum_cons, ← ih, add_comm]
    rfl

/-- C40, what the call comes to above the crossover point, whatever the order: in every schedule it
returns the product of the kept rows and columns (`kept`) of the operands, whose storage does not
matter. The operands need not be square, only to have an even number of rows, respectively columns, next
to `n`; what is beyond is ignored. -/
theorem C40_exact {gas k n : Nat} {a b : Mat T} (ha : a.WF) (hb : b.WF) (hac : a.cols = n) (hbr : b.rows = n)
    (hk : k < n) (har : n / 2 * 2 ≤ a.rows) (hbc : n / 2 * 2 ≤ b.cols) (hg : n * n ≤ gas) :
    AlwaysReturns gas (k : Int) true (.start a b) (fun v => v.WF ∧ v.kind = .dense ∧
      v.rows = (kept k n).length ∧ v.cols = (kept k n).length ∧
      ∀ i j (hi : i < (kept k n).length) (hj : j < (kept k n).length),
        v.val i j = ((kept k n).map (fun l => a.val (kept k n)[i] l * b.val l (kept k n)[j])).sum) := by
  have hf : Fine gas k True (.start a b) n (sres k n a.val b.val) (cost (dep k n)) :=
    ⟨_, _, ⟨ha, hac, fun h => by omega, fun _ => Cells.operand ha har (by omega), fun _ h => by omega⟩,
      ⟨hb, hbr, fun h => by omega, fun _ => Cells.operand hb (by omega) hbc, fun _ h => by omega⟩,
      hg, rfl, fun _ _ _ _ _ => rfl⟩
  have h0 := fine_always (live := true) (c := .start a b) trivial (fun _ => rfl) hf
  have key : ∀ v : Mat T, Sq True (ord k n) (sres k n a.val b.val) v → v.WF ∧ v.kind = .dense ∧
      v.rows = (kept k n).length ∧ v.cols = (kept k n).length ∧
      ∀ i j (hi : i < (kept k n).length) (hj : j < (kept k n).length),
        v.val i j = ((kept k n).map (fun l => a.val (kept k n)[i] l * b.val l (kept k n)[j])).sum := by
    intro v hv
    rw [← kept_length] at hv
    refine ⟨hv.wf, hv.kind, hv.rows, hv.cols, fun i j hi hj => ?_⟩
    rw [hv.val trivial i j hi hj, sres_kept n _ _ i j (by rwa [← kept_length]) (by rwa [← kept_length]), prod_sum,
      ← kept_length]
    have e : ∀ x (hx : x < (kept k n).length), place k n x = (kept k n)[x] := fun x hx => List.getD_eq_getElem _ _ hx
    rw [e i hi, e j hj]
    exact sum_getD (kept k n) (fun l => a.val (kept k n)[i] l * b.val l (kept k n)[j])
  refine ⟨h0.bounded, h0.reaches, fun m c' hs hh => ?_, fun m v hs => key v (h0.returned m v hs)⟩
  obtain ⟨v, e, hv⟩ := h0.ends m c' hs hh
  exact ⟨v, e, key v hv⟩

/-- C40, a dense vector as right operand above the crossover point: it is taken for the square matrix all of whose columns
are the vector, since its `At` ignores the column. In every schedule the call returns the square matrix all of whose columns are
the product of the kept rows and columns of `a` with the kept elements of `b`. -/
theorem C40_vector_exact {gas k n : Nat} {a b : Mat T} (ha : a.WF) (hb : b.WF) (hbk : b.kind = .dvec) (hac : a.cols = n)
    (hbr : b.rows = n) (hk : k < n) (har : n / 2 * 2 ≤ a.rows) (hg : n * n ≤ gas) :
    AlwaysReturns gas (k : Int) true (.start a b) (fun v => v.WF ∧ v.kind = .dense ∧
      v.rows = (kept k n).length ∧ v.cols = (kept k n).length ∧
      ∀ i j (hi : i < (kept k n).length), j < (kept k n).length →
        v.val i j = ((kept k n).map (fun l => a.val (kept k n)[i] l * b.val l 0)).sum) := by
  have hf : Fine gas k True (.start a b) n (sres k n a.val (fun i _ => b.val i 0)) (cost (dep k n)) :=
    ⟨_, _, ⟨ha, hac, fun h => by omega, fun _ => Cells.operand ha har (by omega), fun _ h => by omega⟩,
      ⟨hb, hbr, fun h => by omega, fun _ i j hi hj => by
        have := at_in hb (i := i) (j := j) ⟨by omega, Or.inl hbk⟩
        rwa [if_pos hbk] at this, fun _ h => by omega⟩,
      hg, rfl, fun _ _ _ _ _ => rfl⟩
  have h0 := fine_always (live := true) (c := .start a b) trivial (fun _ => rfl) hf
  have key : ∀ v : Mat T, Sq True (ord k n) (sres k n a.val (fun i _ => b.val i 0)) v → v.WF ∧ v.kind = .dense ∧
      v.rows = (kept k n).length ∧ v.cols = (kept k n).length ∧
      ∀ i j (hi : i < (kept k n).length), j < (kept k n).length →
        v.val i j = ((kept k n).map (fun l => a.val (kept k n)[i] l * b.val l 0)).sum := by
    intro v hv
    rw [← kept_length] at hv
    refine ⟨hv.wf, hv.kind, hv.rows, hv.cols, fun i j hi hj => ?_⟩
    rw [hv.val trivial i j hi hj, sres_kept n _ _ i j (by rwa [← kept_length]) (by rwa [← kept_length]), prod_sum,
      ← kept_length]
    have e : ∀ x (hx : x < (kept k n).length), place k n x = (kept k n)[x] := fun x hx => List.getD_eq_getElem _ _ hx
    rw [e i hi]
    exact sum_getD (kept k n) (fun l => a.val (kept k n)[i] l * b.val l 0)
  refine ⟨h0.bounded, h0.reaches, fun m c' hs hh => ?_, fun m v hs => key v (h0.returned m v hs)⟩
  obtain ⟨v, e, hv⟩ := h0.ends m c' hs hh
  exact ⟨v, e, key v hv⟩

/-- C40, up to the crossover point, any shapes and storage: the ordinary product, for compressed
operands the one made of what `ColumnsAt` and `RowsAt` yield (as in C20). -/
theorem C40_small_exact {gas k : Nat} {a b : Mat T} (ha : a.WF) (hb : b.WF) (hab : a.cols = b.rows) (hk : b.rows ≤ k) :
    AlwaysReturns gas (k : Int) true (.start a b) (fun v => v.WF ∧ v.kind = .dense ∧ v.rows = a.rows ∧ v.cols = b.cols ∧
      ∀ i j, i < a.rows → j < b.cols → v.val i j = ∑ l ∈ Finset.range a.cols, a.rowVal i l * b.colVal j l) := by
  obtain ⟨v, e, h1, h2, h3, h4, h5⟩ := leafV_ok (gas := gas) (cn := none) (live := True) ha hb hab (fun _ => rfl)
  have hP : v.WF ∧ v.kind = .dense ∧ v.rows = a.rows ∧ v.cols = b.cols ∧
      ∀ i j, i < a.rows → j < b.cols → v.val i j = ∑ l ∈ Finset.range a.cols, a.rowVal i l * b.colVal j l :=
    ⟨h1, h2, h3, h4, fun i j hi hj => by rw [h5 trivial i j hi hj, dotSum_eq]⟩
  have hk' : (b.rows : Int) ≤ k := by exact_mod_cast hk
  have go : Step gas (k : Int) true (.start a b) (.ret v) := .leaf none (fun _ => rfl) hab hk' e
  have only : ∀ c, Step gas (k : Int) true (.start a b) c → c = .ret v := by
    intro c hc
    cases hc with
    | mismatch h => exact absurd hab h
    | leaf cn hl _ _ h => rw [hl rfl, e] at h; cases h; rfl
    | leafPanic cn hl _ _ h => rw [hl rfl, e] at h; cases h
    | fork _ _ _ h => exact absurd hk' h
    | forkPanic _ _ _ h => exact absurd hk' h
  have hs : ∀ {m c c'}, Steps gas (k : Int) true m c c' → c = .start a b →
      (m = 0 ∧ c' = .start a b) ∨ (m = 1 ∧ c' = .ret v) := by
    intro m c c' h
    induction h with
    | refl => exact fun h => Or.inl ⟨rfl, h⟩
    | tail h1 h2 ih =>
      intro hc
      rcases ih hc with ⟨rfl, rfl⟩ | ⟨rfl, rfl⟩
      · exact Or.inr ⟨rfl, only _ h2⟩
      · exact absurd h2 not_step_ret
  refine ⟨⟨1, fun m c' h => ?_⟩, ⟨1, v, .tail .refl go⟩, fun m c' h hh => ?_, fun m v' h => ?_⟩
  · rcases hs h rfl with ⟨rfl, -⟩ | ⟨rfl, -⟩ <;> omega
  · rcases hs h rfl with ⟨-, rfl⟩ | ⟨-, rfl⟩
    · exact absurd go (hh _)
    · exact ⟨v, rfl, hP⟩
  · rcases hs h rfl with ⟨-, h⟩ | ⟨-, h⟩
    · cases h
    · cases h; exact hP

/-- C40 for any shapes when the inner dimension is at most the crossover point. -/
theorem C40_small_partial {gas k : Nat} {a b : Mat T} (ha : a.WF) (hb : b.WF) (hab : a.cols = b.rows) (hk : b.rows ≤ k)
    (hfa : a.RowsFit) (hfb : b.ColsFit) :
    AlwaysReturns gas (k : Int) true (.start a b) (fun v => v.WF ∧ v.kind = .dense ∧ v.rows = a.rows ∧ v.cols = b.cols ∧
      ∀ i j, i < a.rows → j < b.cols → v.val i j = ∑ l ∈ Finset.range a.cols, a.val i l * b.val l j) := by
  have h0 := C40_small_exact (gas := gas) ha hb hab hk
  refine h0.mono (fun v hv => ?_)
  obtain ⟨h1, h2, h3, h4, h5⟩ := hv
  refine ⟨h1, h2, h3, h4, fun i j hi hj => ?_⟩
  rw [h5 i j hi hj]
  refine Finset.sum_congr rfl fun l hl => ?_
  rw [Finset.mem_range] at hl
  rw [rowVal_exact hfa hi hl, colVal_exact hfb hj (by rw [← hab]; exact hl)]

/-- C40: exactly the orders that halve evenly down to the crossover point give the product of all
dense matrices of that order. -/
theorem C40_iff {gas k n : Nat} (hg : n * n ≤ gas) :
    (∀ a b : Mat T, SquareCall n a b → a.kind = .dense → b.kind = .dense → ∀ m v,
      Steps gas (k : Int) true m (.start a b) (.ret v) →
      v.rows = n ∧ v.cols = n ∧ ∀ i j, i < n → j < n → v.val i j = ∑ l ∈ Finset.range n, a.val i l * b.val l j) ↔
    Halves k n := by
  constructor
  · intro H
    by_contra hn
    have hsq : SquareCall n (.dense (Dense.new n n) : Mat T) (.dense (Dense.new n n)) :=
      ⟨Dense.wf_new _ _, Dense.wf_new _ _, rfl, rfl, rfl, rfl⟩
    obtain ⟨m, v, hs⟩ := (C41_returns (k := k) hsq hg true).reaches
    have h1 := (H _ _ hsq rfl rfl m v hs).1
    have h2 := (C40_too_small (k := k) hsq hg hn hs).1
    omega
  · intro hn a b h ha hb m v hs
    obtain ⟨-, -, h3, h4, h5⟩ := (C40_product_partial h hg hn (fun _ => (Mat.fit_dense (by rw [ha]; simp)).1) (fun _ => (Mat.fit_dense (by rw [hb]; simp)).2)).returned m v hs
    exact ⟨h3, h4, h5⟩

end

/-- C40, C41: operands that do not fit are refused: the call panics at once, in every schedule. Either
the inner dimensions differ, or it is above the crossover point and the left operand has too few rows or
the right one too few columns for four blocks (a dense vector never has: it answers `At` in any column). -/
theorem C40_rejects {T : Type} [GoNum T] [GoStore T] {gas k : Nat} {a b : Mat T} (ha : a.WF) (hb : b.WF)
    (h : a.cols ≠ b.rows ∨ k < b.rows ∧ (a.rows < b.rows / 2 * 2 ∨ b.kind ≠ .dvec ∧ b.cols < b.rows / 2 * 2)) (c : Strassen.Call T) :
    Step gas (k : Int) true (.start a b) c ↔ c = .crash := by
  by_cases hab : a.cols = b.rows
  · rcases h with h | ⟨hk, hlow⟩
    · exact absurd hab h
    have hk' : ¬ (b.rows : Int) ≤ k := by omega
    have e : forkV gas none a b = .panic := forkV_panic ha hb (by
      rintro ⟨h1, h2⟩
      rcases hlow with h | ⟨h, h'⟩
      · omega
      · have := h2.resolve_left h
        omega)
    constructor
    · intro hs
      cases hs with
      | mismatch h => rfl
      | leaf cn hl _ h => exact absurd h hk'
      | leafPanic => rfl
      | fork cn hl _ _ h => rw [hl rfl, e] at h; cases h
      | forkPanic => rfl
    · rintro rfl
      exact .forkPanic none (fun _ => rfl) hab hk' e
  · constructor
    · intro hs
      cases hs with
      | mismatch h => rfl
      | leaf cn hl h => exact absurd h hab
      | leafPanic => rfl
      | fork cn hl h => exact absurd h hab
      | forkPanic => rfl
    · rintro rfl
      exact .mismatch hab

/-- C40 in full, for integer matrices: with every crossover point the call returns the product. -/
def StrassenIsProduct : Prop := ∀ (n : Nat) (crossover : Int) (a b : Mat ℤ), SquareCall n a b →
  a.kind = .dense → b.kind = .dense → ∀ (m gas : Nat) (v : Mat ℤ), n * n ≤ gas →
  Steps gas crossover true m (.start a b) (.ret v) →
  v.rows = n ∧ v.cols = n ∧ ∀ i j, i < n → j < n → v.val i j = ∑ l ∈ Finset.range n, a.val i l * b.val l j

/-- C40 is false of the code: two matrices of order 3, crossover point 1 (with the default, 64, it
is order 65). -/
theorem C40_refuted : ¬ StrassenIsProduct := by
  intro H
  have hsq : SquareCall 3 (.dense (Dense.new 3 3) : Mat ℤ) (.dense (Dense.new 3 3)) :=
    ⟨Dense.wf_new _ _, Dense.wf_new _ _, rfl, rfl, rfl, rfl⟩
  obtain ⟨m, v, hs⟩ := (C41_returns (k := 1) hsq (le_refl 9) true).reaches
  have h1 := (H 3 1 _ _ hsq rfl rfl m 9 v (le_refl 9) hs).1
  have h2 := (C40_too_small (k := 1) hsq (le_refl 9) (by
    rintro ⟨x, j, hx, e⟩
    cases j with
    | zero => omega
    | succ j =>
      rw [pow_succ, ← Nat.mul_assoc] at e
      omega) hs).1
  omega

/-- The default crossover point fails at order 65. -/
theorem C40_default {a b v : Mat ℤ} {m gas : Nat} (h : SquareCall 65 a b) (hg : 65 * 65 ≤ gas)
    (hs : Steps gas 64 true m (.start a b) (.ret v)) : v.rows = 64 ∧ v.cols = 64 := by
  obtain ⟨-, -, j, h1, h2, h3, h4⟩ := (C41_returns (k := 64) h hg true).returned m v hs
  have hj : j = 1 := by
    rcases j with - | - | j
    · simp at h1
    · rfl
    · have := h2 1 (by omega)
      simp at this
  subst hj
  exact ⟨h3, h4⟩

/-! ## Concrete cases -/

/-- `[[1,2],[3,4]]` -/
def strassenA : Mat ℤ := .dense ⟨2, 2, [[1, 2], [3, 4]]⟩
/-- `[[5,6],[7,8]]`, stored by rows. -/
def strassenB : Mat ℤ := .csr ⟨2, 2, [5, 6, 7, 8], [0, 1, 0, 1], [0, 2, 4]⟩

theorem strassenA_reach : Reach strassenA :=
  Reach.arrDense (data := [[1, 2], [3, 4]]) (c := 2)
    (by intro row hr; simp at hr; rcases hr with rfl | rfl <;> rfl) (by kernel_rfl)
theorem strassenB_reach : Reach strassenB :=
  Reach.arrCSR (data := [[5, 6], [7, 8]]) (c := 2)
    (by intro row hr; simp at hr; rcases hr with rfl | rfl <;> rfl) (by kernel_rfl)

theorem strassen_square : SquareCall 2 strassenA strassenB :=
  ⟨strassenA_reach.wf (by simp [strassenA, Mat.kind]), strassenB_reach.wf (by simp [strassenB, Mat.kind]), rfl, rfl, rfl, rfl⟩

/-- Order 2, crossover point 1: one level of workers. -/
example : AlwaysReturns 4 1 true (.start strassenA strassenB) (fun v => v.WF ∧ v.kind = .dense ∧ v.rows = 2 ∧
    v.cols = 2 ∧ ∀ i j, i < 2 → j < 2 → v.val i j = ∑ l ∈ Finset.range 2, strassenA.val i l * strassenB.val l j) :=
  C40_product_partial (k := 1) strassen_square (by decide) ⟨1, 1, by decide, rfl⟩
    (fun h => absurd h (by decide)) (fun h => absurd h (by decide))

/-- The numbers. -/
example : eval 4 1 2 strassenA strassenB = .ok (.dense ⟨2, 2, [[19, 22], [43, 50]]⟩) := by kernel_rfl

/-- Order 3, crossover point 1: the last row and column are lost. -/
example : eval 9 1 2 (.dense ⟨3, 3, [[1, 2, 0], [3, 4, 0], [0, 0, 1]]⟩ : Mat ℤ)
    (.dense ⟨3, 3, [[1, 0, 0], [0, 1, 0], [0, 0, 1]]⟩) = .ok (.dense ⟨2, 2, [[1, 2], [3, 4]]⟩) := by kernel_rfl

/-- Wrap-around integers: 100 · 100 in eight bits. -/
example : eval 4 1 2 (.dense ⟨2, 2, [[100, 0], [0, 1]]⟩ : Mat (SInt 8))
    (.dense ⟨2, 2, [[100, 0], [0, 1]]⟩) = .ok (.dense ⟨2, 2, [[16, 0], [0, 1]]⟩) := by kernel_rfl

/-- A mismatch panics, in the model as in the code. -/
example : Step 9 1 true (.start (.dense ⟨1, 2, [[1, 2]]⟩ : Mat ℤ) (.dense ⟨1, 2, [[1, 2]]⟩)) .crash :=
  .mismatch (by decide)

/-- Order 6, crossover point 1: rows and columns 2 and 5 have no part in the result. -/
example : kept 1 6 = [0, 1, 3, 4] := by
  rw [kept, kept, kept]; rfl

/-- A matrix of order 6 with a 1 in the cells (0,2), (1,1) and (4,3). -/
def strassenC : Mat ℤ := .csr ⟨6, 6, [1, 1, 1], [2, 1, 3], [0, 1, 2, 2, 2, 3, 3]⟩

theorem strassenC_reach : Reach strassenC :=
  Reach.arrCSR (data := [[0, 0, 1, 0, 0, 0], [0, 1, 0, 0, 0, 0], [0, 0, 0, 0, 0, 0], [0, 0, 0, 0, 0, 0],
    [0, 0, 0, 1, 0, 0], [0, 0, 0, 0, 0, 0]]) (c := 6)
    (by intro row hr; simp at hr; rcases hr with rfl | rfl | rfl | rfl | rfl <;> rfl) (by kernel_rfl)

/-- Its product with itself, as promised by `C40_exact` and as computed. -/
example : AlwaysReturns 36 1 true (.start strassenC strassenC) (fun v => v.WF ∧ v.kind = .dense ∧
      v.rows = (kept 1 6).length ∧ v.cols = (kept 1 6).length ∧
      ∀ i j (hi : i < (kept 1 6).length) (hj : j < (kept 1 6).length), v.val i j =
        ((kept 1 6).map (fun l => strassenC.val (kept 1 6)[i] l * strassenC.val l (kept 1 6)[j])).sum) :=
  C40_exact (k := 1) (strassenC_reach.wf (by simp [strassenC, Mat.kind])) (strassenC_reach.wf (by simp [strassenC, Mat.kind]))
    rfl rfl (by decide) (by decide) (by decide) (by decide)
example : eval 36 1 3 strassenC strassenC =
    .ok (.dense ⟨4, 4, [[0, 0, 0, 0], [0, 1, 0, 0], [0, 0, 0, 0], [0, 0, 0, 0]]⟩) := by kernel_rfl

/-- A left operand with two rows and four columns is refused with crossover point 1. -/
example : Step 9 1 true (.start (.dense (Dense.new 2 4) : Mat ℤ) (.dense (Dense.new 4 4))) .crash :=
  (C40_rejects (k := 1) (a := .dense (Dense.new 2 4)) (b := .dense (Dense.new 4 4)) (Dense.wf_new _ _) (Dense.wf_new _ _)
    (Or.inr ⟨by decide, Or.inl (by decide)⟩) _).2 rfl

/-- `[[1, 2], [3, 4]]` times the dense vector `(5, 6)` with crossover point 1, as promised by `C40_vector_exact` and as computed:
two columns instead of one. -/
example : AlwaysReturns 9 1 true (.start (.dense ⟨2, 2, [[1, 2], [3, 4]]⟩ : Mat ℤ) (.dvec ⟨2, [5, 6]⟩)) (fun v => v.WF ∧ v.kind = .dense ∧
      v.rows = (kept 1 2).length ∧ v.cols = (kept 1 2).length ∧
      ∀ i j (hi : i < (kept 1 2).length), j < (kept 1 2).length →
        v.val i j = ((kept 1 2).map (fun l => (Mat.dense ⟨2, 2, [[1, 2], [3, 4]]⟩ : Mat ℤ).val (kept 1 2)[i] l *
          (Mat.dvec ⟨2, [5, 6]⟩ : Mat ℤ).val l 0)).sum) :=
  C40_vector_exact (k := 1) ((Reach.arrDense (data := [[1, 2], [3, 4]]) (c := 2) (by unfold Rect; simp) (by kernel_rfl)).wf (by decide))
    ((Reach.arrDVec (data := [5, 6])).wf (by decide)) rfl rfl rfl (by decide) (by decide) (by decide)
example : eval 9 1 2 (.dense ⟨2, 2, [[1, 2], [3, 4]]⟩ : Mat ℤ) (.dvec ⟨2, [5, 6]⟩) =
    .ok (.dense ⟨2, 2, [[17, 17], [39, 39]]⟩) := by kernel_rfl

end GB
