import Verif.Lemmas.Reenter
import Verif.Props.Pointer
import Verif.KernelRfl

/-!
# C107: `Update` with functions that use the matrix they are called for

The claim: `m.Update(i, j, f)` is `v := m.At(i, j); x := f(v); m.Set(i, j, x)`, whatever `f` does with `m`. It holds for
dense matrices, dense vectors and sparse vectors. For CSR and CSC matrices it is false, and it is stated exactly when it
holds.
-/

namespace GB

set_option linter.unusedSectionVars false

variable {T : Type} [GoNum T] [GoStore T]

/-- `updateBy` is `Update` called with `f`: outside the matrix it panics and `f` is not called; inside `f` is called once,
with what `At` returns, and the call ends in a panic (or does not end) if `f` does, the matrix being as `f` left it. When
`f` returns `x` and leaves a matrix `t` such that `good t`, the call returns and has left what `Set(i, j, x)` makes of `t`. -/
structure AtThenSet {S : Type} (updateBy : Int → Int → Fn S T → Out Unit × S) (s : S) (r c : Nat)
    (at' : Nat → Nat → Out T) (set : S → Nat → Nat → T → Out S) (good : Nat → Nat → S → Prop) : Prop where
  outside : ∀ (i j : Int) f, ¬ (0 ≤ i ∧ i < r ∧ 0 ≤ j ∧ j < c) → updateBy i j f = (.panic, s)
  inside : ∀ i j : Nat, i < r → j < c → ∃ v, at' i j = .ok v ∧ ∀ f : Fn S T,
    (∀ t, f v s = (.panic, t) → updateBy i j f = (.panic, t)) ∧
    (∀ t, f v s = (.hang, t) → updateBy i j f = (.hang, t)) ∧
    ∀ x t, f v s = (.ok x, t) → good i j t → ∃ u, set t i j x = .ok u ∧ updateBy i j f = (.ok (), u)

theorem outside_iff {i j : Int} {r c : Nat} (h : ¬ (0 ≤ i ∧ i < r ∧ 0 ≤ j ∧ j < c)) :
    inRange i r = false ∨ inRange j c = false := by
  by_contra hn
  simp only [not_or, Bool.not_eq_false, inRange_iff] at hn
  exact h ⟨hn.1.1, hn.1.2, hn.2.1, hn.2.2⟩

theorem inRange_zero_one : inRange (0 : Int) 1 = true := rfl

/-! ## Dense matrices, dense vectors and sparse vectors -/

/-- C107 for dense matrices: the function may do whatever leaves the matrix one of its shape (except `Clear`, see
`Dense.updateBy`). -/
theorem C107_dense {s : Dense T} (h : Reach (.dense s)) :
    AtThenSet (T := T) s.updateBy s s.r s.c (fun i j => s.at' i j) (fun t i j x => t.set i j x)
      (fun _ _ t => Reach (.dense t) ∧ t.r = s.r ∧ t.c = s.c) where
  outside i j f hn := by
    unfold Dense.updateBy
    rcases outside_iff hn with h | h <;> simp [h]
  inside i j hi hj := by
    have hw : s.WF := h.inv
    refine ⟨_, Dense.at_ok hw hi hj, fun f => ?_⟩
    obtain ⟨row, h1, h2, h3, h4⟩ := Dense.row_ok hw hi
    have hl : j < row.length := by omega
    have hread : (do let row ← idx s.data i; idx row j) = Out.ok (s.cell i j) := by
      have := Dense.at_ok hw hi hj
      simpa [Dense.at', hi, hj] using this
    have heq : s.updateBy i j f = callback (.ok (s.cell i j)) f (fun x t => do
        let row ← idx t.data i
        let row' ← setIdx row j x
        let data' ← setIdx t.data i row'
        .ok { t with data := data' }) s := by
      unfold Dense.updateBy
      simp only [inRange_natCast, hi, hj, decide_true, if_true, Int.toNat_natCast]
      rw [hread]
    rw [heq]
    refine ⟨fun t ht => callback_panic ht, fun t ht => callback_hang ht, fun x t ht hg => ?_⟩
    obtain ⟨hg, hr, hc⟩ := hg
    obtain ⟨u, hu, -⟩ := Dense.set_ok (s := t) hg.inv (i := i) (j := j) (by omega) (by omega) x
    refine ⟨u, hu, callback_ok ht ?_⟩
    rw [← hu]
    simp [Dense.set, hr, hc, hi, hj]

/-- C107 for dense vectors. -/
theorem C107_dense_vector {s : DVec T} (h : Reach (.dvec s)) :
    AtThenSet (T := T) s.updateBy s s.l 1 (fun i j => s.at' i j) (fun t i j x => t.set i j x)
      (fun _ _ t => Reach (.dvec t) ∧ t.l = s.l) where
  outside i j f hn := by
    unfold DVec.updateBy
    rcases outside_iff hn with h | h <;> simp [h]
  inside i j hi hj := by
    obtain rfl : j = 0 := by omega
    have hw : s.WF := h.inv
    have hat := DVec.atVec_ok hw hi
    refine ⟨s.cell i, hat, fun f => ?_⟩
    have heq : s.updateBy i (0 : Nat) f = callback (.ok (s.cell i)) f (fun x t => t.setVec i x) s := by
      unfold DVec.updateBy
      simp only [inRange_natCast, hi, Nat.zero_lt_one, decide_true, if_true, hat]
    rw [heq]
    refine ⟨fun t ht => callback_panic ht, fun t ht => callback_hang ht, fun x t ht hg => ?_⟩
    obtain ⟨hg, hl⟩ := hg
    have hu := DVec.setVec_ok (s := t) hg.inv (i := i) (by omega) x
    exact ⟨_, by simpa [DVec.set, hl, hi, inRange_zero_one] using hu, callback_ok ht hu⟩

/-- C107 for sparse vectors in every reachable state. -/
theorem C107_sparse_vector {s : SVec T} (h : Reach (.svec s)) :
    AtThenSet (T := T) s.updateBy s s.l 1 (fun i j => (s.at' i j) >>= fun p => .ok p.1) (fun t i j x => t.set i j x)
      (fun _ _ t => Reach (.svec t) ∧ t.l = s.l) where
  outside i j f hn := by
    unfold SVec.updateBy
    rcases outside_iff hn with h | h <;> simp [h]
  inside i j hi hj := by
    obtain rfl : j = 0 := by omega
    obtain ⟨v, hat, hst⟩ := h.weak.at_self hi
    refine ⟨v, by simp [SVec.at', SVec.updateWith, hi, hat, hst, inRange_zero_one], fun f => ?_⟩
    have heq : s.updateBy i (0 : Nat) f = callback (.ok v) f (fun x t => t.setVec i x) s := by
      unfold SVec.updateBy
      simp only [inRange_natCast, hi, Nat.zero_lt_one, decide_true, if_true, hat]
    rw [heq]
    refine ⟨fun t ht => callback_panic ht, fun t ht => callback_hang ht, fun x t ht hg => ?_⟩
    obtain ⟨hg, hl⟩ := hg
    obtain ⟨u, hu, -⟩ := hg.weak.setVec_ok (i := i) (by omega) x
    exact ⟨u, by simpa [SVec.set, hl, hi, inRange_zero_one] using hu, callback_ok ht hu⟩

/-! ## Compressed matrices -/

/-- The cell `(i, j)` is zero in both matrices or in neither, and as many cells before it are non-zero in the one as in the
other. `before` is the order in which the format keeps its cells. -/
def SamePlace (r c : Nat) (before : Nat → Nat → Nat × Nat → Bool) (g g' : Nat → Nat → T) (i j : Nat) : Prop :=
  rank r c g' (before i j) = rank r c g (before i j) ∧ isZero (g' i j) = isZero (g i j)

theorem rank_congr {r c : Nat} {g g' : Nat → Nat → T} {t : Nat × Nat → Bool}
    (h : ∀ a b, a < r → b < c → isZero (g a b) = isZero (g' a b)) : rank r c g t = rank r c g' t := by
  unfold rank
  congr 1
  apply List.filter_congr
  intro p hp
  obtain ⟨h1, h2⟩ := (mem_cells (p := p)).1 hp
  rw [h p.1 p.2 h1 h2]

theorem CSR.look_rank {s : CSR T} (h : Reach (.csr s)) {i j : Nat} (hi : i < s.r) (hj : j < s.c) :
    s.look i j = .ok (rank s.r s.c (Mat.val (.csr s)) (rowBefore i j),
      if isZero (Mat.val (.csr s) i j) then none else some (Mat.val (.csr s) i j)) ∧
    rank s.r s.c (Mat.val (.csr s)) (rowBefore i j) + (if isZero (Mat.val (.csr s) i j) then 0 else 1) ≤ s.values.length := by
  obtain ⟨g, s', A, B, h1, h2, -, h4, -, -⟩ := C53_csr_pointer h hi hj (fun v => v)
  obtain ⟨rows, hr⟩ := h.inv
  obtain ⟨v, h5, -⟩ := s.updateRP_look hi hj (fun v => ((), v)) _ _ _ _ h2
  obtain ⟨p, h6, h7⟩ := hr.look_ok (j := j) hi
  rw [h5] at h6
  obtain ⟨rfl, rfl⟩ := h6
  have hval : ∀ a b, a < s.r → b < s.c → Mat.val (.csr s) a b = g a b := by
    intro a b ha hb
    simp [Mat.val, Mat.at', h1 a b ha hb]
  have hc : Mat.val (.csr s) i j = cellOf rows i j := by
    simp [Mat.val, Mat.at', hr.at_ok hi hj]
  rw [hc, rank_congr (g' := g) (fun a b ha hb => by rw [hval a b ha hb]), ← h4]
  exact ⟨h5, h7⟩

theorem CSC.look_rank {s : CSC T} (h : Reach (.csc s)) {i j : Nat} (hi : i < s.r) (hj : j < s.c) :
    s.look i j = .ok (rank s.r s.c (Mat.val (.csc s)) (colBefore i j),
      if isZero (Mat.val (.csc s) i j) then none else some (Mat.val (.csc s) i j)) ∧
    rank s.r s.c (Mat.val (.csc s)) (colBefore i j) + (if isZero (Mat.val (.csc s) i j) then 0 else 1) ≤ s.values.length := by
  obtain ⟨g, s', A, B, h1, h2, -, h4, -, -⟩ := C53_csc_pointer h hi hj (fun v => v)
  obtain ⟨rows, hr⟩ := h.inv
  rw [CSC.updateRP_eq] at h2
  cases hm : (mir s).updateRP j i (fun v => ((), v)) with
  | panic => simp [hm] at h2
  | hang => simp [hm] at h2
  | ok x =>
    obtain ⟨b, t, p, q⟩ := x
    simp only [hm, Out.map_ok, Out.ok.injEq, Prod.mk.injEq] at h2
    obtain ⟨-, -, hp, -⟩ := h2
    obtain ⟨v, h5, -⟩ := (mir s).updateRP_look (i := j) (j := i) hj hi (fun v => ((), v)) _ _ _ _ hm
    obtain ⟨p', h6, h7⟩ := CSR.Rep.look_ok (s := mir s) hr (i := j) (j := i) hj
    rw [h5] at h6
    obtain ⟨rfl, rfl⟩ := h6
    have hval : ∀ a b, a < s.r → b < s.c → Mat.val (.csc s) a b = g a b := by
      intro a b ha hb
      simp [Mat.val, Mat.at', h1 a b ha hb]
    have hc : Mat.val (.csc s) i j = cellOf rows j i := by
      simp [Mat.val, Mat.at', CSC.Rep.at_ok hr hi hj]
    rw [hc, rank_congr (g' := g) (fun a b ha hb => by rw [hval a b ha hb]), ← h4, ← hp, CSC.look_eq]
    exact ⟨h5, h7⟩

/-- C107 for CSR matrices: right when the function leaves the cell at its place. -/
theorem C107_csr_partial {s : CSR T} (h : Reach (.csr s)) :
    AtThenSet (T := T) s.updateBy s s.r s.c (fun i j => (s.at' i j) >>= fun p => .ok p.1) (fun t i j x => t.set i j x)
      (fun i j t => Reach (.csr t) ∧ t.r = s.r ∧ t.c = s.c ∧
        SamePlace s.r s.c rowBefore (Mat.val (.csr s)) (Mat.val (.csr t)) i j) where
  outside i j f hn := by
    unfold CSR.updateBy
    rcases outside_iff hn with h | h <;> simp [h]
  inside i j hi hj := by
    obtain ⟨hl, -⟩ := CSR.look_rank h hi hj
    have hat := Mat.at_ok (h.wf (by simp [Mat.kind])) (i := i) (j := j) hi hj
    refine ⟨(Mat.val (.csr s) i j), ?_, fun f => ?_⟩
    · simp only [Mat.at'] at hat
      cases hx : s.at' i j with
      | ok a => rw [hx] at hat; simp at hat; simp [hat.1]
      | panic => rw [hx] at hat; simp at hat
      | hang => rw [hx] at hat; simp at hat
    · rw [CSR.updateBy_eq hi hj hl]
      have hv : (if isZero (Mat.val (.csr s) i j) then none else some (Mat.val (.csr s) i j)).getD 0 =
          Mat.val (.csr s) i j := by
        obtain ⟨rows, hr⟩ := h.inv
        have hc : Mat.val (.csr s) i j = cellOf rows i j := by simp [Mat.val, Mat.at', hr.at_ok hi hj]
        have := hr.norm_cell (i := i) (j := j) hi
        rw [← hc] at this
        unfold norm at this
        split
        · rename_i hz; rw [if_pos hz] at this; exact this
        · rfl
      rw [hv]
      refine ⟨fun t ht => callback_panic ht, fun t ht => callback_hang ht, fun x t ht hg => ?_⟩
      obtain ⟨hg, hr, hc, hs1, hs2⟩ := hg
      obtain ⟨rows, hR⟩ := hg.inv
      obtain ⟨hlt, -⟩ := CSR.look_rank hg (i := i) (j := j) (by omega) (by omega)
      obtain ⟨u, hu, hf⟩ := hR.set_finish (by omega) (by omega) hlt x
      refine ⟨u, hu, callback_ok ht ?_⟩
      rw [← hf, hr, hc, hs1, hs2]
      congr 1
      cases isZero (Mat.val (.csr s) i j) <;> rfl

/-- C107 for CSC matrices: the same, column by column. -/
theorem C107_csc_partial {s : CSC T} (h : Reach (.csc s)) :
    AtThenSet (T := T) s.updateBy s s.r s.c (fun i j => (s.at' i j) >>= fun p => .ok p.1) (fun t i j x => t.set i j x)
      (fun i j t => Reach (.csc t) ∧ t.r = s.r ∧ t.c = s.c ∧
        SamePlace s.r s.c colBefore (Mat.val (.csc s)) (Mat.val (.csc t)) i j) where
  outside i j f hn := by
    unfold CSC.updateBy
    rcases outside_iff hn with h | h <;> simp [h]
  inside i j hi hj := by
    obtain ⟨hl, -⟩ := CSC.look_rank h hi hj
    have hat := Mat.at_ok (h.wf (by simp [Mat.kind])) (i := i) (j := j) hi hj
    refine ⟨(Mat.val (.csc s) i j), ?_, fun f => ?_⟩
    · simp only [Mat.at'] at hat
      cases hx : s.at' i j with
      | ok a => rw [hx] at hat; simp at hat; simp [hat.1]
      | panic => rw [hx] at hat; simp at hat
      | hang => rw [hx] at hat; simp at hat
    · rw [CSC.updateBy_eq hi hj hl]
      have hv : (if isZero (Mat.val (.csc s) i j) then none else some (Mat.val (.csc s) i j)).getD 0 =
          Mat.val (.csc s) i j := by
        obtain ⟨rows, hr⟩ := h.inv
        have hc : Mat.val (.csc s) i j = cellOf rows j i := by simp [Mat.val, Mat.at', CSC.Rep.at_ok hr hi hj]
        have := CSR.Rep.norm_cell (s := CSC.mir s) hr (i := j) (j := i) hj
        rw [← hc] at this
        unfold norm at this
        split
        · rename_i hz; rw [if_pos hz] at this; exact this
        · rfl
      rw [hv]
      refine ⟨fun t ht => callback_panic ht, fun t ht => callback_hang ht, fun x t ht hg => ?_⟩
      obtain ⟨hg, hr, hc, hs1, hs2⟩ := hg
      obtain ⟨rows, hR⟩ := hg.inv
      obtain ⟨hlt, -⟩ := CSC.look_rank hg (i := i) (j := j) (by omega) (by omega)
      obtain ⟨u, hu, hf⟩ := CSC.set_finish hR (by omega) (by omega) hlt x
      refine ⟨u, hu, callback_ok ht ?_⟩
      rw [← hf, hr, hc, hs1, hs2]
      congr 1
      cases isZero (Mat.val (.csc s) i j) <;> rfl

/-- C107 for CSR matrices, exactly when: a function that leaves the matrix `t` is right, whatever it answers, if and only if
`t` has the cell at the place it had. (There are two different non-zero values in every number type of Go.) -/
theorem C107_csr_iff {s t : CSR T} (hs : Reach (.csr s)) (ht : Reach (.csr t)) (hr : t.r = s.r) (hc : t.c = s.c)
    {i j : Nat} (hi : i < s.r) (hj : j < s.c) {x y : T} (hx : isZero x = false) (hy : isZero y = false) (hxy : x ≠ y) :
    (∀ z, ∃ u, t.set i j z = .ok u ∧ s.updateBy i j (fun _ _ => (.ok z, t)) = (.ok (), u)) ↔
      SamePlace s.r s.c rowBefore (Mat.val (.csr s)) (Mat.val (.csr t)) i j := by
  constructor
  · intro h
    obtain ⟨hl, -⟩ := CSR.look_rank hs hi hj
    obtain ⟨hlt, hb⟩ := CSR.look_rank ht (i := i) (j := j) (by omega) (by omega)
    obtain ⟨rows, hR⟩ := ht.inv
    have := CSR.finish_inj (t := t) (i := i) (j := j) (p := rank s.r s.c (Mat.val (.csr s)) (rowBefore i j))
      (q := rank t.r t.c (Mat.val (.csr t)) (rowBefore i j)) (a := !isZero (Mat.val (.csr s) i j))
      (b := !isZero (Mat.val (.csr t) i j)) hx hy hxy
      (by cases hz : isZero (Mat.val (.csr t) i j) <;> simp [hz] at hb ⊢ <;> omega) (by
        intro z
        obtain ⟨u, hu, hU⟩ := h z
        obtain ⟨u', hu', hf⟩ := hR.set_finish (i := i) (j := j) (by omega) (by omega) hlt z
        rw [hu] at hu'
        injection hu' with hu'
        subst hu'
        rw [CSR.updateBy_eq hi hj hl] at hU
        rw [callback_eq rfl] at hU
        refine ⟨u, ?_, ?_⟩
        · rw [← hU]; congr 1; cases isZero (Mat.val (.csr s) i j) <;> rfl
        · rw [← hf]; congr 1; cases isZero (Mat.val (.csr t) i j) <;> rfl)
    refine ⟨?_, ?_⟩
    · rw [← hr, ← hc, ← this.1, hr, hc]
    · have := this.2
      cases h1 : isZero (Mat.val (.csr s) i j) <;> cases h2 : isZero (Mat.val (.csr t) i j) <;> simp [h1, h2] at this ⊢
  · intro h z
    obtain ⟨v, -, hin⟩ := (C107_csr_partial hs).inside i j hi hj
    exact (hin (fun _ _ => (.ok z, t))).2.2 z t rfl ⟨ht, hr, hc, h⟩

/-- C107 for CSC matrices, exactly when. -/
theorem C107_csc_iff {s t : CSC T} (hs : Reach (.csc s)) (ht : Reach (.csc t)) (hr : t.r = s.r) (hc : t.c = s.c)
    {i j : Nat} (hi : i < s.r) (hj : j < s.c) {x y : T} (hx : isZero x = false) (hy : isZero y = false) (hxy : x ≠ y) :
    (∀ z, ∃ u, t.set i j z = .ok u ∧ s.updateBy i j (fun _ _ => (.ok z, t)) = (.ok (), u)) ↔
      SamePlace s.r s.c colBefore (Mat.val (.csc s)) (Mat.val (.csc t)) i j := by
  constructor
  · intro h
    obtain ⟨hl, -⟩ := CSC.look_rank hs hi hj
    obtain ⟨hlt, hb⟩ := CSC.look_rank ht (i := i) (j := j) (by omega) (by omega)
    obtain ⟨rows, hR⟩ := ht.inv
    have := CSR.finish_inj (t := CSC.mir t) (i := j) (j := i) (p := rank s.r s.c (Mat.val (.csc s)) (colBefore i j))
      (q := rank t.r t.c (Mat.val (.csc t)) (colBefore i j)) (a := !isZero (Mat.val (.csc s) i j))
      (b := !isZero (Mat.val (.csc t) i j)) hx hy hxy
      (by
        show _ ≤ t.values.length
        cases hz : isZero (Mat.val (.csc t) i j) <;> simp [hz] at hb ⊢ <;> omega) (by
        intro z
        obtain ⟨u, hu, hU⟩ := h z
        obtain ⟨u', hu', hf⟩ := CSC.set_finish hR (i := i) (j := j) (by omega) (by omega) hlt z
        rw [hu] at hu'
        injection hu' with hu'
        subst hu'
        rw [CSC.updateBy_eq hi hj hl] at hU
        rw [callback_eq rfl] at hU
        rw [CSC.finish_eq] at hU hf
        have conv : ∀ {a : Out (CSR T)}, CSC.unmir <$> a = .ok u → a = .ok (CSC.mir u) := by
          intro a ha
          cases a with
          | ok a => simp at ha; rw [← ha]; rfl
          | panic => simp at ha
          | hang => simp at ha
        refine ⟨CSC.mir u, ?_, ?_⟩
        · rw [← conv hU]; congr 1; cases isZero (Mat.val (.csc s) i j) <;> rfl
        · rw [← conv hf]; congr 1; cases isZero (Mat.val (.csc t) i j) <;> rfl)
    refine ⟨?_, ?_⟩
    · rw [← hr, ← hc, ← this.1, hr, hc]
    · have := this.2
      cases h1 : isZero (Mat.val (.csc s) i j) <;> cases h2 : isZero (Mat.val (.csc t) i j) <;> simp [h1, h2] at this ⊢
  · intro h z
    obtain ⟨v, -, hin⟩ := (C107_csc_partial hs).inside i j hi hj
    exact (hin (fun _ _ => (.ok z, t))).2.2 z t rfl ⟨ht, hr, hc, h⟩

/-- C107: the place of a cell is kept by every function that makes no cell zero and no zero cell non-zero, hence by one that
only reads. -/
theorem C107_pattern {r c : Nat} (before : Nat → Nat → Nat × Nat → Bool) {g g' : Nat → Nat → T} {i j : Nat} (hi : i < r)
    (hj : j < c) (h : ∀ a b, a < r → b < c → isZero (g' a b) = isZero (g a b)) : SamePlace r c before g g' i j :=
  ⟨rank_congr h, h i j hi hj⟩

/-- C107: for a function of the old value this is the `Update` of the rest of the model. -/
theorem C107_plain {s : CSR T} (h : Reach (.csr s)) {t : CSC T} (k : Reach (.csc t)) (f : T → T) :
    (∀ i j : Nat, i < s.r → j < s.c → ∃ u, s.update i j f = .ok u ∧ s.updateBy i j (fun v m => (.ok (f v), m)) = (.ok (), u)) ∧
    (∀ i j : Nat, i < t.r → j < t.c → ∃ u, t.update i j f = .ok u ∧ t.updateBy i j (fun v m => (.ok (f v), m)) = (.ok (), u)) := by
  constructor
  · intro i j hi hj
    obtain ⟨g, u, A, B, -, h2, h3, -⟩ := C53_csr_pointer h hi hj f
    obtain ⟨v, h4, -, h5⟩ := s.updateRP_look hi hj (fun v => ((), f v)) _ _ _ _ h2
    exact ⟨u, h3, by rw [CSR.updateBy_eq hi hj h4]; exact callback_ok rfl h5⟩
  · intro i j hi hj
    obtain ⟨g, u, A, B, -, h2, h3, -⟩ := C53_csc_pointer k hi hj f
    rw [CSC.updateRP_eq] at h2
    cases hm : (CSC.mir t).updateRP j i (fun v => ((), f v)) with
    | panic => simp [hm] at h2
    | hang => simp [hm] at h2
    | ok x =>
      obtain ⟨b, u', p, q⟩ := x
      simp only [hm, Out.map_ok, Out.ok.injEq, Prod.mk.injEq] at h2
      obtain ⟨-, rfl, -, -⟩ := h2
      obtain ⟨v, h4, -, h5⟩ := (CSC.mir t).updateRP_look (i := j) (j := i) hj hi (fun v => ((), f v)) _ _ _ _ hm
      rw [← CSC.look_eq] at h4
      exact ⟨_, h3, by
        rw [CSC.updateBy_eq hi hj h4]
        refine callback_ok rfl ?_
        rw [CSC.finish_eq, h5]; rfl⟩

/-! ## Refutations and concrete cases -/

/-- `[[0, 0], [0, 5]]`. -/
def lateCSR : CSR ℤ := ⟨2, 2, [5], [1], [0, 0, 1]⟩

/-- `[[0, 0], [0, 5]]`. -/
def lateCSC : CSC ℤ := ⟨2, 2, [5], [1], [0, 0, 1]⟩

theorem lateCSR_reach : Reach (.csr lateCSR) :=
  Reach.call (m := .csr (CSR.new 2 2)) (.set 1 1 5) (Reach.newCSR 2 2) (by rfl)

theorem lateCSC_reach : Reach (.csc lateCSC) :=
  Reach.call (m := .csc (CSC.new 2 2)) (.set 1 1 5) (Reach.newCSC 2 2) (by rfl)

/-- `func(v int) int { m.Set(r, c, y); return v + 1 }` on a CSR matrix. -/
def setThenInc (r c : Int) (y : ℤ) : Fn (CSR ℤ) ℤ := fun v m =>
  match m.set r c y with
  | .ok t => (.ok (v + 1), t)
  | _ => (.panic, m)

/-- `func(v int) int { m.Set(r, c, y); return v + 1 }` on a CSC matrix. -/
def setThenIncC (r c : Int) (y : ℤ) : Fn (CSC ℤ) ℤ := fun v m =>
  match m.set r c y with
  | .ok t => (.ok (v + 1), t)
  | _ => (.panic, m)

/-- C107 is false for CSR: on `[[0, 0], [0, 5]]`, `m.Update(1, 1, func(v int) int { m.Set(0, 0, 1); return v + 1 })` leaves
`[[6, 0], [0, 5]]`; with `m.Set(1, 1, 0)` in the function the call panics although `m.Set` would not. -/
theorem C107_refuted :
    Reach (.csr lateCSR) ∧
    (∃ u, lateCSR.updateBy 1 1 (setThenInc 0 0 1) = (.ok (), u) ∧ u.at' 0 0 = .ok (6, u) ∧ u.at' 1 1 = .ok (5, u)) ∧
    (∃ u, lateCSR.updateBy 1 1 (setThenInc 1 1 0) = (.panic, u)) :=
  ⟨lateCSR_reach, ⟨_, rfl, rfl, rfl⟩, ⟨_, rfl⟩⟩

/-- C107 is false for CSC in the same way. -/
theorem C107_refuted_csc :
    Reach (.csc lateCSC) ∧
    (∃ u, lateCSC.updateBy 1 1 (setThenIncC 0 0 1) = (.ok (), u) ∧ u.at' 0 0 = .ok (6, u) ∧ u.at' 1 1 = .ok (5, u)) ∧
    (∃ u, lateCSC.updateBy 1 1 (setThenIncC 1 1 0) = (.panic, u)) :=
  ⟨lateCSC_reach, ⟨_, rfl, rfl, rfl⟩, ⟨_, rfl⟩⟩

/-- A function that writes behind the cell: right. -/
example : ∃ u, lateCSR.updateBy 0 1 (setThenInc 1 0 7) = (.ok (), u) ∧ u.at' 0 1 = .ok (1, u) ∧ u.at' 1 0 = .ok (7, u) ∧
    u.at' 1 1 = .ok (5, u) := ⟨_, rfl, rfl, rfl, rfl⟩

/-- The hypotheses of `C107_csr_partial` hold there: the function writes behind the cell. -/
example : SamePlace 2 2 rowBefore (Mat.val (.csr lateCSR)) (Mat.val (.csr ⟨2, 2, [7, 5], [0, 1], [0, 0, 2]⟩)) 0 1 := by
  constructor <;> rfl

/-- On a dense matrix the same function does what it says: `[[1, 0], [0, 6]]`. -/
example : (⟨2, 2, [[0, 0], [0, 5]]⟩ : Dense ℤ).updateBy 1 1 (fun v m =>
    match m.set 0 0 1 with
    | .ok t => (.ok (v + 1), t)
    | _ => (.panic, m)) = (.ok (), ⟨2, 2, [[1, 0], [0, 6]]⟩) := rfl

/-- A function that writes and then panics: what it wrote stays, the cell is as before. -/
example : (⟨3, [5, 7], [0, 1]⟩ : SVec ℤ).updateBy 1 0 (fun _ m =>
    match m.set 0 0 9 with
    | .ok t => (.panic, t)
    | _ => (.panic, m)) = (.panic, ⟨3, [9, 7], [0, 1]⟩) := rfl

end GB
