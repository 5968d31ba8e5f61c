import Verif.Props.Multiply
import Verif.Props.Basics
import Verif.Props.Reduce

/-!
# C21, C32, C43, C44: exactly when
-/

namespace GB

set_option linter.unusedSectionVars false

open M

/-! ## C21 -/

section vxm
variable {T : Type} [GoRing T] [GoLawful T]

/-- Two descriptions of what one call leaves in `out` agree, if nothing was cancelled. -/
theorem Writes.det {T : Type} [GoNum T] {w : World T} {out : Ref} {f g : Nat → Nat → T} {res : Res T Unit}
    (hc : w.cancel = none) (hf : Writes w out f res) (hg : Writes w out g res) :
    ∀ i j, i < (w.heap out).rows → j < (w.heap out).cols → f i j = g i j := by
  obtain ⟨m', c, h1, h2, h3, h4, h5⟩ := hf
  obtain ⟨m'', c', k1, k2, k3, k4, k5⟩ := hg
  rw [h1] at k1
  injection k1 with _ k1
  have e : m' = m'' := by
    have := congrArg (fun w : World T => w.heap out) k1
    simpa using this
  subst e
  intro i j hi hj
  obtain ⟨-, e1, e2⟩ := h3
  rw [← (h4 hc).2 i j (by omega) (by omega), (k4 hc).2 i j (by omega) (by omega)]

/-- C21, exactly when: on a square dense matrix, `VectorMatrixMultiply(v, A)` delivers `v·A` if and only if
`v·A = A·v` for this `v`. -/
theorem C21_vxm_iff {w : World T} {a v out : Ref}
    (ha : (w.heap a).WF) (hv : (w.heap v).WF) (hout : (w.heap out).WF)
    (hka : (w.heap a).kind = .dense) (hkv : (w.heap v).kind = .dvec) (hko : (w.heap out).kind = .dvec)
    (hsq : (w.heap a).rows = (w.heap a).cols)
    (h1 : (w.heap v).rows = (w.heap a).rows) (h2 : (w.heap out).rows = (w.heap a).cols)
    (hne : v ≠ out) (hc : w.cancel = none) :
    Writes w out (fun j _ => ∑ l ∈ Finset.range (w.heap a).rows, (w.heap v).val l 0 * (w.heap a).val l j)
      (Ops.vectorMatrixMultiply v a .nil out w) ↔
    ∀ j, j < (w.heap a).cols → ∑ l ∈ Finset.range (w.heap a).rows, (w.heap v).val l 0 * (w.heap a).val l j =
      ∑ l ∈ Finset.range (w.heap a).rows, (w.heap v).val l 0 * (w.heap a).val j l := by
  have hx := C21_mxv (mask := .nil) ha hv hout hka hkv hko (h1.trans hsq) (h2.trans hsq.symm) trivial trivial hne
  have c2 : (w.heap out).cols = 1 := by cases hm : w.heap out <;> simp [hm, Mat.kind] at hko; rfl
  have hx' := hx.congr (new' := fun j _ => ∑ l ∈ Finset.range (w.heap a).rows, (w.heap v).val l 0 * (w.heap a).val j l) (by
    intro i j _ _
    simp only [Mask.bit, Bool.false_eq_true, if_false, hsq]
    exact Finset.sum_congr rfl (fun l _ => mul_comm _ _))
  constructor
  · intro h j hj
    exact Writes.det hc h hx' j 0 (by omega) (by omega)
  · intro h
    exact hx'.congr (fun i j hi _ => (h i (by omega)).symm)

/-- C21: a square dense matrix for which `VectorMatrixMultiply` delivers `v·A` for every `v` is symmetric,
and for a symmetric one it does. -/
theorem C21_symmetric_iff {w : World T} {a v out : Ref} {n : Nat}
    (ha : (w.heap a).WF) (hout : (w.heap out).WF)
    (hka : (w.heap a).kind = .dense) (hko : (w.heap out).kind = .dvec)
    (hr : (w.heap a).rows = n) (hcl : (w.heap a).cols = n) (ho : (w.heap out).rows = n)
    (hav : a ≠ v) (hne : v ≠ out) :
    (∀ x : List T, x.length = n →
      Writes (w.upd v (.dvec ⟨n, x⟩) none) out
        (fun j _ => ∑ l ∈ Finset.range n, x.getD l 0 * (w.heap a).val l j)
        (Ops.vectorMatrixMultiply v a .nil out (w.upd v (.dvec ⟨n, x⟩) none))) ↔
    ∀ i j, i < n → j < n → (w.heap a).val i j = (w.heap a).val j i := by
  have key : ∀ x : List T, x.length = n →
      (Writes (w.upd v (.dvec ⟨n, x⟩) none) out
        (fun j _ => ∑ l ∈ Finset.range n, x.getD l 0 * (w.heap a).val l j)
        (Ops.vectorMatrixMultiply v a .nil out (w.upd v (.dvec ⟨n, x⟩) none)) ↔
      ∀ j, j < n → ∑ l ∈ Finset.range n, x.getD l 0 * (w.heap a).val l j =
        ∑ l ∈ Finset.range n, x.getD l 0 * (w.heap a).val j l) := by
    intro x hx
    have ea := w.upd_ne (out := v) (Mat.dvec ⟨n, x⟩) none hav
    have eo := w.upd_ne (out := v) (Mat.dvec ⟨n, x⟩) none (Ne.symm hne)
    have ev := w.upd_out v (Mat.dvec ⟨n, x⟩) none
    have := C21_vxm_iff (w := w.upd v (.dvec ⟨n, x⟩) none) (a := a) (v := v) (out := out)
      (by rw [ea]; exact ha) (by rw [ev]; exact hx) (by rw [eo]; exact hout) (by rw [ea]; exact hka)
      (by rw [ev]; rfl) (by rw [eo]; exact hko) (by rw [ea, hr, hcl]) (by rw [ea, ev, hr]; rfl)
      (by rw [ea, eo, hcl, ho]) hne rfl
    have hval : ∀ l, l < n → (Mat.dvec ⟨n, x⟩ : Mat T).val l 0 = x.getD l 0 := by
      intro l hl
      exact Mat.val_dvec (s := ⟨n, x⟩) hx hl
    rw [ea, ev, hr, hcl] at this
    have e1 : ∀ g : Nat → T, ∑ l ∈ Finset.range n, (Mat.dvec ⟨n, x⟩ : Mat T).val l 0 * g l =
        ∑ l ∈ Finset.range n, x.getD l 0 * g l := fun g =>
      Finset.sum_congr rfl (fun l hl => by rw [hval l (Finset.mem_range.1 hl)])
    simp only [e1] at this
    exact this
  constructor
  · intro h i j hi hj
    have hl : ((List.replicate n (0 : T)).set i 1).length = n := by simp
    have := (key _ hl).1 (h _ hl) j hj
    have e1 : ∀ g : Nat → T, ∑ l ∈ Finset.range n, ((List.replicate n (0 : T)).set i 1).getD l 0 * g l = g i := by
      intro g
      rw [Finset.sum_eq_single i]
      · simp [List.getD_eq_getElem?_getD, hi]
      · intro l hl hli
        have : l < n := Finset.mem_range.1 hl
        simp [List.getD_eq_getElem?_getD, this, Ne.symm hli]
      · intro h; exact absurd (Finset.mem_range.2 hi) h
    rw [e1, e1] at this
    exact this
  · intro h x hx
    exact (key x hx).2 (fun j hj => Finset.sum_congr rfl (fun l hl => by
      rw [h l j (Finset.mem_range.1 hl) hj]))

/-- C21: on a matrix that is not square, a vector of the length `v·A` asks for is always rejected: the call
panics and changes nothing. -/
theorem C21_vxm_rectangular {w : World T} {a v out : Ref} {mask : Mask}
    (hsq : (w.heap a).rows ≠ (w.heap a).cols) (h1 : (w.heap v).rows = (w.heap a).rows) :
    Ops.vectorMatrixMultiply v a mask out w = .panic w :=
  Ops.multiply_panic (fun h => hsq (h1.symm.trans h.1))

/-- A matrix that is not symmetric and a vector it commutes with: `(1 1)` and `[[1 2] [1 2]]` give `(3 3)`
for `A·v` and `(2 4)` for `v·A`; `(1 0)` and `[[5 0] [0 7]]` give `(5 0)` for both. -/
example : (Ops.vectorMatrixMultiply 0 1 .nil 2 (World.of (T := ℤ) 9 [.dvec { l := 2, values := [1, 1] },
      .dense { r := 2, c := 2, data := [[1, 2], [1, 2]] }, .dvec { l := 2, values := [0, 0] }])).left 2 =
    some (.dvec { l := 2, values := [3, 3] }) ∧
    (Ops.vectorMatrixMultiply 0 1 .nil 2 (World.of (T := ℤ) 9 [.dvec { l := 2, values := [1, 0] },
      .dense { r := 2, c := 2, data := [[5, 0], [0, 7]] }, .dvec { l := 2, values := [0, 0] }])).left 2 =
    some (.dvec { l := 2, values := [5, 0] }) := ⟨by kernel_rfl, by kernel_rfl⟩

end vxm

/-! ## C32 -/

section max
variable {T : Type} [GoNum T] [GoStore T] [LinearOrder T] [GoOrd T]

/-- C32, exactly when: `ReduceMatrixToVector` delivers the column maxima if and only if every column has an
entry that is not negative. -/
theorem C32_iff {w : World T} {s : Ref} (hs : (w.heap s).WF) (hlt : s < w.next)
    (hg : (w.heap s).rows ≤ w.gas) (hc : w.cancel = none) :
    (∃ p w' v, Ops.reduceMatrixToVector s w = .ok p w' ∧ w'.heap p = .dvec v ∧ v.l = (w.heap s).cols ∧
      ∀ c, c < (w.heap s).cols → (∀ i, i < (w.heap s).rows → (w.heap s).val i c ≤ v.cell c) ∧
        ∃ i, i < (w.heap s).rows ∧ v.cell c = (w.heap s).val i c) ↔
    ∀ c, c < (w.heap s).cols → ∃ i, i < (w.heap s).rows ∧ 0 ≤ (w.heap s).val i c := by
  constructor
  · rintro ⟨p, w', v, h1, h2, -, h4⟩ c hcc
    obtain ⟨w'', v', k1, -, k3, -, k5⟩ := C32_max_with_zero hs hlt hg hc
    rw [h1] at k1
    injection k1 with e1 e2
    subst e1 e2
    rw [h2] at k3
    injection k3 with e3
    subst e3
    obtain ⟨i, hi, hv⟩ := (h4 c hcc).2
    exact ⟨i, hi, hv ▸ (k5 c hcc).2.1⟩
  · intro hn
    obtain ⟨w', v, h1, h2, h3, h4⟩ := C32_max_partial hs hlt hg hc hn
    exact ⟨_, w', v, h1, h2, h3, h4⟩

end max

/-! ## C43 -/

section resize
variable {T : Type} [GoNum T]

/-- C43, exactly when: `ReSize(n)` is right if and only if it does not shrink the vector or halves it. -/
theorem C43_iff {s : DVec T} (h : (Mat.dvec s).WF) (n : Nat) : ReSizeCorrect s n ↔ s.l ≤ n ∨ 2 * n = s.l := by
  constructor
  · rintro ⟨s', h1, h2, -⟩
    by_cases hn : s.l ≤ n
    · exact .inl hn
    · obtain ⟨s'', k1, -⟩ := C43_shrink h (Nat.lt_of_not_le hn)
      rw [h1] at k1
      injection k1 with k1
      have : n = s.l - n := congrArg Prod.snd k1
      right; omega
  · exact C43_resize_partial h

end resize

/-! ## C44 -/

/-- C44, exactly when: `Element` tells whether the value is not zero, in every reachable matrix, if and only
if no value of the element type is negative. -/
theorem C44_iff {T : Type} [GoNum T] [GoStore T] [LinearOrder T] [GoOrd T] :
    ElementIsNonzero T ↔ ∀ v : T, 0 ≤ v := by
  constructor
  · intro h v
    by_contra hv
    have hv : v < 0 := not_le.1 hv
    obtain ⟨b, x, h1, h2, h3⟩ := h (.dvec (DVec.fromArray [v])) 0 0 (Reach.arrDVec _) Nat.one_pos Nat.one_pos
    obtain ⟨b', x', k1, k2, k3⟩ := C44_element_partial (Reach.arrDVec [v]) (i := 0) (j := 0) Nat.one_pos Nat.one_pos
    have e : (Mat.dvec (DVec.fromArray [v])).at' (0 : Nat) (0 : Nat) = .ok (v, .dvec (DVec.fromArray [v])) := rfl
    rw [e] at h2 k2
    injection h2 with h2; injection h2 with h2 _; injection k2 with k2; injection k2 with k2 _
    subst h2 k2
    rw [h1] at k1
    injection k1 with k1; injection k1 with k1 _
    subst k1
    exact absurd (k3.1 (h3.2 (ne_of_lt hv))) (not_lt.2 hv.le)
  · intro h m i j hm hi hj
    obtain ⟨b, v, h1, h2, h3⟩ := C44_element_partial hm hi hj
    exact ⟨b, v, h1, h2, h3.trans ⟨ne_of_gt, fun h' => lt_of_le_of_ne (h v) (Ne.symm h')⟩⟩

/-- Both sides occur: `uint8` has no negative value, `int8` has. -/
example : (∀ v : USInt 8, 0 ≤ v) ∧ ¬ ∀ v : SInt 8, 0 ≤ v := by
  constructor
  · exact (C44_iff).1 (C44_unsigned 8)
  · intro h
    exact absurd (h (-1)) (by decide)

end GB
