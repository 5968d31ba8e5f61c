import Verif.Lemmas.SVecWeakOps
import Verif.Props.Arith
import Verif.SpecOps

/-!
# C15, C16, C17 for sparse vectors in every reachable state
-/

namespace GB

set_option linter.unusedSectionVars false
set_option linter.unusedSimpArgs false

open M Meth

section general
variable {T : Type} [GoNum T] [GoStore T]

/-- C15 for a sparse vector in any reachable state: `Transpose()` returns a new dense `1 × l` matrix holding at
`(0, i)` the last value `Enumerate` of the operand delivers for position `i`, zero if it delivers none. -/
theorem C15_sparse_vector {w : World T} {s : Ref} {v : SVec T} (hv : w.heap s = .svec v) (hs : Reach (w.heap s))
    (hlt : s < w.next) (hgas : (w.heap s).nvalues ≤ w.gas) :
    ∃ es, Yields SVec.Iter.hasNext v.step v.iter es ∧
      Returns w .dense 1 v.l (fun _ i => lastWrite 0 i (es.map (fun e => (e.1, e.2.2)))) (Meth.transpose s w) := by
  rw [hv] at hs hgas
  have hw := hs.weak
  refine ⟨_, hw.yields, ?_⟩
  have e : (v.pairs.map (fun e => (e.1, 0, e.2))).map (fun e : Nat × Nat × T => (e.1, e.2.2)) = v.pairs := by
    rw [List.map_map]; exact List.map_id _
  rw [e]
  have o1 : transOut (w.heap s) = .dense (Dense.new 1 v.l) := by rw [hv]; rfl
  have o2 := transOut_ok (w.heap s)
  rw [o1] at o2
  obtain ⟨o2, o3, o4, o5, o6⟩ := o2
  refine returns_of_writes (m := .dense (Dense.new 1 v.l)) (y := Ops.transpose s .nil w.next) ?_ ?_ rfl rfl rfl
  · rw [← o1]; rfl
  · refine hw.transpose_ok (by rw [fresh_ne _ _ hlt, hv]) (Nat.ne_of_lt hlt) rfl hgas ?_ ?_ ?_ ?_ ?_
    · rw [fresh_next]; exact o2
    · rw [fresh_next]; exact o5
    · rw [fresh_next]; rfl
    · rw [fresh_next]; rfl
    · intro i hi
      rw [fresh_next]
      exact o6 0 i (by rw [hv]; exact Nat.one_pos) (by rw [hv]; exact hi)

/-- C15: `TransposeToCSR` and `TransposeToCSC` of a sparse vector in any reachable state. -/
theorem C15_sparse_vector_to {w : World T} {s : Ref} {v : SVec T} (hv : w.heap s = .svec v) (hs : Reach (w.heap s))
    (hlt : s < w.next) (hgas : (w.heap s).nvalues ≤ w.gas) (hcan : w.cancel = none) :
    ∃ es, Yields SVec.Iter.hasNext v.step v.iter es ∧
      Returns w .csr 1 v.l (fun _ i => lastWrite 0 i (es.map (fun e => (e.1, e.2.2)))) (Ops.transposeToCSR s w) ∧
      Returns w .csc 1 v.l (fun _ i => lastWrite 0 i (es.map (fun e => (e.1, e.2.2)))) (Ops.transposeToCSC s w) := by
  rw [hv] at hs hgas
  have hw := hs.weak
  refine ⟨_, hw.yields, ?_⟩
  have e : (v.pairs.map (fun e => (e.1, 0, e.2))).map (fun e : Nat × Nat × T => (e.1, e.2.2)) = v.pairs := by
    rw [List.map_map]; exact List.map_id _
  rw [e]
  constructor
  · refine returns_of_writes' (m := .csr (CSR.new 1 v.l)) (y := Ops.transpose s .nil w.next) hcan ?_ ?_ rfl rfl rfl
    · have e1 : (w.heap s).cols = 1 := by rw [hv]; rfl
      have e2 : (w.heap s).rows = v.l := by rw [hv]; rfl
      rw [← e1, ← e2]
      obtain ⟨a, b, c', d, e⟩ := w; simp only at hcan; subst hcan; rfl
    · refine hw.transpose_ok (by rw [fresh_ne _ _ hlt, hv]) (Nat.ne_of_lt hlt) rfl hgas ?_ ?_ ?_ ?_ ?_
      · rw [fresh_next]; exact ⟨_, CSR.rep_new _ _⟩
      · rw [fresh_next]; simp [Mat.kind]
      · rw [fresh_next]; rfl
      · rw [fresh_next]; rfl
      · intro i hi; rw [fresh_next]; exact Mat.csr_new_val _ _ Nat.one_pos hi
  · refine returns_of_writes' (m := .csc (CSC.new 1 v.l)) (y := Ops.transpose s .nil w.next) hcan ?_ ?_ rfl rfl rfl
    · have e1 : (w.heap s).cols = 1 := by rw [hv]; rfl
      have e2 : (w.heap s).rows = v.l := by rw [hv]; rfl
      rw [← e1, ← e2]
      obtain ⟨a, b, c', d, e⟩ := w; simp only at hcan; subst hcan; rfl
    · refine hw.transpose_ok (by rw [fresh_ne _ _ hlt, hv]) (Nat.ne_of_lt hlt) rfl hgas ?_ ?_ ?_ ?_ ?_
      · rw [fresh_next]; exact ⟨_, CSC.rep_new _ _⟩
      · rw [fresh_next]; simp [Mat.kind]
      · rw [fresh_next]; rfl
      · rw [fresh_next]; rfl
      · intro i hi; rw [fresh_next]; exact Mat.csc_new_val _ _ Nat.one_pos hi

/-- A sparse vector of length 6 after `SetVec(5, 7)`. -/
def farOut : SVec ℤ := { l := 6, values := [7], indices := [5] }

theorem farOut_reach : Reach (Mat.svec farOut) := .call (.set 5 0 7) (.newSVec 6) (by kernel_rfl)

/-- C15 does not hold of `At` on every reachable sparse vector: after `SetVec(5, 7)` on a vector of length 6
`At(5, 0)` is 0, and the transpose has 7 at `(0, 5)`. -/
theorem C15_refuted_sparse_vector :
    ∃ w : World ℤ, Reach (w.heap 0) ∧ (w.heap 0).val 5 0 = 0 ∧
      ∃ m, (Meth.transpose 0 w).obj = some m ∧ m.val 0 5 = 7 := by
  refine ⟨World.of 9 [.svec farOut], farOut_reach, by kernel_rfl, .dense ⟨1, 6, [[0, 0, 0, 0, 0, 7]]⟩, ?_, ?_⟩ <;> kernel_rfl

end general

section ring
variable {T : Type} [GoRing T] [GoLawful T] [GoStore T]

theorem copy_weak {w : World T} {s : Ref} {v : SVec T} (hv : w.heap s = .svec v) (h : v.Weak) :
    M.copy s { w with cancel := none } = .ok w.next (fresh w (.svec v)) := by
  unfold M.copy
  rw [bind_ok (ofObj_ok (w := { w with cancel := none }) (a := .svec v) (by
    rw [hv]; simp [Mat.copy, SVec.copy_eq v h.len]))]
  rfl

/-- The call returned a new sparse vector whose entries are those of `v`, in the same order, with `g` of their
values; `AtVec` of it is `g` of `AtVec` of `v` everywhere; nothing that existed before changed. -/
def MapsVec (w : World T) (v : SVec T) (g : T → T) (res : Res T Ref) : Prop :=
  ∃ p w' v' es, res = .ok p w' ∧ w.next ≤ p ∧ p < w'.next ∧ (∀ q, q < w.next → w'.heap q = w.heap q) ∧
    w'.cancel = w.cancel ∧ w'.reg = w.reg ∧ w'.gas = w.gas ∧ w'.heap p = .svec v' ∧ v'.l = v.l ∧
    (∀ i : Nat, i < v.l → ∃ x, v.atVec i = .ok x ∧ v'.atVec i = .ok (g x)) ∧
    Yields SVec.Iter.hasNext v.step v.iter es ∧
    Yields SVec.Iter.hasNext v'.step v'.iter (es.map (fun e => (e.1, e.2.1, g e.2.2)))

theorem mapsVec_of {w : World T} {v : SVec T} (h : v.Weak) {g : T → T} (h0 : g 0 = 0)
    (hz : ∀ x ∈ v.values, isZero (g x) = false) {c : Option Nat} (hc : c = w.cancel) :
    MapsVec w v g (.ok w.next { (fresh w (.svec v)).upd w.next (.svec (v.mapped g)) none with cancel := c }) := by
  refine ⟨w.next, _, v.mapped g, _, rfl, Nat.le_refl _, Nat.lt_succ_self _, ?_, hc, rfl, rfl, ?_, rfl,
    fun i hi => h.mapped_at h0 hi, h.yields, ?_⟩
  · intro q hq
    show (World.upd _ _ _ _).heap q = _
    rw [World.upd_ne _ _ _ (Nat.ne_of_lt hq), fresh_ne _ _ hq]
  · show (World.upd _ _ _ _).heap w.next = _
    rw [World.upd_out]
  · have := (h.mapped hz).yields
    rw [SVec.mapped_pairs] at this
    rw [List.map_map] at this ⊢
    exact this

theorem nz_iff {x : T} : isZero x = false ↔ x ≠ 0 := by
  rw [Bool.eq_false_iff, Ne, isZero_iff]

/-- C16 for a sparse vector in any reachable state. -/
theorem C16_sparse_vector {w : World T} {s : Ref} {v : SVec T} (hv : w.heap s = .svec v) (hs : Reach (w.heap s))
    (hgas : (w.heap s).nvalues ≤ w.gas) : MapsVec w v (fun x => -x) (Meth.negative s w) := by
  rw [hv] at hs hgas
  have h := hs.weak
  have hz : ∀ x ∈ v.values, isZero (-x) = false := fun x hx => nz_iff.2 (neg_ne_zero.2 (nz_iff.1 (h.nz x hx)))
  have e : Ops.negative s .nil w.next (fresh w (.svec v)) =
      .ok () ((fresh w (.svec v)).upd w.next (.svec (v.mapped (fun x => -x))) none) := by
    unfold Ops.negative
    rw [bind_ok (show Mask.orEmpty .nil w.next (fresh w (.svec v)) = .ok (.empty v.l 1) (fresh w (.svec v)) by
      simp [Mask.orEmpty, M.rowsOf, M.colsOf, bind_apply, Mat.rows, Mat.cols])]
    rw [bind_ok (show (Mask.empty v.l 1).check w.next (fresh w (.svec v)) = .ok () (fresh w (.svec v)) by
      simp [Mask.check, Mask.rows, Mask.cols, M.rowsOf, M.colsOf, bind_apply, Mat.rows, Mat.cols])]
    exact bind_ok (h.forMap_ok (p := w.next) (w := fresh w (.svec v)) (g := fun x => -x) (fresh_next _ _) rfl hgas
      (f := fun r c value => do
        let e ← (Mask.empty v.l 1).element r c
        if !e then pure (-value) else pure value) (fun _ _ _ _ => rfl) hz true)
  have e2 : Meth.negative s w =
      .ok w.next { (fresh w (.svec v)).upd w.next (.svec (v.mapped (fun x => -x))) none with cancel := w.cancel } := by
    unfold Meth.negative background
    rw [bind_ok (copy_weak hv h), bind_ok e]
    rfl
  rw [e2]
  exact mapsVec_of h neg_zero hz rfl

/-- C17 for a sparse vector in any reachable state, when `alpha` times a stored value is never zero. Missing: a
stored value that `alpha` annihilates (`C17_refuted`). -/
theorem C17_sparse_vector_partial {w : World T} {s : Ref} {v : SVec T} (alpha : T) (hv : w.heap s = .svec v)
    (hs : Reach (w.heap s)) (hgas : (w.heap s).nvalues ≤ w.gas) (hne : ∀ x ∈ v.values, alpha * x ≠ 0) :
    MapsVec w v (fun x => alpha * x) (Meth.scalar s alpha w) := by
  rw [hv] at hs hgas
  have h := hs.weak
  have hz : ∀ x ∈ v.values, isZero (alpha * x) = false := fun x hx => nz_iff.2 (hne x hx)
  have e2 : Meth.scalar s alpha w =
      .ok w.next { (fresh w (.svec v)).upd w.next (.svec (v.mapped (fun x => alpha * x))) none with cancel := w.cancel } := by
    unfold Meth.scalar Ops.scalar background
    rw [bind_ok (copy_weak hv h), bind_ok (h.forMap_ok (p := w.next) (w := fresh w (.svec v)) (g := fun x => alpha * x)
      (f := fun _ _ x => pure (alpha * x)) (fresh_next _ _) rfl hgas (fun _ _ _ _ => rfl) hz _)]
    rfl
  rw [e2]
  exact mapsVec_of h (mul_zero alpha) hz rfl

/-- The hypotheses are met by `farOut`, which is not packed. -/
example : (Meth.negative 0 (World.of 9 [.svec farOut])).obj = some (.svec { farOut with values := [-7] }) := by kernel_rfl
example : (Meth.scalar 0 3 (World.of 9 [.svec farOut])).obj = some (.svec { farOut with values := [21] }) := by kernel_rfl

end ring
end GB
