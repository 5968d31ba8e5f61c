import Verif.Props.FloatScalar
import Verif.Props.SparseArith

/-!
# C65 (Scalar and Negative with floating-point elements) for sparse vectors in any state
-/

namespace GB

set_option linter.unusedSectionVars false

open M Meth

variable {f : Fmt} {w : World (Fl f)} {s : Ref}

theorem copy_weak_fl {v : SVec (Fl f)} (hv : w.heap s = .svec v) (h : v.Weak) :
    M.copy s { w with cancel := none } = .ok w.next (fresh w (.svec v)) := by
  unfold M.copy
  rw [bind_ok (ofObj_ok (w := { w with cancel := none }) (a := .svec v) (by
    rw [hv]; simp [Mat.copy, SVec.copy_eq v h.len]))]
  rfl

/-- The call returned a new sparse vector whose entries are those of `v`, in the same order, with `g` of their values; `AtVec`
of it is `g` of what `AtVec` of `v` finds, and 0 where that finds nothing; nothing that existed before changed. -/
def MapsStored (w : World (Fl f)) (v : SVec (Fl f)) (g : Fl f → Fl f) (res : Res (Fl f) Ref) : Prop :=
  ∃ p w' v' es, res = .ok p w' ∧ w.next ≤ p ∧ p < w'.next ∧ (∀ q, q < w.next → w'.heap q = w.heap q) ∧
    w'.cancel = w.cancel ∧ w'.reg = w.reg ∧ w'.gas = w.gas ∧ w'.heap p = .svec v' ∧ v'.l = v.l ∧
    (∀ i : Nat, i < v.l → ∃ x, v.atVec i = .ok x ∧ v'.atVec i = .ok (if isZero x then 0 else g x)) ∧
    Yields SVec.Iter.hasNext v.step v.iter es ∧
    Yields SVec.Iter.hasNext v'.step v'.iter (es.map (fun e => (e.1, e.2.1, g e.2.2)))

theorem mapsStored_of {v : SVec (Fl f)} (h : v.Weak) {g : Fl f → Fl f} (hz : ∀ x ∈ v.values, isZero (g x) = false) :
    MapsStored w v g (.ok w.next { (fresh w (.svec v)).upd w.next (.svec (v.mapped g)) none with cancel := w.cancel }) := by
  have hg : v.mapped g = v.mapped (fun x => if isZero x then 0 else g x) := by
    unfold SVec.mapped
    congr 1
    refine List.map_congr_left fun x hx => ?_
    rw [h.nz x hx]; rfl
  refine ⟨w.next, _, v.mapped g, _, rfl, Nat.le_refl _, Nat.lt_succ_self _, ?_, rfl, rfl, rfl, ?_, rfl, ?_, h.yields, ?_⟩
  · intro q hq
    show (World.upd _ _ _ _).heap q = _
    rw [World.upd_ne _ _ _ (Nat.ne_of_lt hq), fresh_ne _ _ hq]
  · show (World.upd _ _ _ _).heap w.next = _
    rw [World.upd_out]
  · intro i hi
    rw [hg]
    exact h.mapped_at (by rw [isZero_zero]; rfl) hi
  · have := (h.mapped hz).yields
    rw [SVec.mapped_pairs] at this
    rw [List.map_map] at this ⊢
    exact this

/-- **C65** for `Negative()` of a sparse vector in any state a program can bring about: every entry is negated exactly. -/
theorem C65_negative_sparse_vector {v : SVec (Fl f)} (hv : w.heap s = .svec v) (hs : Reach (w.heap s))
    (hgas : (w.heap s).nvalues ≤ w.gas) : MapsStored w v (fun x => -x) (Meth.negative s w) := by
  rw [hv] at hs hgas
  have h := hs.weak
  have hz : ∀ x ∈ v.values, isZero (-x) = false := fun x hx => (Fl.isZero_neg _).trans (h.nz x hx)
  have e : Ops.negative s .nil w.next (fresh w (.svec v)) =
      .ok () ((fresh w (.svec v)).upd w.next (.svec (v.mapped (fun x => -x))) none) := by
    unfold Ops.negative
    rw [bind_ok (show Mask.orEmpty .nil w.next (fresh w (.svec v)) = .ok (.empty v.l 1) (fresh w (.svec v)) by
      simp [Mask.orEmpty, M.rowsOf, M.colsOf, bind_apply, Mat.rows, Mat.cols])]
    rw [bind_ok (show (Mask.empty v.l 1).check w.next (fresh w (.svec v)) = .ok () (fresh w (.svec v)) by
      simp [Mask.check, Mask.rows, Mask.cols, M.rowsOf, M.colsOf, bind_apply, Mat.rows, Mat.cols])]
    exact bind_ok (h.forMap_ok (p := w.next) (w := fresh w (.svec v)) (g := fun x => -x) (fresh_next _ _) rfl hgas
      (f := fun r c value => do
        let e ← (Mask.empty v.l 1).element r c
        if !e then pure (-value) else pure value) (fun _ _ _ _ => rfl) hz true)
  have e2 : Meth.negative s w =
      .ok w.next { (fresh w (.svec v)).upd w.next (.svec (v.mapped (fun x => -x))) none with cancel := w.cancel } := by
    unfold Meth.negative background
    rw [bind_ok (copy_weak_fl hv h), bind_ok e]
    rfl
  rw [e2]
  exact mapsStored_of h hz

/-- **C65** for `Scalar(alpha)` of a sparse vector in any state a program can bring about: every entry is multiplied, rounded,
if no product with a stored value underflows to zero.

Missing: products that do; the entry is then dropped while the iterator runs (C17, C14 for sparse vectors). -/
theorem C65_scalar_sparse_vector_partial (alpha : Fl f) {v : SVec (Fl f)} (hv : w.heap s = .svec v) (hs : Reach (w.heap s))
    (hgas : (w.heap s).nvalues ≤ w.gas) (hz : ∀ x ∈ v.values, isZero (alpha * x) = false) :
    MapsStored w v (fun x => alpha * x) (Meth.scalar s alpha w) := by
  rw [hv] at hs hgas
  have h := hs.weak
  have e2 : Meth.scalar s alpha w =
      .ok w.next { (fresh w (.svec v)).upd w.next (.svec (v.mapped (fun x => alpha * x))) none with cancel := w.cancel } := by
    unfold Meth.scalar Ops.scalar background
    rw [bind_ok (copy_weak_fl hv h), bind_ok (h.forMap_ok (p := w.next) (w := fresh w (.svec v)) (g := fun x => alpha * x)
      (f := fun _ _ x => pure (alpha * x)) (fresh_next _ _) rfl hgas (fun _ _ _ _ => rfl) hz _)]
    rfl
  rw [e2]
  exact mapsStored_of h hz

/-! ## Cases -/

section
open FloatEx

/-- A vector of length 6 after `SetVec(5, 7)` and `SetVec(4, -2)`: neither is found by `AtVec`. -/
def farFloat : SVec F64 := { l := 6, values := [c 7, c (-2)], indices := [5, 4] }

theorem farFloat_reach : Reach (Mat.svec farFloat) :=
  .call (.set 4 0 (c (-2))) (.call (.set 5 0 (c 7)) (.newSVec 6) (m' := .svec { l := 6, values := [c 7], indices := [5] })
    (by kernel_rfl)) (by kernel_rfl)

/-- The hypotheses are met by a vector that is not packed. -/
example : MapsStored (World.of 9 [.svec farFloat]) farFloat (fun x => -x) (Meth.negative 0 (World.of 9 [.svec farFloat])) :=
  C65_negative_sparse_vector rfl farFloat_reach (by decide)

example : MapsStored (World.of 9 [.svec farFloat]) farFloat (fun x => c 0.5 * x)
    (Meth.scalar 0 (c 0.5) (World.of 9 [.svec farFloat])) :=
  C65_scalar_sparse_vector_partial (w := World.of 9 [.svec farFloat]) (s := 0) (c 0.5) rfl farFloat_reach (by decide)
    (by decide +kernel)

example : (Meth.negative 0 (World.of 9 [.svec farFloat])).obj = some (.svec { l := 6, values := [c (-7), c 2], indices := [5, 4] }) := by
  kernel_rfl

end

end GB
