import Verif.Lemmas.Ordered
import Verif.Props.Reduce
import Mathlib.Data.List.Perm.Basic

/-!
# Reductions with an operation of the caller's: C81

`ReduceMatrixToScalarWithMonoID` and `ReduceMatrixToVectorWithMonoID` take any unit and operation. The
dense formats hand every cell to the operation, row by row. The compressed ones hand it the non-zero cells
only, and CSC column by column. So the outcome depends on the storage format, unless the operation
ignores zeros and (CSC) the order.
-/

namespace GB

set_option linter.unusedSectionVars false

open Reduce

section
variable {T : Type}

/-- The fold of the operation over the unmasked cells of a table, row by row. -/
def foldTable (mo : MonoID T) (r c : Nat) (bit : Nat → Nat → Bool) (val : Nat → Nat → T) : T :=
  (((cells r c).filter (fun p => !bit p.1 p.2)).map (fun p => val p.1 p.2)).foldl mo.op mo.unit

/-- A commutative monoid. -/
structure MonoID.Commutative (mo : MonoID T) : Prop where
  assoc : ∀ a b c, mo.op (mo.op a b) c = mo.op a (mo.op b c)
  comm : ∀ a b, mo.op a b = mo.op b a
  unit_op : ∀ a, mo.op mo.unit a = a

variable [GoNum T]

/-- Folding in a 0 never changes a result. -/
def MonoID.SkipsZero (mo : MonoID T) : Prop :=
  ∀ l : List T, mo.op (l.foldl mo.op mo.unit) 0 = l.foldl mo.op mo.unit

/-- Two values may be folded in in either order. -/
def MonoID.Swaps (mo : MonoID T) : Prop :=
  ∀ (l : List T) (a b : T), mo.op (mo.op (l.foldl mo.op mo.unit) a) b = mo.op (mo.op (l.foldl mo.op mo.unit) b) a

/-- C81 for one operation and one format: reducing a matrix of that format to a scalar is the fold over its unmasked
cells. -/
def ReducesRight (mo : MonoID T) (k : Kind) : Prop := ∀ (w : World T) (s : Ref) (mask : Mask), Reach (w.heap s) →
  (w.heap s).kind = k → (w.heap s).nvalues ≤ w.gas → w.cancel = none → mask.Sound w → mask.Fits w s →
  Ops.reduceScalar s mo mask w = .ok (foldTable mo (w.heap s).rows (w.heap s).cols (mask.bit w) (w.heap s).val) w

/-- C81 in full: every commutative monoid, every matrix format. -/
def ReduceAnyRight (T : Type) [GoNum T] : Prop := ∀ mo : MonoID T, mo.Commutative →
  ∀ k, k = .csr ∨ k = .csc ∨ k = .dense ∨ k = .dvec → ReducesRight mo k

/-! ## What is computed -/

variable [GoStore T]

/-- C81. What a reduction returns, whatever the operation and the format: the fold over the unmasked cells; row by row,
for CSC column by column; without the zero cells for the compressed formats. Nothing changes.

Missing for the full property: that this is the fold over all the cells (`C81_csr_iff`, `C81_csc_iff`). -/
theorem C81_fold_partial {w : World T} {s : Ref} {mask : Mask} (mo : MonoID T) (hs : (w.heap s).WF)
    (hg : (w.heap s).nvalues ≤ w.gas) (hc : w.cancel = none) (hS : mask.Sound w) (hF : mask.Fits w s) :
    Ops.reduceScalar s mo mask w = .ok
      (let m := w.heap s
       let value := fun (p : Nat × Nat) => m.val p.1 p.2
       let open_ := fun (p : Nat × Nat) => !mask.bit w p.1 p.2
       match m.kind with
       | .dense | .dvec => (((cells m.rows m.cols).filter open_).map value).foldl mo.op mo.unit
       | .csr | .svec =>
         ((((cells m.rows m.cols).filter open_).map value).filter (fun v => !isZero v)).foldl mo.op mo.unit
       | .csc =>
         (((((cells m.cols m.rows).map Prod.swap).filter open_).map value).filter (fun v => !isZero v)).foldl
           mo.op mo.unit) w := by
  obtain ⟨es, e1, e2, e3, e4⟩ := Mat.ordered_entries hs
  rw [Ops.reduceScalar_ok mo e1.yields e3.range (by omega) hS hF hc]
  congr 1
  have hsent : ∀ {ps : List (Nat × Nat)}, (w.heap s).scan = ps → Ops.sent w mask es =
      if (w.heap s).kind.sparse then
        ((ps.filter (fun p => !mask.bit w p.1 p.2)).map (fun p => (w.heap s).val p.1 p.2)).filter (fun v => !isZero v)
      else (ps.filter (fun p => !mask.bit w p.1 p.2)).map (fun p => (w.heap s).val p.1 p.2) := by
    rintro ps rfl
    unfold Ops.sent
    rw [e4, List.filter_map, List.map_map, List.filter_filter]
    split
    · rename_i hk
      rw [List.filter_map, List.filter_filter]
      congr 1
      refine List.filter_congr fun p _ => ?_
      simp only [Function.comp, hk, Bool.true_and]
      exact Bool.and_comm _ _
    · rename_i hk
      congr 1
      refine List.filter_congr fun p _ => ?_
      simp only [Bool.not_eq_true] at hk
      simp only [Function.comp, hk, Bool.false_and, Bool.not_false, Bool.and_true]
  dsimp only
  cases hk : (w.heap s).kind
  all_goals
    rw [hsent (ps := _) rfl, hk]
    simp only [Kind.sparse, if_true, Bool.false_eq_true, if_false, Mat.scan, hk, cellsByColumn]

/-- C81 for the dense formats: the fold over all cells, row by row, for any operation. -/
theorem C81_dense (mo : MonoID T) {k : Kind} (hk : k = .dense ∨ k = .dvec) : ReducesRight mo k := by
  intro w s mask hr hkk hg hc hS hF
  rw [C81_fold_partial mo (hr.wf (by rcases hk with rfl | rfl <;> rw [hkk] <;> simp)) hg hc hS hF]
  rcases hk with rfl | rfl <;> (dsimp only; rw [hkk]; rfl)

/-! ## When it is right -/

theorem MonoID.SkipsZero.filter {mo : MonoID T} (h : mo.SkipsZero) {l : List T} (hl : ∀ v ∈ l, isZero v = true → v = 0) :
    (l.filter (fun v => !isZero v)).foldl mo.op mo.unit = l.foldl mo.op mo.unit := by
  induction l using List.reverseRecOn with
  | nil => rfl
  | append_singleton l x ih =>
    have ih := ih (fun v hv => hl v (List.mem_append_left _ hv))
    rw [List.filter_append, List.foldl_append, List.foldl_append, ih]
    by_cases hx : isZero x = true
    · have := hl x (by simp) hx
      subst this
      simp only [List.filter_cons, hx, Bool.not_true, Bool.false_eq_true, if_false, List.filter_nil, List.foldl_nil,
        List.foldl_cons]
      exact (h l).symm
    · simp only [Bool.not_eq_true] at hx
      simp only [List.filter_cons, hx, Bool.not_false, if_true, List.filter_nil]

theorem MonoID.Swaps.perm {mo : MonoID T} (h : mo.Swaps) {l l' : List T} (hp : l.Perm l') :
    ∀ pre : List T, (pre ++ l).foldl mo.op mo.unit = (pre ++ l').foldl mo.op mo.unit := by
  induction hp with
  | nil => intro pre; rfl
  | cons x _ ih =>
    intro pre
    have := ih (pre ++ [x])
    simpa using this
  | swap x y l =>
    intro pre
    have := h pre x y
    simp only [List.foldl_append, List.foldl_cons]
    rw [this]
  | trans _ _ ih1 ih2 => intro pre; rw [ih1, ih2]

theorem MonoID.Commutative.swaps {mo : MonoID T} (h : mo.Commutative) : mo.Swaps := by
  intro l a b
  rw [h.assoc, h.assoc, h.comm a b]

theorem MonoID.Commutative.skipsZero_iff {mo : MonoID T} (h : mo.Commutative) : mo.SkipsZero ↔ mo.unit = 0 := by
  constructor
  · intro hz
    have := hz []
    simp only [List.foldl_nil, h.unit_op] at this
    exact this.symm
  · intro hu l
    rw [h.comm, ← hu, h.unit_op]

/-- C81, CSR: right if folding in a 0 changes nothing. -/
theorem C81_csr {mo : MonoID T} (h : mo.SkipsZero) : ReducesRight mo .csr := by
  intro w s mask hr hk hg hc hS hF
  have hw := hr.wf (by rw [hk]; simp)
  rw [C81_fold_partial mo hw hg hc hS hF]
  dsimp only
  rw [hk]
  dsimp only
  rw [h.filter]
  · rfl
  · intro v hv hz
    obtain ⟨p, hp, rfl⟩ := List.mem_map.1 hv
    have := mem_cells.1 (List.mem_filter.1 hp).1
    exact hw.zero_of_isZero (by rw [hk]; rfl) this.1 this.2 hz

/-- C81, CSC: right if moreover the order does not matter. -/
theorem C81_csc {mo : MonoID T} (h : mo.SkipsZero) (h' : mo.Swaps) : ReducesRight mo .csc := by
  intro w s mask hr hk hg hc hS hF
  have hw := hr.wf (by rw [hk]; simp)
  rw [C81_fold_partial mo hw hg hc hS hF]
  dsimp only
  rw [hk]
  dsimp only
  rw [h.filter]
  · unfold foldTable
    congr 1
    exact h'.perm (((cellsByColumn_perm _ _).filter _).map _) []
  · intro v hv hz
    obtain ⟨p, hp, rfl⟩ := List.mem_map.1 hv
    have := mem_cellsByColumn.1 (List.mem_filter.1 hp).1
    exact hw.zero_of_isZero (by rw [hk]; rfl) this.1 this.2 hz

end

section
variable {T : Type} [GoNum T] [GoLawful T]

theorem cells_arr {data : List (List T)} {c : Nat} (h : Rect data c) :
    (cells data.length c).map (fun p => arr data p.1 p.2) = data.flatten := by
  unfold cells
  rw [List.map_flatMap, ← List.flatMap_id]
  conv_rhs => rw [show data = (List.range data.length).map (fun i => data.getD i []) from by
    apply List.ext_getElem
    · simp
    · intro i h1 h2
      simp [h1]]
  rw [List.flatMap_map]
  refine List.flatMap_congr fun i hi => ?_
  have hi := List.mem_range.1 hi
  rw [List.map_map]
  have hl : (data.getD i []).length = c := by
    have := h (data.getD i []) (by simp [hi])
    exact this
  refine List.ext_getElem (by simp only [List.length_map, List.length_range, id_eq, hl]) fun j h1 h2 => ?_
  have h2' : j < (data.getD i []).length := by simpa using h2
  simp only [List.getElem_map, List.getElem_range, Function.comp, arr]
  show _ = (data.getD i [])[j]
  generalize data.getD i [] = row at h2'
  simp [h2']

/-- What `ReducesRight` says of an array. -/
theorem ReducesRight.array_csr {mo : MonoID T} (h : ReducesRight mo .csr) {data : List (List T)} {c : Nat} (hne : data ≠ [])
    (hc : Rect data c) :
    (data.flatten.filter (fun v => !isZero v)).foldl mo.op mo.unit = data.flatten.foldl mo.op mo.unit := by
  obtain ⟨m, h1, h2, h3, h4, h5⟩ := Mat.csr_fromArray_ok hne hc
  let w : World T := World.of m.values.length [.csr m]
  have hr : Reach (w.heap 0) := Reach.arrCSR hc h1
  have e1 := h w 0 .nil hr rfl (Nat.le_refl _) rfl trivial trivial
  rw [C81_fold_partial mo (w := w) (s := 0) (mask := .nil) h2 (Nat.le_refl _) rfl trivial trivial] at e1
  have hv : (cells m.r m.c).map (fun p => (Mat.csr m).val p.1 p.2) = data.flatten := by
    rw [← cells_arr hc, h3, h4]
    refine List.map_congr_left fun p hp => ?_
    have := mem_cells.1 hp
    rw [h5 _ _ this.1 this.2, norm_lawful]
  have hfil : (cells m.r m.c).filter (fun p => !Mask.nil.bit w p.1 p.2) = cells m.r m.c :=
    List.filter_eq_self.2 (fun _ _ => rfl)
  injection e1 with e1 _
  have e1 : ((((cells m.r m.c).filter (fun p => !Mask.nil.bit w p.1 p.2)).map (fun p => (Mat.csr m).val p.1 p.2)).filter
      (fun v => !isZero v)).foldl mo.op mo.unit =
      (((cells m.r m.c).filter (fun p => !Mask.nil.bit w p.1 p.2)).map (fun p => (Mat.csr m).val p.1 p.2)).foldl mo.op mo.unit := e1
  rw [hfil, hv] at e1
  exact e1

theorem ReducesRight.array_csc {mo : MonoID T} (h : ReducesRight mo .csc) {data : List (List T)} {c : Nat} (hne : data ≠ [])
    (hc : Rect data c) :
    (((cellsByColumn data.length c).map (fun p => arr data p.1 p.2)).filter (fun v => !isZero v)).foldl mo.op mo.unit =
      data.flatten.foldl mo.op mo.unit := by
  obtain ⟨m, h1, h2, h3, h4, h5⟩ := Mat.csc_fromArray_ok hne hc
  let w : World T := World.of m.values.length [.csc m]
  have hr : Reach (w.heap 0) := Reach.arrCSC hc h1
  have e1 := h w 0 .nil hr rfl (Nat.le_refl _) rfl trivial trivial
  rw [C81_fold_partial mo (w := w) (s := 0) (mask := .nil) h2 (Nat.le_refl _) rfl trivial trivial] at e1
  have hv : (cells m.r m.c).map (fun p => (Mat.csc m).val p.1 p.2) = data.flatten := by
    rw [← cells_arr hc, h3, h4]
    refine List.map_congr_left fun p hp => ?_
    have := mem_cells.1 hp
    rw [h5 _ _ this.1 this.2, norm_lawful]
  have hv' : (cellsByColumn m.r m.c).map (fun p => (Mat.csc m).val p.1 p.2) =
      (cellsByColumn data.length c).map (fun p => arr data p.1 p.2) := by
    rw [h3, h4]
    refine List.map_congr_left fun p hp => ?_
    have := mem_cellsByColumn.1 hp
    rw [h5 _ _ this.1 this.2, norm_lawful]
  have hfil : (cells m.r m.c).filter (fun p => !Mask.nil.bit w p.1 p.2) = cells m.r m.c :=
    List.filter_eq_self.2 (fun _ _ => rfl)
  have hfil' : (cellsByColumn m.r m.c).filter (fun p => !Mask.nil.bit w p.1 p.2) = cellsByColumn m.r m.c :=
    List.filter_eq_self.2 (fun _ _ => rfl)
  injection e1 with e1 _
  have e1 : ((((cellsByColumn m.r m.c).filter (fun p => !Mask.nil.bit w p.1 p.2)).map (fun p => (Mat.csc m).val p.1 p.2)).filter
      (fun v => !isZero v)).foldl mo.op mo.unit =
      (((cells m.r m.c).filter (fun p => !Mask.nil.bit w p.1 p.2)).map (fun p => (Mat.csc m).val p.1 p.2)).foldl mo.op mo.unit := e1
  rw [hfil, hv, hfil', hv'] at e1
  exact e1

theorem isZero_zero' : isZero (0 : T) = true := (isZero_iff 0).2 rfl

/-- C81 exactly, CSR: reductions of CSR matrices are right for an operation exactly when folding in a 0 never
changes a result. -/
theorem C81_csr_iff (mo : MonoID T) : ReducesRight mo .csr ↔ mo.SkipsZero := by
  refine ⟨fun h l => ?_, C81_csr⟩
  have h1 := h.array_csr (data := [l ++ [0]]) (c := l.length + 1) (by simp) (by intro r hr; simp at hr; simp [hr])
  have h2 := h.array_csr (data := [l]) (c := l.length) (by simp) (by intro r hr; simp at hr; simp [hr])
  simp only [List.flatten_cons, List.flatten_nil, List.append_nil, List.filter_append, List.foldl_append] at h1 h2
  rw [h2] at h1
  simp only [List.filter_cons, isZero_zero', Bool.not_true, Bool.false_eq_true, if_false, List.filter_nil, List.foldl_nil,
    List.foldl_cons] at h1
  exact h1.symm

theorem cellsByColumn_one (n : Nat) : cellsByColumn 1 n = cells 1 n := by
  simp [cellsByColumn, cells, List.map_flatMap]
  induction n with
  | zero => rfl
  | succ n ih => rw [List.range_succ, List.flatMap_append, ih]; simp

theorem cellsByColumn_two {a b : List T} (h : a.length = b.length) :
    (cellsByColumn 2 a.length).map (fun p => arr [a, b] p.1 p.2) = (a.zip b).flatMap (fun p => [p.1, p.2]) := by
  unfold cellsByColumn cells
  rw [List.map_map, List.map_flatMap]
  have hz : a.zip b = (List.range a.length).map (fun j => (a.getD j 0, b.getD j 0)) := by
    apply List.ext_getElem
    · simp [h]
    · intro i h1 h2
      have : i < a.length := by simpa using h2
      simp [this, h ▸ this]
  rw [hz, List.flatMap_map]
  refine List.flatMap_congr fun j _ => ?_
  simp [arr, List.range_succ]

/-- C81 exactly, CSC: reductions of CSC matrices are right for an operation exactly when folding in a 0 never
changes a result and any two values may be folded in in either order. -/
theorem C81_csc_iff (mo : MonoID T) : ReducesRight mo .csc ↔ mo.SkipsZero ∧ mo.Swaps := by
  refine ⟨fun h => ?_, fun h => C81_csc h.1 h.2⟩
  have hz : mo.SkipsZero := by
    intro l
    have h1 := h.array_csc (data := [l ++ [0]]) (c := l.length + 1) (by simp) (by intro r hr; simp at hr; simp [hr])
    have h2 := h.array_csc (data := [l]) (c := l.length) (by simp) (by intro r hr; simp at hr; simp [hr])
    have k1 := cells_arr (data := [l ++ [0]]) (c := l.length + 1) (by intro r hr; simp at hr; simp [hr])
    have k2 := cells_arr (data := [l]) (c := l.length) (by intro r hr; simp at hr; simp [hr])
    simp only [List.length_cons, List.length_nil, Nat.zero_add, cellsByColumn_one] at h1 h2 k1 k2
    rw [k1] at h1
    rw [k2] at h2
    simp only [List.flatten_cons, List.flatten_nil, List.append_nil, List.filter_append, List.foldl_append] at h1 h2
    rw [h2] at h1
    simp only [List.filter_cons, isZero_zero', Bool.not_true, Bool.false_eq_true, if_false, List.filter_nil,
      List.foldl_nil, List.foldl_cons] at h1
    exact h1.symm
  refine ⟨hz, fun l x y => ?_⟩
  have hlen : (l ++ [0, x]).length = (List.replicate l.length 0 ++ [y, 0]).length := by simp
  have h1 := h.array_csc (data := [l ++ [0, x], List.replicate l.length 0 ++ [y, 0]]) (c := l.length + 2) (by simp)
    (by intro r hr; simp at hr; rcases hr with rfl | rfl <;> simp)
  have k1 := cellsByColumn_two hlen
  simp only [List.length_append, List.length_cons, List.length_nil, Nat.zero_add, Nat.reduceAdd] at h1 k1
  rw [k1] at h1
  have hl : ∀ l : List T, ∀ v ∈ l, isZero v = true → v = 0 := fun _ v _ hv => (isZero_iff v).1 hv
  rw [← hz.filter (hl (List.flatten _))] at h1
  have z1 : ∀ l : List T, ((l.zip (List.replicate l.length 0)).flatMap (fun p : T × T => [p.1, p.2])).filter
      (fun v => !isZero v) = l.filter (fun v => !isZero v) := by
    intro l
    induction l with
    | nil => rfl
    | cons v l ih =>
      simp only [List.length_cons, List.replicate_succ, List.zip_cons_cons, List.flatMap_cons, List.filter_append, ih]
      simp [List.filter_cons, isZero_zero']
      split <;> rfl
  have z2 : (List.replicate l.length (0 : T)).filter (fun v => !isZero v) = [] := by
    rw [List.filter_eq_nil_iff]
    intro v hv
    rw [(List.mem_replicate.1 hv).2]
    simp [isZero_zero']
  have f1 : ((((l ++ [0, x]).zip (List.replicate l.length 0 ++ [y, 0])).flatMap (fun p : T × T => [p.1, p.2])).filter
      (fun v => !isZero v)) = (l ++ [y, x]).filter (fun v => !isZero v) := by
    rw [List.zip_append (by simp), List.flatMap_append, List.filter_append, z1, List.filter_append]
    congr 1
    simp [List.filter_cons, isZero_zero']
  have f2 : (List.flatten [l ++ [0, x], List.replicate l.length 0 ++ [y, 0]]).filter (fun v => !isZero v) =
      (l ++ [x, y]).filter (fun v => !isZero v) := by
    simp only [List.flatten_cons, List.flatten_nil, List.append_nil, List.filter_append, z2, List.nil_append]
    simp [List.filter_cons, isZero_zero']
    split <;> split <;> rfl
  rw [f1, f2, hz.filter (hl _), hz.filter (hl _)] at h1
  simp only [List.foldl_append, List.foldl_cons, List.foldl_nil] at h1
  exact h1.symm

/-- C81 for the commutative monoids: reductions of compressed matrices are right exactly when the unit is 0. -/
theorem C81_monoid_iff {mo : MonoID T} (h : mo.Commutative) {k : Kind} (hk : k = .csr ∨ k = .csc) :
    ReducesRight mo k ↔ mo.unit = 0 := by
  rcases hk with rfl | rfl
  · rw [C81_csr_iff, h.skipsZero_iff]
  · rw [C81_csc_iff, h.skipsZero_iff]
    exact ⟨fun h => h.1, fun hu => ⟨hu, h.swaps⟩⟩

end

/-! ## To a vector -/

section
variable {T : Type} [GoNum T]

/-- The fold of the operation over the unmasked cells of a column. -/
def foldColumn (mo : MonoID T) (r : Nat) (bit : Nat → Bool) (col : Nat → T) : T :=
  (((List.range r).filter (fun i => !bit i)).map col).foldl mo.op mo.unit

/-- The mask of a reduction to a vector is as long as a column. -/
def Mask.FitsColumn (mask : Mask) (w : World T) (s : Ref) : Prop :=
  mask = .nil ∨ (∀ p, mask = .ref p → (w.heap p).rows = (w.heap s).rows ∧ (w.heap p).cols = 1) ∧
    (∀ r c, mask = .empty r c → r = (w.heap s).rows ∧ c = 1) ∧
    ∀ r c el, mask = .given r c el → r = (w.heap s).rows ∧ c = 1

/-- C81 for one operation and one format: reducing a matrix of that format to a vector folds every column over its
unmasked cells. -/
def ReducesColumnsRight (mo : MonoID T) (k : Kind) : Prop := ∀ (w : World T) (s : Ref) (mask : Mask), Reach (w.heap s) →
  (w.heap s).kind = k → s < w.next → (w.heap s).rows ≤ w.gas → w.cancel = none → mask.Sound w → mask.Old w →
  mask.FitsColumn w s →
  ∃ w' v, Ops.reduceVector s mo mask w = .ok w.next w' ∧ (∀ q, q < w.next → w'.heap q = w.heap q) ∧
    w'.heap w.next = .dvec v ∧ v.l = (w.heap s).cols ∧
    ∀ c, c < (w.heap s).cols → v.cell c =
      foldColumn mo (w.heap s).rows (fun i => mask.bit w i 0) (fun i => (w.heap s).val i c)

theorem filter_cells_one {n : Nat} (p : Nat → Nat → Bool) {α : Type} (f : Nat → Nat → α) :
    ((cells n 1).filter (fun q => p q.1 q.2)).map (fun q => f q.1 q.2) =
      ((List.range n).filter (fun i => p i 0)).map (fun i => f i 0) := by
  have : cells n 1 = (List.range n).map (fun i => (i, 0)) := by
    unfold cells
    simp [List.range_succ, List.map_eq_flatMap]
  rw [this, List.filter_map, List.map_map]
  rfl

variable [GoStore T]

/-- C81. What a reduction to a vector returns: the fold over each column from top to bottom, without the zero cells for
the compressed formats.

Missing for the full property: that this is the fold over all the cells of the column (`C81_vector_iff`). -/
theorem C81_vector_partial {w : World T} {s : Ref} {mask : Mask} (mo : MonoID T) (hs : (w.heap s).WF) (hlt : s < w.next)
    (hg : (w.heap s).rows ≤ w.gas) (hc : w.cancel = none) (hS : mask.Sound w) (hO : mask.Old w)
    (hF : mask.FitsColumn w s) :
    ∃ w' v, Ops.reduceVector s mo mask w = .ok w.next w' ∧ (∀ q, q < w.next → w'.heap q = w.heap q) ∧
      w'.heap w.next = .dvec v ∧ v.l = (w.heap s).cols ∧
      ∀ c, c < (w.heap s).cols → v.cell c =
        let column := ((List.range (w.heap s).rows).filter (fun i => !mask.bit w i 0)).map (fun i => (w.heap s).val i c)
        if (w.heap s).kind.sparse then (column.filter (fun v => !isZero v)).foldl mo.op mo.unit
        else column.foldl mo.op mo.unit := by
  obtain ⟨w', v, h1, -, h2, -, -, -, h3, -, h4, h5⟩ := Ops.reduceVector_ok mo hs hlt hg hc hS hO hF
  refine ⟨w', v, h1, h2, h3, h4, fun c hcc => ?_⟩
  obtain ⟨es, hf, ⟨ho, hall, hnz⟩, hv⟩ := h5 c hcc
  rw [hv]
  have key : es = ((cells (w.heap s).rows 1).filter (fun p => !((w.heap s).kind.sparse && isZero ((w.heap s).val p.1 c)))).map
      (fun p => (p.1, p.2, (w.heap s).val p.1 c)) := by
    refine hf.eq_filter (keep := fun i _ => !((w.heap s).kind.sparse && isZero ((w.heap s).val i c)))
      (lt := fun a b => a.1 < b.1 ∨ (a.1 = b.1 ∧ a.2 < b.2)) (by intro a; omega) (by intro a b c; omega)
      (cells_rowMajor _ _) (fun p => mem_cells) ho ?_ ?_
    · intro e he
      by_cases hk : (w.heap s).kind = .dense ∨ (w.heap s).kind = .dvec
      · rcases hk with hk | hk <;> simp [hk, Kind.sparse]
      · have h0 := hnz ⟨fun h => hk (Or.inl h), fun h => hk (Or.inr h)⟩ e he
        have h1 : (w.heap s).val e.1 c = e.2.2 := hf.value e he
        simp only [h1, h0, Bool.and_false, Bool.not_false]
    · intro i j hi hj hkeep
      obtain rfl : j = 0 := by omega
      by_cases hk : (w.heap s).kind = .dense ∨ (w.heap s).kind = .dvec
      · exact hall hk i hi
      · have hsp : (w.heap s).kind.sparse = true := by
          cases hk' : (w.heap s).kind <;> first | rfl | simp [hk'] at hk
        have : isZero ((w.heap s).val i c) = false := by simpa [hsp] using hkeep
        exact hf.complete i 0 hi hj (isZero_false_ne this)
  have hsent : Ops.sent w mask es = (((List.range (w.heap s).rows).filter (fun i => !mask.bit w i 0)).map
      (fun i => (w.heap s).val i c)).filter (fun x => !((w.heap s).kind.sparse && isZero x)) := by
    unfold Ops.sent
    rw [key, List.filter_map, List.map_map, List.filter_filter]
    rw [List.filter_map, List.filter_filter]
    refine (filter_cells_one (n := (w.heap s).rows)
      (fun i j => !mask.bit w i j && !((w.heap s).kind.sparse && isZero ((w.heap s).val i c)))
      (fun i _ => (w.heap s).val i c)).trans ?_
    congr 1
    refine List.filter_congr fun i _ => ?_
    simp only [Function.comp]
    exact Bool.and_comm _ _
  rw [hsent]
  dsimp only
  split
  · rename_i hk
    simp only [hk, Bool.true_and]
  · rename_i hk
    simp only [Bool.not_eq_true] at hk
    congr 1
    refine List.filter_eq_self.2 fun x _ => ?_
    rw [hk]
    rfl

/-- C81 to a vector, dense formats: right for any operation. -/
theorem C81_vector_dense (mo : MonoID T) {k : Kind} (hk : k = .dense ∨ k = .dvec) : ReducesColumnsRight mo k := by
  intro w s mask hr hkk hlt hg hc hS hO hF
  obtain ⟨w', v, h1, h2, h3, h4, h5⟩ :=
    C81_vector_partial mo (hr.wf (by rcases hk with rfl | rfl <;> rw [hkk] <;> simp)) hlt hg hc hS hO hF
  refine ⟨w', v, h1, h2, h3, h4, fun c hcc => ?_⟩
  rw [h5 c hcc]
  rcases hk with rfl | rfl <;> (rw [hkk]; rfl)

/-- C81 to a vector, compressed formats: right if folding in a 0 changes nothing. -/
theorem C81_vector_compressed {mo : MonoID T} (h : mo.SkipsZero) {k : Kind} (hk : k = .csr ∨ k = .csc) :
    ReducesColumnsRight mo k := by
  intro w s mask hr hkk hlt hg hc hS hO hF
  have hw := hr.wf (by rcases hk with rfl | rfl <;> rw [hkk] <;> simp)
  have hsp : (w.heap s).kind.sparse = true := by rcases hk with rfl | rfl <;> rw [hkk] <;> rfl
  obtain ⟨w', v, h1, h2, h3, h4, h5⟩ := C81_vector_partial mo hw hlt hg hc hS hO hF
  refine ⟨w', v, h1, h2, h3, h4, fun c hcc => ?_⟩
  rw [h5 c hcc, if_pos hsp, h.filter]
  · rfl
  · intro v hv hz
    obtain ⟨i, hi, rfl⟩ := List.mem_map.1 hv
    exact hw.zero_of_isZero hsp (List.mem_range.1 (List.mem_filter.1 hi).1) hcc hz

end

section
variable {T : Type} [GoNum T] [GoLawful T]

theorem ReducesColumnsRight.array {mo : MonoID T} {m : Mat T} {k : Kind} (hk : k.sparse = true) (h : ReducesColumnsRight mo k)
    {l : List T} (hm : m.kind = k) (hr : Reach m) (hw : m.WF) (h1 : m.rows = l.length) (h2 : m.cols = 1)
    (h3 : ∀ i, i < l.length → m.val i 0 = l.getD i 0) :
    (l.filter (fun v => !isZero v)).foldl mo.op mo.unit = l.foldl mo.op mo.unit := by
  let w : World T := World.of m.rows [m]
  obtain ⟨w', v, e1, -, e2, -, e3⟩ := h w 0 .nil hr hm Nat.one_pos (Nat.le_refl _) rfl trivial trivial (Or.inl rfl)
  obtain ⟨w2, v2, f1, -, f2, -, f3⟩ := C81_vector_partial mo (w := w) (s := 0) (mask := .nil) hw Nat.one_pos (Nat.le_refl _)
    rfl trivial trivial (Or.inl rfl)
  rw [e1] at f1
  injection f1 with _ f1
  subst f1
  rw [e2] at f2
  injection f2 with f2
  subst f2
  have e3 := e3 0 (by show 0 < m.cols; omega)
  rw [f3 0 (by show 0 < m.cols; omega)] at e3
  have hcol : ((List.range m.rows).filter (fun i => !Mask.nil.bit w i 0)).map (fun i => m.val i 0) = l := by
    rw [show (List.range m.rows).filter (fun i => !Mask.nil.bit w i 0) = List.range m.rows from
      List.filter_eq_self.2 (fun _ _ => rfl), h1]
    refine List.ext_getElem (by simp) fun i a b => ?_
    simp only [List.getElem_map, List.getElem_range]
    rw [h3 i b]
    simp [b]
  have e3 : (if m.kind.sparse then ((((List.range m.rows).filter (fun i => !Mask.nil.bit w i 0)).map (fun i => m.val i 0)).filter
      (fun v => !isZero v)).foldl mo.op mo.unit else (((List.range m.rows).filter (fun i => !Mask.nil.bit w i 0)).map
        (fun i => m.val i 0)).foldl mo.op mo.unit) = (((List.range m.rows).filter (fun i => !Mask.nil.bit w i 0)).map
        (fun i => m.val i 0)).foldl mo.op mo.unit := e3
  rw [hm, if_pos hk, hcol] at e3
  exact e3

/-- C81 to a vector exactly, CSR and CSC: right for an operation exactly when folding in a 0 never changes a result. -/
theorem C81_vector_iff (mo : MonoID T) {k : Kind} (hk : k = .csr ∨ k = .csc) : ReducesColumnsRight mo k ↔ mo.SkipsZero := by
  refine ⟨fun h => ?_, fun h => C81_vector_compressed h hk⟩
  have key : ∀ l : List T, (l.filter (fun v => !isZero v)).foldl mo.op mo.unit = l.foldl mo.op mo.unit := by
    intro l
    by_cases hl : l = []
    · subst hl; rfl
    have hne : l.map (fun v => [v]) ≠ [] := by simpa using hl
    have hrect : Rect (l.map (fun v => [v])) 1 := by intro r hr; obtain ⟨v, -, rfl⟩ := List.mem_map.1 hr; rfl
    have harr : ∀ i, i < l.length → arr (l.map (fun v => [v])) i 0 = l.getD i 0 := by
      intro i hi
      simp [arr, hi]
    rcases hk with rfl | rfl
    · obtain ⟨m, h1, h2, h3, h4, h5⟩ := Mat.csr_fromArray_ok hne hrect
      exact h.array (m := .csr m) rfl rfl (Reach.arrCSR hrect h1) h2 (h3.trans (by simp)) h4
        (fun i hi => by rw [h5 i 0 (by simpa using hi) Nat.one_pos, norm_lawful, harr i hi])
    · obtain ⟨m, h1, h2, h3, h4, h5⟩ := Mat.csc_fromArray_ok hne hrect
      exact h.array (m := .csc m) rfl rfl (Reach.arrCSC hrect h1) h2 (h3.trans (by simp)) h4
        (fun i hi => by rw [h5 i 0 (by simpa using hi) Nat.one_pos, norm_lawful, harr i hi])
  intro l
  have h1 := key (l ++ [0])
  rw [List.filter_append, List.foldl_append, List.foldl_append, key l] at h1
  simp only [List.filter_cons, isZero_zero', Bool.not_true, Bool.false_eq_true, if_false, List.filter_nil,
    List.foldl_nil, List.foldl_cons] at h1
  exact h1.symm

end

/-! ## The operations of the library -/

section
variable {T : Type}

/-- `DefaultMonoIDAddition` meets the condition for every format. -/
theorem C81_addition [GoRing T] [GoStore T] : (MonoID.addition T).SkipsZero ∧ (MonoID.addition T).Swaps :=
  ⟨fun _ => add_zero _, fun _ _ _ => add_right_comm _ _ _⟩

/-- `DefaultMonoIDMaximum` meets it as well, although 0 is no neutral element of the maximum. -/
theorem C81_maximum [GoNum T] [GoStore T] [LinearOrder T] [GoOrd T] : (MonoID.maximum T).SkipsZero ∧ (MonoID.maximum T).Swaps := by
  have hm : ∀ a b : T, OpPkg.maximum a b = max a b := by
    intro a b
    unfold OpPkg.maximum
    by_cases h : b < a
    · rw [if_pos ((GoOrd.lt_iff b a).2 h), max_eq_left h.le]
    · rw [if_neg (fun h' => h ((GoOrd.lt_iff b a).1 h')), max_eq_right (not_lt.1 h)]
  refine ⟨fun l => ?_, fun l a b => ?_⟩
  · show OpPkg.maximum _ 0 = _
    rw [hm]
    exact max_eq_left (foldl_max l 0).2.1
  · show OpPkg.maximum (OpPkg.maximum _ a) b = OpPkg.maximum (OpPkg.maximum _ b) a
    rw [hm, hm, hm, hm, max_right_comm]

/-- C81 in full: false. The product of the cells of a CSR matrix with an empty cell. -/
theorem C81_refuted : ¬ ReduceAnyRight ℤ := by
  intro h
  have hm : (⟨1, OpPkg.multiplication⟩ : MonoID ℤ).Commutative :=
    ⟨fun a b c => mul_assoc a b c, fun a b => mul_comm a b, fun a => one_mul a⟩
  have := (C81_monoid_iff hm (k := .csr) (Or.inl rfl)).1 (h _ hm _ (Or.inl rfl))
  exact absurd this (by decide)

/-- The same matrix stored three ways: the product is 0 when it is dense, 6 when it is compressed. -/
example :
    (Ops.reduceScalar 0 ⟨1, OpPkg.multiplication⟩ .nil (World.of (T := ℤ) 10 [.dense { r := 1, c := 3, data := [[2, 0, 3]] }])).val = some 0 ∧
    (Ops.reduceScalar 0 ⟨1, OpPkg.multiplication⟩ .nil (World.of (T := ℤ) 10
      [.csr { r := 1, c := 3, values := [2, 3], cols := [0, 2], rowStart := [0, 2] }])).val = some 6 ∧
    (Ops.reduceScalar 0 ⟨1, OpPkg.multiplication⟩ .nil (World.of (T := ℤ) 10
      [.csc { r := 1, c := 3, values := [2, 3], rows := [0, 0], colStart := [0, 1, 1, 2] }])).val = some 6 := by
  decide +kernel

/-- And column by column: the products 6, 0 against 6, 5. -/
example :
    (Ops.reduceVector 0 ⟨1, OpPkg.multiplication⟩ .nil (World.of (T := ℤ) 10
      [.dense { r := 2, c := 2, data := [[2, 0], [3, 5]] }])).obj = some (.dvec { l := 2, values := [6, 0] }) ∧
    (Ops.reduceVector 0 ⟨1, OpPkg.multiplication⟩ .nil (World.of (T := ℤ) 10
      [.csr { r := 2, c := 2, values := [2, 3, 5], cols := [0, 0, 1], rowStart := [0, 1, 3] }])).obj =
        some (.dvec { l := 2, values := [6, 5] }) := by
  decide +kernel

/-- An operation that keeps the last value: right on CSR only without zeros, on CSC it depends on the order as well. -/
example :
    (Ops.reduceScalar 0 ⟨0, OpPkg.secondArgument⟩ .nil (World.of (T := ℤ) 10
      [.csr { r := 2, c := 2, values := [1, 2, 3], cols := [0, 1, 0], rowStart := [0, 2, 3] }])).val = some 3 ∧
    (Ops.reduceScalar 0 ⟨0, OpPkg.secondArgument⟩ .nil (World.of (T := ℤ) 10
      [.csc { r := 2, c := 2, values := [1, 3, 2], rows := [0, 1, 0], colStart := [0, 2, 3] }])).val = some 2 ∧
    (Ops.reduceScalar 0 ⟨0, OpPkg.secondArgument⟩ .nil (World.of (T := ℤ) 10
      [.dense { r := 2, c := 2, data := [[1, 2], [3, 0]] }])).val = some 0 := by
  decide +kernel

end
end GB
