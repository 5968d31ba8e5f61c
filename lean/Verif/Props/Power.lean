import Verif.Props.Expr
import Verif.Props.Reduce
import Verif.Lemmas.Power

/-!
# C102: powers of an adjacency matrix count walks, and their sums find cycles
-/

namespace GB

set_option linter.unusedSectionVars false

open M Meth

/-- The loop `p := a; for i := 0; i < k; i++ { p = p.Multiply(a) }`. `Multiply`: /repo/denseMatrix.go:216-220. -/
def powerOf {T : Type} [GoNum T] (a : Ref) : Nat → M T Ref
  | 0 => pure a
  | k + 1 => do
    let p ← powerOf a k
    Meth.multiply p a

/-- `ReduceMatrixToScalar(ctx, p, nil)` of the matrix the loop ends with. -/
def powerTotal {T : Type} [GoNum T] (a : Ref) (k : Nat) : M T T := do
  let p ← powerOf a k
  Ops.reduceMatrixToScalar p .nil

/-- The number of walks of `k` edges, whichever vertices of a graph of `n` vertices they begin and end at. -/
noncomputable def walksIn (E : Nat → Nat → Prop) (n k : Nat) : Nat :=
  ∑ v ∈ Finset.range n, ∑ s ∈ Finset.range n, (pathsTo E s k v).ncard

/-- Some walk of at least one edge returns to its start. -/
def Cyclic (E : Nat → Nat → Prop) : Prop := ∃ v k, 0 < k ∧ Walk E v k v

/-- The program ended with a dense matrix of `n` rows and columns whose cells are `F`; whatever existed before is as it
was. -/
def Gives {T : Type} [GoNum T] (w : World T) (n : Nat) (F : Nat → Nat → T) (res : Res T Ref) : Prop :=
  ∃ p w', res = .ok p w' ∧ (∀ q, q < w.next → w'.heap q = w.heap q) ∧ (w'.heap p).WF ∧ (w'.heap p).kind = .dense ∧
    (w'.heap p).rows = n ∧ (w'.heap p).cols = n ∧ w'.cancel = w.cancel ∧ w'.gas = w.gas ∧
    ∀ i j, i < n → j < n → (w'.heap p).val i j = F i j

variable {T : Type} [GoRing T] [GoLawful T]

theorem pow_run (a : Ref) (n : Nat) : ∀ k, ((MExpr.var (T := T) a n n).pow k).run = powerOf a k
  | 0 => rfl
  | k + 1 => by
    show (do let x ← ((MExpr.var (T := T) a n n).pow k).run; let y ← (pure a : M T Ref); Meth.multiply x y) = _
    rw [pow_run a n k]
    rfl

/-- C102, any weights. After `k` rounds the matrix holds at `(v, s)` the sum, over all walks of `k + 1` edges from `s`
to `v`, of the products of their weights. -/
theorem C102_power {w : World T} {a : Ref} (k : Nat) (ha : a < w.next) (hA : (w.heap a).WF) (hd : (w.heap a).kind = .dense)
    (hsq : (w.heap a).cols = (w.heap a).rows) (hg : (w.heap a).rows * (w.heap a).rows ≤ w.gas) (hr : w.reg = initReg) :
    Gives w (w.heap a).rows (fun v s => walkSum (fun l r => (w.heap a).val r l) (w.heap a).rows s (k + 1) v)
      (powerOf a k w) := by
  have hG : (MExpr.var (T := T) a (w.heap a).rows (w.heap a).rows).Good w := ⟨ha, hA, hd, rfl, hsq⟩
  obtain ⟨p, w', h1, -, -, h4, h5, -, h7, h8, h9, h10, h11, h12⟩ := C66_power _ k hr hG (show _ * _ ≤ _ from hg)
  rw [pow_run] at h1
  refine ⟨p, w', h1, h4, h8, h9, h10, h11, h5, h7, fun i j hi hj => ?_⟩
  rw [show (w'.heap p).val i j = _ from h12 ⟨i, hi⟩ ⟨j, hj⟩, ← walkSum_pow _ ⟨j, hj⟩ (k + 1) ⟨i, hi⟩]
  refine walkSum_congr (fun u v hu hv => ?_) _ _ hi
  rw [dif_pos ⟨hv, hu⟩]
  rfl

/-- C102, graphs. When the cells are zeros and ones the matrix holds at `(v, s)` the number of walks of `k + 1` edges
from `s` to `v`, as a number of the element type. -/
theorem C102_count {w : World T} {a : Ref} (k : Nat) (ha : a < w.next) (hA : (w.heap a).WF) (hd : (w.heap a).kind = .dense)
    (hsq : (w.heap a).cols = (w.heap a).rows) (hg : (w.heap a).rows * (w.heap a).rows ≤ w.gas) (hr : w.reg = initReg)
    (h01 : ∀ i j, i < (w.heap a).rows → j < (w.heap a).cols → (w.heap a).val i j = 0 ∨ (w.heap a).val i j = 1)
    (hne : (1 : T) ≠ 0) :
    Gives w (w.heap a).rows (fun v s => (((pathsTo (edgeOf (w.heap a)) s (k + 1) v).ncard : Nat) : T)) (powerOf a k w) := by
  obtain ⟨p, w', h1, h2, h3, h4, h5, h6, h7, h8, h9⟩ := C102_power k ha hA hd hsq hg hr
  exact ⟨p, w', h1, h2, h3, h4, h5, h6, h7, h8, fun i j hi hj => (h9 i j hi hj).trans (walkSum_paths hsq h01 hne _ _ hi)⟩

/-- C102, totals. `ReduceMatrixToScalar` of the result is the number of all walks of `k + 1` edges. -/
theorem C102_total {w : World T} {a : Ref} (k : Nat) (ha : a < w.next) (hA : (w.heap a).WF) (hd : (w.heap a).kind = .dense)
    (hsq : (w.heap a).cols = (w.heap a).rows) (hg : (w.heap a).rows * (w.heap a).rows ≤ w.gas) (hr : w.reg = initReg)
    (hc : w.cancel = none)
    (h01 : ∀ i j, i < (w.heap a).rows → j < (w.heap a).cols → (w.heap a).val i j = 0 ∨ (w.heap a).val i j = 1)
    (hne : (1 : T) ≠ 0) :
    ∃ w', powerTotal a k w = .ok ((walksIn (edgeOf (w.heap a)) (w.heap a).rows (k + 1) : Nat) : T) w' ∧
      ∀ q, q < w.next → w'.heap q = w.heap q := by
  obtain ⟨p, w', h1, h2, h3, h4, h5, h6, h7, h8, h9⟩ := C102_count k ha hA hd hsq hg hr h01 hne
  refine ⟨w', ?_, h2⟩
  have hn : (w'.heap p).nvalues ≤ w'.gas := by
    rw [h8]
    refine Nat.le_trans (Nat.le_of_eq ?_) hg
    rw [← h5]
    cases hm : w'.heap p <;> rw [hm] at h4 h5 h6 <;> cases h4
    exact congrArg (_ * ·) (h6.trans h5.symm)
  unfold powerTotal
  rw [bind_ok h1, C31_sum_partial (mask := .nil) h3 hn (h7.trans hc) trivial trivial, h5, h6]
  congr 1
  unfold walksIn
  rw [Nat.cast_sum]
  refine Finset.sum_congr rfl fun i hi => ?_
  rw [Nat.cast_sum]
  refine Finset.sum_congr rfl fun j hj => ?_
  exact h9 i j (Finset.mem_range.1 hi) (Finset.mem_range.1 hj)

/-- C102, cycles. A graph of `n` vertices has a cycle exactly when the sum of the cells of the `n`-th power of its matrix
is not 0, unless the sum is too large for the element type. -/
theorem C102_cyclic {w : World T} {a : Ref} (ha : a < w.next) (hA : (w.heap a).WF) (hd : (w.heap a).kind = .dense)
    (hpos : 0 < (w.heap a).rows)
    (hsq : (w.heap a).cols = (w.heap a).rows) (hg : (w.heap a).rows * (w.heap a).rows ≤ w.gas) (hr : w.reg = initReg)
    (hc : w.cancel = none)
    (h01 : ∀ i j, i < (w.heap a).rows → j < (w.heap a).cols → (w.heap a).val i j = 0 ∨ (w.heap a).val i j = 1)
    (hne : (1 : T) ≠ 0)
    (hfit : ((walksIn (edgeOf (w.heap a)) (w.heap a).rows (w.heap a).rows : Nat) : T) = 0 →
      walksIn (edgeOf (w.heap a)) (w.heap a).rows (w.heap a).rows = 0) :
    ∃ x w', powerTotal a ((w.heap a).rows - 1) w = .ok x w' ∧ (x ≠ 0 ↔ Cyclic (edgeOf (w.heap a))) ∧
      ∀ q, q < w.next → w'.heap q = w.heap q := by
  obtain ⟨w', h1, h2⟩ := C102_total ((w.heap a).rows - 1) ha hA hd hsq hg hr hc h01 hne
  rw [Nat.sub_add_cancel hpos] at h1
  refine ⟨_, w', h1, ?_, h2⟩
  have hl : ∀ l r, edgeOf (w.heap a) l r → l < (w.heap a).rows := fun l r h => hsq ▸ h.1
  have hr : ∀ l r, edgeOf (w.heap a) l r → r < (w.heap a).rows := fun l r h => h.2.1
  unfold Cyclic
  rw [← Walk.long_iff hpos hl hr]
  have key : walksIn (edgeOf (w.heap a)) (w.heap a).rows (w.heap a).rows ≠ 0 ↔
      ∃ s v, s < (w.heap a).rows ∧ v < (w.heap a).rows ∧ Walk (edgeOf (w.heap a)) s (w.heap a).rows v := by
    unfold walksIn
    rw [ne_eq, Finset.sum_eq_zero_iff]
    simp only [Finset.sum_eq_zero_iff, Finset.mem_range, pathsTo_ncard hl]
    push Not
    exact ⟨fun ⟨v, hv, s, hs, h⟩ => ⟨s, v, hs, hv, h⟩, fun ⟨s, v, hs, hv, h⟩ => ⟨v, hv, s, hs, h⟩⟩
  rw [← key]
  exact ⟨fun h h0 => h (by rw [h0, Nat.cast_zero]), fun h h0 => h (hfit h0)⟩

/-- The matrix of ones: edges from every vertex to every vertex. -/
def full (T : Type) [GoNum T] [One T] (n : Nat) : Mat T := .dense ⟨n, n, List.replicate n (List.replicate n 1)⟩

/-- C102, when the sum is too large. The graph of 4 vertices with all edges has cycles, and 1024 walks of 4 edges. With
elements of type `int8` the sum of the cells of the fourth power is 0. -/
theorem C102_wraps : Cyclic (edgeOf (full (SInt 8) 4)) ∧
    (powerTotal 0 3 (World.of (T := SInt 8) 16 [full (SInt 8) 4])).val = some 0 := by
  refine ⟨⟨0, 1, Nat.one_pos, .succ .zero ⟨by decide, by decide, by decide +kernel⟩⟩, by decide +kernel⟩

namespace PowerEx

/-- `0 → 1 → 2` and `0 → 2`. -/
def dag : Mat ℤ := .dense ⟨3, 3, [[0, 0, 0], [1, 0, 0], [1, 1, 0]]⟩
/-- The same with `2 → 0`. -/
def ring : Mat ℤ := .dense ⟨3, 3, [[0, 0, 1], [1, 0, 0], [1, 1, 0]]⟩

example : (powerTotal 0 2 (World.of 9 [dag])).val = some 0 := by kernel_rfl
example : (powerTotal 0 2 (World.of 9 [ring])).val = some 7 := by kernel_rfl
example : ((powerOf 0 1 (World.of 9 [dag])).obj.map (·.val 2 0)) = some 1 := by kernel_rfl

theorem wf_dag : dag.WF := ⟨rfl, by simp⟩
theorem wf_ring : ring.WF := ⟨rfl, by simp⟩

/-- The hypotheses of `C102_cyclic` hold of both, so one has a cycle and the other has none. -/
example : ¬ Cyclic (edgeOf dag) := by
  obtain ⟨x, w', h1, h2, -⟩ := C102_cyclic (w := World.of 9 [dag]) (a := 0) (by decide) wf_dag rfl (by decide) rfl
    (by decide) rfl rfl (by
      intro i j hi hj
      have hi : i < 3 := hi
      have hj : j < 3 := hj
      interval_cases i <;> interval_cases j <;> decide +kernel) (by decide) (fun h => by exact_mod_cast h)
  have h3 : (powerTotal 0 2 (World.of 9 [dag])).val = some 0 := by kernel_rfl
  rw [show powerTotal 0 2 (World.of 9 [dag]) = _ from h1] at h3
  exact fun hc => h2.2 hc (Option.some.inj h3)

example : Cyclic (edgeOf ring) := by
  obtain ⟨x, w', h1, h2, -⟩ := C102_cyclic (w := World.of 9 [ring]) (a := 0) (by decide) wf_ring rfl (by decide) rfl
    (by decide) rfl rfl (by
      intro i j hi hj
      have hi : i < 3 := hi
      have hj : j < 3 := hj
      interval_cases i <;> interval_cases j <;> decide +kernel) (by decide) (fun h => by exact_mod_cast h)
  have h3 : (powerTotal 0 2 (World.of 9 [ring])).val = some 7 := by kernel_rfl
  rw [show powerTotal 0 2 (World.of 9 [ring]) = _ from h1] at h3
  exact h2.1 (by rw [Option.some.inj h3]; decide)

end PowerEx

end GB
