import Verif.Lemmas.LookCount

/-!
# C93: a cancelled operation stops where it stands
-/

namespace GB

set_option linter.unusedSectionVars false

variable {T : Type} [GoNum T]

/-- C93. Whatever the objects, the mask and the aliasing: an operation whose context is found cancelled at the `k+1`-st
look returns normally, with every object exactly as it is at that moment of the run that is never cancelled. If that run
looks at most `k` times, the cancellation makes no difference (to panics and endless loops either). -/
theorem C93_prefix (op : OpCall T) (mask : Mask) (out : Ref) (w : World T) (k : Nat) :
    op.run mask out { w with cancel := some k } =
      match (op.steps w.gas mask out).atLook k w with
      | some w' => .ok () { w' with cancel := some 0 }
      | none => (op.run mask out { w with cancel := none }).withCancel (some (k - (op.steps w.gas mask out).looks w)) := by
  rw [← OpCall.steps_run, ← OpCall.steps_run op mask out { w with cancel := none }]
  exact (Prog.Stops.steps w.gas op mask out).run k w

/-- … there is such a moment if and only if the run that is never cancelled looks more than `k` times, and that run goes
on from there: with the rest of the looks, to the outcome it has. -/
theorem C93_moment (op : OpCall T) (mask : Mask) (out : Ref) (w : World T) (k : Nat) :
    (k < (op.steps w.gas mask out).looks w ↔ ∃ w', (op.steps w.gas mask out).atLook k w = some w') ∧
    ∀ w', (op.steps w.gas mask out).atLook k w = some w' →
      ∃ f, op.run mask out { w with cancel := none } = (Prog.poll f).run { w' with cancel := none } ∧
        (op.steps w.gas mask out).looks w = k + (Prog.poll f).looks w' := by
  constructor
  · have h := Prog.atLook_isSome (op.steps w.gas mask out) k w
    constructor
    · intro hk
      rw [decide_eq_true hk] at h
      exact Option.isSome_iff_exists.1 h
    · rintro ⟨w', e⟩
      rw [e] at h
      simpa using h.symm
  · intro w' e
    rw [← OpCall.steps_run op mask out { w with cancel := none }]
    exact Prog.atLook_rest _ e

variable [GoStore T]

section
variable {w : World T} {op : OpCall T} {mask : Mask} {out : Ref}

theorem Mask.Sound.maskInv (h : mask.Sound w) : Prog.Calm.MaskInv w mask := by rintro p rfl; exact h

/-- The outcome of a cancelled run that returned: stopped at a look, or run to its end. -/
theorem cancelled_cases {k : Nat} {w1 : World T} (e : op.run mask out { w with cancel := some k } = .ok () w1) :
    (∃ w', (op.steps w.gas mask out).atLook k w = some w' ∧ w1 = { w' with cancel := some 0 }) ∨
    (∃ w', (op.steps w.gas mask out).run { w with cancel := none } = .ok () w' ∧
      (op.steps w.gas mask out).looks w ≤ k ∧ w1.heap = w'.heap) := by
  rw [C93_prefix] at e
  have hl := Prog.atLook_isSome (op.steps w.gas mask out) k w
  cases h : (op.steps w.gas mask out).atLook k w with
  | some w' => rw [h] at e; cases e; exact .inl ⟨w', rfl, rfl⟩
  | none =>
    rw [h] at e hl
    dsimp only at e
    rw [← OpCall.steps_run op mask out { w with cancel := none }] at e
    have hl : (op.steps w.gas mask out).looks w ≤ k := by simpa using hl
    cases hr : (op.steps w.gas mask out).run { w with cancel := none } with
    | ok a w' => 
      have hr' : (op.steps ({ w with cancel := none } : World T).gas mask out).run { w with cancel := none } = .ok a w' := hr
      rw [hr'] at e; cases e; exact .inr ⟨w', rfl, hl, rfl⟩
    | panic w' =>
      have hr' : (op.steps ({ w with cancel := none } : World T).gas mask out).run { w with cancel := none } = .panic w' := hr
      rw [hr'] at e; cases e
    | hang w' =>
      have hr' : (op.steps ({ w with cancel := none } : World T).gas mask out).run { w with cancel := none } = .hang w' := hr
      rw [hr'] at e; cases e

theorem CellsOnly.congr {a b b' : World T} {ps : List (Nat × Nat)} (h : CellsOnly out ps a b) (e : b'.heap = b.heap) :
    CellsOnly out ps a b' := by
  unfold CellsOnly at h ⊢; rw [e]; exact h

theorem CellsOnly.congrLeft {a a' b : World T} {ps : List (Nat × Nat)} (h : CellsOnly out ps a b) (e : a'.heap = a.heap) :
    CellsOnly out ps a' b := by
  unfold CellsOnly at h ⊢; rw [e]; exact h

theorem calm_start (hok : (w.heap out).kind ≠ .svec) (hop : ∀ q ∈ op.operands, (w.heap q).Inv) (hS : mask.Sound w)
    (hd : op.Maps out → (w.heap out).kind = .dense ∨ (w.heap out).kind = .dvec) (hi : op.Inner w) :
    Prog.Calm (Prog.Calm.From w out) out (fun _ _ => True) (op.steps w.gas mask out) (some false) := by
  have h := Prog.Calm.steps w.gas op hok hop hS.maskInv hd
  have e : Prog.Calm.start w op = some false := by
    cases op <;> first | rfl | exact if_neg hi
  rwa [e] at h

/-- C93. A call that is cancelled at its `k+1`-st look has changed at most `k` cells of the output, and nothing else. -/
theorem C93_cells (hok : (w.heap out).kind ≠ .svec) (ho : (w.heap out).Inv) (hop : ∀ q ∈ op.operands, (w.heap q).Inv)
    (hS : mask.Sound w) (hd : op.Maps out → (w.heap out).kind = .dense ∨ (w.heap out).kind = .dvec) (hi : op.Inner w)
    {k : Nat} {w1 : World T} (e : op.run mask out { w with cancel := some k } = .ok () w1) :
    ∃ ps, ps.length ≤ k ∧ CellsOnly out ps w w1 := by
  have hC := calm_start hok hop hS hd hi
  have hI : Prog.Calm.From w out w := Scene.init ho trivial
  rcases cancelled_cases e with ⟨w', h1, rfl⟩ | ⟨w', h1, h2, h3⟩
  · obtain ⟨ps, p1, p2, -⟩ := hC.upTo hI h1
    exact ⟨ps, by simpa using p1, p2⟩
  · obtain ⟨ps, p1, p2⟩ := hC.upEnd (by simp) (w := { w with cancel := none }) (hI.cancel none) rfl h1
    rw [Prog.looks_cancel] at p1
    have p1 : ps.length ≤ (op.steps w.gas mask out).looks w := by simpa using p1
    exact ⟨ps, by omega, CellsOnly.congr (a := w) p2 h3⟩

/-- C93. Cancelled `d` looks later, the call changes at most `d` further cells: between two looks at most one cell of the
output is written. -/
theorem C93_between (hok : (w.heap out).kind ≠ .svec) (ho : (w.heap out).Inv) (hop : ∀ q ∈ op.operands, (w.heap q).Inv)
    (hS : mask.Sound w) (hd : op.Maps out → (w.heap out).kind = .dense ∨ (w.heap out).kind = .dvec) (hi : op.Inner w)
    {k d : Nat} {w1 w2 : World T} (e1 : op.run mask out { w with cancel := some k } = .ok () w1)
    (e2 : op.run mask out { w with cancel := some (k + d) } = .ok () w2) :
    ∃ ps, ps.length ≤ d ∧ CellsOnly out ps w1 w2 := by
  have hC := calm_start hok hop hS hd hi
  have hI : Prog.Calm.From w out w := Scene.init ho trivial
  have hl := Prog.atLook_isSome (op.steps w.gas mask out) (k + d) w
  rcases cancelled_cases e1 with ⟨w', h1, rfl⟩ | ⟨w', h1, h2, h3⟩ <;>
  rcases cancelled_cases e2 with ⟨w'', g1, rfl⟩ | ⟨w'', g1, g2, g3⟩
  · obtain ⟨ps, p1, p2⟩ := hC.between hI h1 g1
    exact ⟨ps, p1, (p2.congr rfl).congrLeft rfl⟩
  · have h1' : (op.steps w.gas mask out).atLook k { w with cancel := none } = some { w' with cancel := none } := by
      rw [Prog.atLook_cancel, h1]; rfl
    obtain ⟨ps, p1, p2⟩ := hC.toEnd (w := { w with cancel := none }) (hI.cancel none) rfl h1' g1
    rw [Prog.looks_cancel] at p1
    exact ⟨ps, by omega, (p2.congr g3).congrLeft rfl⟩
  · rw [g1] at hl
    have : k + d < (op.steps w.gas mask out).looks w := by simpa using hl.symm
    omega
  · rw [h1] at g1; cases g1
    exact ⟨[], Nat.zero_le _, CellsOnly.of_heap (g3.trans h3.symm)⟩

/-- C93. A call that returns looks once for every entry it goes through; a multiplication once for every product of every
inner product. -/
theorem C93_looks (hop : ∀ q ∈ op.operands, (w.heap q).Inv) (ho : (w.heap out).Inv) (hS : mask.Sound w)
    (hr : op.Room w out) {w' : World T} (e : op.run mask out { w with cancel := none } = .ok () w') :
    (op.steps w.gas mask out).looks w = op.work w out := by
  rw [← OpCall.steps_run op mask out { w with cancel := none }] at e
  have := (Prog.Tally.steps (w0 := w) w.gas op hop ho hS.maskInv hr { w with cancel := none } () w' ⟨rfl, rfl⟩ rfl e).2
  rwa [Prog.looks_cancel] at this

/-- C93. So the cancellation is noticed if and only if it comes before the last look: a call that would return is cut short
by a cancellation at its `k+1`-st look exactly if it goes through more than `k` entries, and otherwise does all it would
have done. -/
theorem C93_noticed (hop : ∀ q ∈ op.operands, (w.heap q).Inv) (ho : (w.heap out).Inv) (hS : mask.Sound w)
    (hr : op.Room w out) {w' : World T} (e : op.run mask out { w with cancel := none } = .ok () w') (k : Nat) :
    ((∃ w1, (op.steps w.gas mask out).atLook k w = some w1) ↔ k < op.work w out) ∧
    (op.work w out ≤ k → op.run mask out { w with cancel := some k } = .ok () { w' with cancel := some (k - op.work w out) }) := by
  have hl := C93_looks hop ho hS hr e
  refine ⟨by rw [← hl]; exact (C93_moment op mask out w k).1.symm, fun hk => ?_⟩
  rw [C93_prefix]
  have hn : (op.steps w.gas mask out).atLook k w = none := by
    by_contra hne
    obtain ⟨w1, h1⟩ := Option.ne_none_iff_exists'.1 hne
    have := (C93_moment op mask out w k).1.2 ⟨w1, h1⟩
    omega
  rw [hn, e, hl]
  rfl

/-- C93. A multiplication whose inner products are empty never looks: it fills the output whatever the context says. -/
theorem C93_empty_inner (hop : ∀ q ∈ op.operands, (w.heap q).Inv) (ho : (w.heap out).Inv) (hS : mask.Sound w)
    (hr : op.Room w out) (hi : ¬ op.Inner w) {w' : World T} (e : op.run mask out { w with cancel := none } = .ok () w')
    (k : Nat) : op.run mask out { w with cancel := some k } = .ok () { w' with cancel := some k } := by
  have h0 : op.work w out = 0 := by
    cases op with
    | mxm s m => have : (w.heap s).cols = 0 := not_not.1 hi; simp [OpCall.work, this]
    | mxv s m => have : (w.heap s).cols = 0 := not_not.1 hi; simp [OpCall.work, this]
    | vxm s m => have : (w.heap m).cols = 0 := not_not.1 hi; simp [OpCall.work, this]
    | _ => exact absurd trivial hi
  have := (C93_noticed hop ho hS hr e k).2 (by omega)
  rwa [h0, Nat.sub_zero] at this

end

/-! ## Concrete cases -/

namespace LookEx

/-- Two vectors and an output. -/
def vs : World ℤ := World.of 9 [.dvec ⟨3, [1, 2, 3]⟩, .dvec ⟨3, [10, 20, 30]⟩, .dvec ⟨3, [7, 7, 7]⟩]

/-- The hypotheses of `C93_cells`, `C93_between` and `C93_looks` hold of `Add`, which goes through three entries. -/
example : (vs.heap 2).kind ≠ .svec ∧ (vs.heap 2).Inv ∧ (∀ q ∈ (OpCall.add 0 1 : OpCall ℤ).operands, (vs.heap q).Inv) ∧
    Mask.nil.Sound vs ∧ ¬ (OpCall.add 0 1 : OpCall ℤ).Maps 2 ∧ (OpCall.add 0 1 : OpCall ℤ).Inner vs ∧
    (OpCall.add 0 1 : OpCall ℤ).Room vs 2 ∧ (OpCall.add 0 1 : OpCall ℤ).work vs 2 = 3 :=
  ⟨by decide, rfl, by intro q hq; simp [OpCall.operands] at hq; rcases hq with rfl | rfl <;> rfl, trivial, id, trivial,
    fun _ => by decide, by kernel_rfl⟩

/-- Cancelled at its third look, `Add` has written two of the three sums. -/
example : (Ops.add 0 1 .nil 2 { vs with cancel := some 2 }).left 2 = some (.dvec ⟨3, [11, 22, 7]⟩) := by kernel_rfl

/-- That is what the output holds at the third look of the run that is never cancelled. -/
example : (((OpCall.add 0 1 : OpCall ℤ).steps 9 .nil 2).atLook 2 vs).map (fun w => w.heap 2)
    = some (.dvec ⟨3, [11, 22, 7]⟩) := by kernel_rfl

/-- A 2 × 0 matrix, a 0 × 2 matrix, and an output. -/
def empty : World ℤ := World.of 9 [.dense ⟨2, 0, [[], []]⟩, .dense ⟨0, 2, []⟩, .dense ⟨2, 2, [[1, 2], [3, 4]]⟩]

/-- The hypotheses of `C93_empty_inner`. -/
example : (∀ q ∈ (OpCall.mxm 0 1 : OpCall ℤ).operands, (empty.heap q).Inv) ∧ (empty.heap 2).Inv ∧
    (OpCall.mxm 0 1 : OpCall ℤ).Room empty 2 ∧ ¬ (OpCall.mxm 0 1 : OpCall ℤ).Inner empty :=
  ⟨by intro q hq; simp [OpCall.operands] at hq; rcases hq with rfl | rfl <;> exact ⟨rfl, by decide⟩, ⟨rfl, by decide⟩,
    ⟨by decide, by decide⟩, not_not.2 rfl⟩

/-- Cancelled before it starts, the product is written all the same. -/
example : (Ops.matrixMatrixMultiply 0 1 .nil 2 { empty with cancel := some 0 }).left 2
    = some (.dense ⟨2, 2, [[0, 0], [0, 0]]⟩) := by kernel_rfl

end LookEx

end GB
