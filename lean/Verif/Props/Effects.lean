import Verif.Props.Masks

/-!
# What operators touch, when they are cancelled, and when they panic: C23, C33, C46, C48
-/

namespace GB

set_option linter.unusedSectionVars false
set_option linter.unusedSimpArgs false

open M

section general
variable {T : Type} [GoNum T] [GoStore T]

/-! ## C23 -/

theorem frames_pre {n : Nat} {P : Ref → Prop} {c : Prop} [Decidable c] {x : M T Unit} (h : Frames n P x) :
    Frames n P (if c then (do let _ ← (fail : M T Unit); x) else x) :=
  Frames.ite (Frames.bind Frames.fail (fun _ => h)) h

theorem OpCall.frames {n : Nat} {P : Ref → Prop} (mask : Mask) (out : Ref) (ho : P out) (call : OpCall T) :
    Frames n P (call.run mask out) := by
  cases call with
  | mxm s m => exact Frames.multiply ho
  | mxv s m => exact Frames.multiply ho
  | vxm s m => exact Frames.multiply ho
  | add s m => exact Frames.add ho
  | subtract s m => exact Frames.subtract ho
  | eMulMatrix s m =>
    exact Frames.bind (Frames.rowsOf _) (fun _ => Frames.bind (Frames.colsOf _) (fun _ => frames_pre (Frames.elementWiseMultiply ho)))
  | eMulVector s m =>
    exact Frames.bind (Frames.rowsOf _) (fun _ => Frames.bind (Frames.rowsOf _) (fun _ => frames_pre (Frames.elementWiseMultiply ho)))
  | eAddMatrix s m =>
    exact Frames.bind (Frames.rowsOf _) (fun _ => Frames.bind (Frames.colsOf _) (fun _ => frames_pre (Frames.elementWiseAdd ho)))
  | eAddVector s m =>
    exact Frames.bind (Frames.rowsOf _) (fun _ => Frames.bind (Frames.rowsOf _) (fun _ => frames_pre (Frames.elementWiseAdd ho)))
  | apply s u => exact Frames.apply ho
  | negative s => exact Frames.negative (s := s) ho
  | transpose s => exact Frames.transpose ho

/-- C23. Every operator call, with any operands, mask, output and aliasing between them, any shapes,
any context and however it ends (return, panic, or still running when the gas is used up): no object
but the output is changed in any field, and the registry is not changed either. Asked of the state:
the objects other than the output are in states a program can bring about (`Reach.inv`); nothing is
asked of the output. -/
theorem C23_only_output (w : World T) (mask : Mask) (out : Ref) (call : OpCall T)
    (hI : ∀ q, q ≠ out → (w.heap q).Inv) :
    (∀ q, q ≠ out → (call.run mask out w).world.heap q = w.heap q) ∧ (call.run mask out w).world.reg = w.reg := by
  obtain ⟨h1, -, h3⟩ := OpCall.frames (n := 0) (P := (· = out)) mask out rfl call w (Nat.zero_le _) hI
  exact ⟨h1, h3⟩

/-- `Equal` and `NotEqual` have no output: they change nothing at all. -/
theorem C23_equal_reads_only (w : World T) (s m : Ref) (hI : ∀ q, (w.heap q).Inv) :
    (∀ q, (Ops.equal s m w).world.heap q = w.heap q) ∧ (∀ q, (Ops.notEqual s m w).world.heap q = w.heap q) := by
  refine ⟨fun q => (Frames.equal (n := 0) (P := fun _ => False) w (Nat.zero_le _) (fun q _ => hI q)).1 q (fun h => h), fun q => ?_⟩
  exact (Frames.bind (n := 0) (P := fun _ => False) Frames.equal (fun _ => Frames.pure _) w (Nat.zero_le _) (fun q _ => hI q)).1 q (fun h => h)

/-- The methods that return a new object or a Boolean. -/
inductive MethCall (T : Type) where
  | multiply (s m : Ref) | add (s m : Ref) | subtract (s m : Ref) | negative (s : Ref) | transpose (s : Ref)
  | scalar (s : Ref) (a : T) | equal (s m : Ref) | notEqual (s m : Ref)

/-- Perform the call, dropping its result. -/
def MethCall.run : MethCall T → M T Unit
  | .multiply s m => Meth.multiply s m >>= fun _ => pure ()
  | .add s m => Meth.add s m >>= fun _ => pure ()
  | .subtract s m => Meth.subtract s m >>= fun _ => pure ()
  | .negative s => Meth.negative s >>= fun _ => pure ()
  | .transpose s => Meth.transpose s >>= fun _ => pure ()
  | .scalar s a => Meth.scalar s a >>= fun _ => pure ()
  | .equal s m => Meth.equal s m >>= fun _ => pure ()
  | .notEqual s m => Meth.notEqual s m >>= fun _ => pure ()

/-- A fresh object is returned by `x`: one from `n` on. -/
theorem Frames.bind_fresh {n : Nat} {P : Ref → Prop} {β : Type} {x : M T Ref} {f : Ref → M T β}
    (hx : Frames n P x) (hr : ∀ w a w', x w = .ok a w' → n ≤ w.next → n ≤ a) (hf : ∀ a, n ≤ a → Frames n P (f a)) :
    Frames n P (x >>= f) := by
  intro w hn hI
  obtain ⟨h1, h2, h3⟩ := hx w hn hI
  rw [bind_apply]
  cases hxw : x w with
  | ok a w' =>
    rw [hxw] at h1 h2 h3
    obtain ⟨k1, k2, k3⟩ := hf a (hr w a w' hxw hn) w' h2 (fun q hq => by
      have := h1 q hq; simp only [Res.world] at this; rw [this]; exact hI q hq)
    exact ⟨fun q hq => (k1 q hq).trans (h1 q hq), k2, k3.trans h3⟩
  | panic w' => rw [hxw] at h1 h2 h3; exact ⟨h1, h2, h3⟩
  | hang w' => rw [hxw] at h1 h2 h3; exact ⟨h1, h2, h3⟩

theorem copy_fresh {p a : Ref} {w w' : World T} (h : M.copy p w = .ok a w') : w.next ≤ a := by
  unfold M.copy at h
  rw [bind_apply] at h
  unfold M.ofObj at h
  cases hc : (w.heap p).copy <;> rw [hc] at h
  · simp only [M.alloc, Res.ok.injEq] at h; rw [← h.1]
  · cases h
  · cases h

/-- C23 for the methods: whatever the operands, shapes, aliasing and outcome, every object that existed
before the call is unchanged. -/
theorem C23_methods_change_nothing (w : World T) (call : MethCall T) (hI : ∀ q, (w.heap q).Inv) :
    ∀ q, q < w.next → (call.run w).world.heap q = w.heap q := by
  have key : ∀ {x : M T Unit}, Frames w.next (fun q => w.next ≤ q) x → ∀ q, q < w.next → (x w).world.heap q = w.heap q := by
    intro x hx q hq
    exact (hx w (Nat.le_refl _) (fun q _ => hI q)).1 q (Nat.not_le.2 hq)
  have hP : ∀ q : Ref, w.next ≤ q → (fun q => w.next ≤ q) q := fun q h => h
  have hc : ∀ s, Frames w.next (fun q => w.next ≤ q) (M.copy s : M T Ref) := fun s => Frames.copy hP s
  have hcr : ∀ (s : Ref) (v : World T) (a : Ref) (v' : World T), M.copy s v = .ok a v' → w.next ≤ v.next → w.next ≤ a :=
    fun s v a v' h hn => Nat.le_trans hn (copy_fresh h)
  have hal : ∀ (f : World T → Mat T) (v : World T) (a : Ref) (v' : World T),
      (fun w => M.alloc (f w) w) v = .ok a v' → w.next ≤ v.next → w.next ≤ a := by
    intro f v a v' h hn
    simp only [M.alloc, Res.ok.injEq] at h
    rw [← h.1]; exact hn
  have hal' : ∀ (f : World T → Mat T), Frames w.next (fun q => w.next ≤ q) (fun w => M.alloc (f w) w : M T Ref) :=
    fun f v => Frames.alloc hP (f v) v
  cases call with
  | multiply s m =>
    exact key (Frames.bind (Frames.background (Frames.bind_fresh (hal' _) (hal _)
      (fun a ha => Frames.bind (Frames.multiply ha) (fun _ => Frames.pure _)))) (fun _ => Frames.pure _))
  | add s m =>
    exact key (Frames.bind (Frames.background (Frames.bind_fresh (hc s) (hcr s)
      (fun a ha => Frames.bind (Frames.add ha) (fun _ => Frames.pure _)))) (fun _ => Frames.pure _))
  | subtract s m =>
    refine key (Frames.bind (Frames.background (Frames.bind_fresh ?_ ?_
      (fun a ha => Frames.bind (Frames.subtract ha) (fun _ => Frames.pure _)))) (fun _ => Frames.pure _))
    · intro v
      cases hv : v.heap s <;> simp only [hv] <;> first | exact hc s v | exact hc m v
    · intro v a v' h hn
      cases hv : v.heap s <;> simp only [hv] at h <;> first | exact hcr m v a v' h hn | exact hcr s v a v' h hn
  | negative s =>
    exact key (Frames.bind (Frames.background (Frames.bind_fresh (hc s) (hcr s)
      (fun a ha => Frames.bind (Frames.negative (s := s) ha) (fun _ => Frames.pure _)))) (fun _ => Frames.pure _))
  | transpose s =>
    exact key (Frames.bind (Frames.background (Frames.bind_fresh (hal' _) (hal _)
      (fun a ha => Frames.bind (Frames.transpose ha) (fun _ => Frames.pure _)))) (fun _ => Frames.pure _))
  | scalar s a =>
    exact key (Frames.bind (Frames.background (Frames.bind_fresh (hc s) (hcr s)
      (fun a ha => Frames.bind (Frames.forMap ha (fun _ _ _ => Frames.pure _)) (fun _ => Frames.pure _)))) (fun _ => Frames.pure _))
  | equal s m => exact key (Frames.bind (Frames.background Frames.equal) (fun _ => Frames.pure _))
  | notEqual s m =>
    exact key (Frames.bind (Frames.background (Frames.bind Frames.equal (fun _ => Frames.pure _))) (fun _ => Frames.pure _))

/-! ## C33 -/

/-- C33's claim about one call: it returns, and every cell of the output then holds what it held or
what the call leaves there when it is not cancelled. -/
def CancelSafe (w : World T) (out : Ref) (run : M T Unit) : Prop :=
  ∃ o o', (run w).left out = some o ∧ (run { w with cancel := none }).left out = some o' ∧ SameShape o o' ∧
    ∀ i j, i < o.rows → j < o.cols → o.val i j = (w.heap out).val i j ∨ o.val i j = o'.val i j

theorem CancelSafe.of_writes {w : World T} {out : Ref} {run : M T Unit} {new : Nat → Nat → T}
    (h : Writes w out new (run w)) (h' : Writes { w with cancel := none } out new (run { w with cancel := none })) :
    CancelSafe w out run := by
  obtain ⟨m1, c1, h1, -, h3, h4, h5⟩ := h
  obtain ⟨m2, c2, k1, -, k3, k4, -⟩ := h'
  refine ⟨m1, m2, by rw [h1]; simp [Res.left, World.upd], by rw [k1]; simp [Res.left, World.upd],
    ⟨h3.2.1.trans k3.2.1.symm, h3.2.2.trans k3.2.2.symm⟩, ?_⟩
  intro i j hi hj
  rcases h5 i j hi hj with h | h
  · right
    rw [h, (k4 rfl).2 i j (by rw [k3.2.1]; exact h3.2.1 ▸ hi) (by rw [k3.2.2]; exact h3.2.2 ▸ hj)]
  · exact Or.inl h

/-- C33 for `MatrixMatrixMultiply` and `MatrixVectorMultiply`, at every cancellation point, with either
operand, or both, as output. -/
theorem C33_multiply_partial {w : World T} {s m out : Ref} {mask : Mask}
    (hs : (w.heap s).WF) (hm : (w.heap m).WF) (hout : (w.heap out).WF) (hk : (w.heap out).kind ≠ .svec)
    (h1 : (w.heap m).rows = (w.heap s).cols) (h2 : (w.heap out).rows = (w.heap s).rows)
    (h3 : (w.heap out).cols = (w.heap m).cols) (hF : mask.Fits w out) (hS : mask.Sound w) :
    CancelSafe w out (Ops.matrixMatrixMultiply s m mask out) := by
  by_cases hne : m = out
  · subst hne
    refine CancelSafe.of_writes (Ops.multiply_writes_right hs hm hk h1 h2 hF hS)
      ((Ops.multiply_writes_right (w := { w with cancel := none }) hs hm hk h1 h2 (by cases mask <;> exact hF)
        (by cases mask <;> exact hS)).congr ?_)
    intro i j _ _
    have : Mask.bit (T := T) { w with cancel := none } mask = mask.bit w := by cases mask <;> rfl
    simp only [this]
  · exact CancelSafe.of_writes (Ops.multiply_writes hs hm hout hk h1 h2 h3 hF hS hne)
      (Ops.multiply_writes (w := { w with cancel := none }) hs hm hout hk h1 h2 h3 (by cases mask <;> exact hF)
        (by cases mask <;> exact hS) hne)

/-- C33 for `Add`. -/
theorem C33_add_partial {w : World T} {s m out : Ref} {mask : Mask}
    (hs : (w.heap s).WF) (hm : (w.heap m).WF) (hout : (w.heap out).WF)
    (hk : (w.heap out).kind ≠ .svec) (h1 : SameShape (w.heap s) (w.heap m))
    (h2 : SameShape (w.heap s) (w.heap out)) (hF : mask.Fits w out) (hS : mask.Sound w)
    (hgs : (w.heap s).nvalues ≤ w.gas) (hgm : (w.heap m).nvalues ≤ w.gas)
    (hal : s ≠ out ∧ m ≠ out ∨ ∀ i j, i < (w.heap out).rows → j < (w.heap out).cols →
      Mat.Storable (w.heap out).kind ((w.heap s).val i j + (w.heap m).val i j) ∧
      Mat.Storable (w.heap out).kind ((w.heap m).val i j + (w.heap s).val i j)) :
    CancelSafe w out (Ops.add s m mask out) := by
  have hg : (w.heap (Ops.addOver w s m)).nvalues ≤ w.gas := by unfold Ops.addOver; split <;> assumption
  have ha : Ops.addOver w s m = out → ∀ i j, i < (w.heap out).rows → j < (w.heap out).cols →
      Mat.Storable (w.heap out).kind
        ((w.heap (Ops.addSource w s m)).val i j + (w.heap (Ops.addOver w s m)).val i j) := by
    intro ho i j hi hj
    rcases hal with ⟨ha, hb⟩ | hal
    · revert ho; unfold Ops.addOver; split <;> intro ho
      · exact absurd ho ha
      · exact absurd ho hb
    · unfold Ops.addOver Ops.addSource
      split
      · exact (hal i j hi hj).2
      · exact (hal i j hi hj).1
  have key : ∀ c : Option Nat, Writes { w with cancel := c } out _ (Ops.add s m mask out { w with cancel := c }) := fun c =>
    Ops.add_writes (w := { w with cancel := c }) (mask := mask) hs hm hout hk h1 h2 (by cases mask <;> exact hF)
      (by cases mask <;> exact hS) hg (fun ho i j hi hj _ _ => ha ho i j hi hj)
  refine CancelSafe.of_writes (key w.cancel) ((key none).congr ?_)
  intro i j _ _
  cases mask <;> rfl

/-- C33 for `Subtract`. -/
theorem C33_subtract_partial {w : World T} {s m out : Ref} {mask : Mask}
    (hs : (w.heap s).WF) (hout : (w.heap out).WF)
    (hk : (w.heap out).kind ≠ .svec) (h1 : SameShape (w.heap s) (w.heap m))
    (h2 : SameShape (w.heap s) (w.heap out)) (hF : mask.Fits w out) (hS : mask.Sound w)
    (hgs : (w.heap s).nvalues ≤ w.gas)
    (hal : s = out → ∀ i j, i < (w.heap out).rows → j < (w.heap out).cols →
      Mat.Storable (w.heap out).kind ((w.heap s).val i j - (w.heap out).val i j)) :
    CancelSafe w out (Ops.subtract s m mask out) := by
  have key : ∀ c : Option Nat, Writes { w with cancel := c } out _ (Ops.subtract s m mask out { w with cancel := c }) := fun c =>
    Ops.subtract_writes (w := { w with cancel := c }) (mask := mask) hs hout hk h1 h2 (by cases mask <;> exact hF)
      (by cases mask <;> exact hS) hgs (fun ho i j hi hj _ _ => hal ho i j hi hj)
  refine CancelSafe.of_writes (key w.cancel) ((key none).congr ?_)
  intro i j _ _
  cases mask <;> rfl

/-- C33 for `Negative`. -/
theorem C33_negative {w : World T} {s out : Ref} {mask : Mask}
    (hout : (w.heap out).WF) (hF : mask.Fits w out) (hS : mask.Sound w) (hgas : (w.heap out).nvalues ≤ w.gas)
    (hst : ∀ i j, i < (w.heap out).rows → j < (w.heap out).cols → (w.heap out).Visits i j →
      Mat.Storable (w.heap out).kind (-((w.heap out).val i j))) :
    CancelSafe w out (Ops.negative s mask out) := by
  have key : ∀ c : Option Nat, Writes { w with cancel := c } out _ (Ops.negative s mask out { w with cancel := c }) := fun c =>
    Ops.negative_writes (w := { w with cancel := c }) (mask := mask) hout (by cases mask <;> exact hF)
      (by cases mask <;> exact hS) hgas (fun i j hi hj hv _ => hst i j hi hj hv)
  refine CancelSafe.of_writes (key w.cancel) ((key none).congr ?_)
  intro i j _ _
  cases mask <;> rfl

/-- C33 for `Transpose` into a separate output, with no mask, or a square output and a mask that is not
the output. -/
theorem C33_transpose_partial {w : World T} {s out : Ref} {mask : Mask}
    (hs : (w.heap s).WF) (hout : (w.heap out).WF) (hk : (w.heap out).kind ≠ .svec) (hne : s ≠ out)
    (hshape : (w.heap s).rows = (w.heap out).cols ∧ (w.heap s).cols = (w.heap out).rows)
    (hF : mask.Fits w out) (hS : mask.Sound w)
    (hsq : (w.heap out).rows = (w.heap out).cols ∨ mask.Blank) (hmo : mask ≠ .ref out)
    (hgas : (w.heap s).nvalues ≤ w.gas) :
    CancelSafe w out (Ops.transpose s mask out) := by
  have key : ∀ c : Option Nat, Writes { w with cancel := c } out _ (Ops.transpose s mask out { w with cancel := c }) := fun c =>
    Ops.transpose_writes (w := { w with cancel := c }) (mask := mask) hs hout hk hne hshape (by cases mask <;> exact hF)
      (by cases mask <;> exact hS) hsq hmo hgas
  refine CancelSafe.of_writes (key w.cancel) ((key none).congr ?_)
  intro i j _ _
  cases mask <;> rfl

/-- C33 for `Apply` into a separate output, and in place. -/
theorem C33_apply_partial {w : World T} {s out : Ref} {mask : Mask} {u : T → T}
    (hs : (w.heap s).WF) (hout : (w.heap out).WF) (hk : (w.heap out).kind ≠ .svec)
    (hF : mask.Fits w out) (hS : mask.Sound w) (hgas : (w.heap s).nvalues ≤ w.gas)
    (hsep : s ≠ out → ((w.heap s).rows = (w.heap out).cols ∧ (w.heap s).cols = (w.heap out).rows) ∧
      ((w.heap out).rows = (w.heap out).cols ∨ mask.Blank) ∧ mask ≠ .ref out)
    (hst : s = out → ∀ i j, i < (w.heap out).rows → j < (w.heap out).cols → (w.heap out).Visits i j →
      mask.bit w i j = true → Mat.Storable (w.heap out).kind (u ((w.heap out).val i j))) :
    CancelSafe w out (Ops.apply s mask u out) := by
  by_cases hso : s = out
  · subst hso
    have key : ∀ c : Option Nat, Writes { w with cancel := c } s _ (Ops.apply s mask u s { w with cancel := c }) := fun c =>
      Ops.apply_inplace_writes (w := { w with cancel := c }) (mask := mask) hout (by cases mask <;> exact hF)
        (by cases mask <;> exact hS) hgas (fun i j hi hj hv hb => hst rfl i j hi hj hv (by cases mask <;> exact hb))
    refine CancelSafe.of_writes (key w.cancel) ((key none).congr ?_)
    intro i j _ _
    cases mask <;> rfl
  · obtain ⟨hshape, hsq, hmo⟩ := hsep hso
    have key : ∀ c : Option Nat, Writes { w with cancel := c } out _ (Ops.apply s mask u out { w with cancel := c }) := fun c =>
      Ops.apply_writes (w := { w with cancel := c }) (mask := mask) hs hout hk hso hshape (by cases mask <;> exact hF)
        (by cases mask <;> exact hS) hsq hmo hgas
    refine CancelSafe.of_writes (key w.cancel) ((key none).congr ?_)
    intro i j _ _
    cases mask <;> rfl

/-- C33 for the element-wise product (both entry points). -/
theorem C33_elementWiseMultiply_partial {w : World T} {s m out : Ref} {mask : Mask}
    (hs : (w.heap s).WF) (hm : (w.heap m).WF) (hout : (w.heap out).WF) (hk : (w.heap out).kind ≠ .svec)
    (h1 : SameShape (w.heap s) (w.heap out)) (h2 : SameShape (w.heap m) (w.heap out))
    (hF : mask.Fits w out) (hS : mask.Sound w)
    (hgs : (w.heap s).nvalues ≤ w.gas) (hgm : (w.heap m).nvalues ≤ w.gas)
    (hrefl : s = out → m = out → ∀ i j, i < (w.heap out).rows → j < (w.heap out).cols →
      GoNum.geq ((w.heap out).val i j) ((w.heap out).val i j) = true) :
    CancelSafe w out (Ops.elementWiseVectorMultiply s m mask out) ∧
    ((w.heap m).rows = (w.heap s).cols → CancelSafe w out (Ops.elementWiseMatrixMultiply s m mask out)) := by
  have key : ∀ c : Option Nat, Writes { w with cancel := c } out _ (Ops.elementWiseMultiply s m mask out { w with cancel := c }) := fun c =>
    Ops.eMul_writes (w := { w with cancel := c }) (mask := mask) hs hm hout hk h1 h2 (by cases mask <;> exact hF)
      (by cases mask <;> exact hS) hgs hgm hrefl
  have hsafe : CancelSafe w out (Ops.elementWiseMultiply s m mask out) := by
    refine CancelSafe.of_writes (key w.cancel) ((key none).congr ?_)
    intro i j _ _
    cases mask <;> rfl
  constructor
  · have : ∀ c : Option Nat, Ops.elementWiseVectorMultiply s m mask out { w with cancel := c } =
        Ops.elementWiseMultiply s m mask out { w with cancel := c } := by
      intro c
      have : (w.heap m).rows = (w.heap s).rows := h2.1.trans h1.1.symm
      unfold Ops.elementWiseVectorMultiply
      rw [bind_apply]; simp only [rowsOf]; rw [bind_apply]; simp only [rowsOf]; simp [this]
    unfold CancelSafe at hsafe ⊢
    rw [this none, show Ops.elementWiseVectorMultiply s m mask out w = _ from this w.cancel]; exact hsafe
  · intro hsq
    have : ∀ c : Option Nat, Ops.elementWiseMatrixMultiply s m mask out { w with cancel := c } =
        Ops.elementWiseMultiply s m mask out { w with cancel := c } := by
      intro c
      unfold Ops.elementWiseMatrixMultiply
      rw [bind_apply]; simp only [rowsOf]; rw [bind_apply]; simp only [colsOf]; simp [hsq]
    unfold CancelSafe at hsafe ⊢
    rw [this none, show Ops.elementWiseMatrixMultiply s m mask out w = _ from this w.cancel]; exact hsafe

/-- C33 for the element-wise sum, the part that holds: the call returns, and every cell holds its old
value, the final value, or the value of the left operand — an intermediate result of the two-pass
algorithm (so the full claim is false: `C33_refuted_eadd`); if one of the passes is skipped because the
output is an operand, or the operands have no common non-zero cell, the full claim holds. -/
theorem C33_elementWiseAdd_partial {w : World T} {s m out : Ref} {mask : Mask}
    (hs : (w.heap s).WF) (hm : (w.heap m).WF) (hout : (w.heap out).WF) (hk : (w.heap out).kind ≠ .svec)
    (h1 : SameShape (w.heap s) (w.heap out)) (h2 : SameShape (w.heap m) (w.heap out))
    (hF : mask.Fits w out) (hS : mask.Sound w) (hmo : mask ≠ .ref out)
    (hgs : (w.heap s).nvalues ≤ w.gas) (hgm : (w.heap m).nvalues ≤ w.gas) :
    ∃ o o', (Ops.elementWiseVectorAdd s m mask out w).left out = some o ∧
      (Ops.elementWiseVectorAdd s m mask out { w with cancel := none }).left out = some o' ∧ SameShape o o' ∧
      ∀ i j, i < o.rows → j < o.cols → o.val i j = (w.heap out).val i j ∨ o.val i j = o'.val i j ∨
        (mask.bit w i j = false ∧ o.val i j = (w.heap out).keep ((w.heap s).val i j)) := by
  have hv : ∀ c : Option Nat, Ops.elementWiseVectorAdd s m mask out { w with cancel := c } =
      Ops.elementWiseAdd s m mask out { w with cancel := c } := by
    intro c
    have : (w.heap m).rows = (w.heap s).rows := h2.1.trans h1.1.symm
    unfold Ops.elementWiseVectorAdd
    rw [bind_apply]; simp only [rowsOf]; rw [bind_apply]; simp only [rowsOf]; simp [this]
  obtain ⟨m1, c1, e1, -, e3, -, e5⟩ := Ops.eAdd_ok hs hm hout hk h1 h2 hF hS hmo hgs hgm
  obtain ⟨m2, c2, k1, -, k3, k4, -⟩ := Ops.eAdd_ok (w := { w with cancel := none }) hs hm hout hk h1 h2 (mask := mask)
    (by cases mask <;> exact hF) (by cases mask <;> exact hS) hmo hgs hgm
  refine ⟨m1, m2, ?_, ?_, ⟨e3.2.1.trans k3.2.1.symm, e3.2.2.trans k3.2.2.symm⟩, ?_⟩
  · rw [show Ops.elementWiseVectorAdd s m mask out w = _ from hv w.cancel, e1]; simp [Res.left, World.upd]
  · rw [hv none, k1]; simp [Res.left, World.upd]
  · intro i j hi hj
    have hi' : i < (w.heap out).rows := e3.2.1 ▸ hi
    have hj' : j < (w.heap out).cols := e3.2.2 ▸ hj
    rcases e5 i j hi' hj' with h | h | h
    · refine Or.inr (Or.inl ?_)
      rw [h, (k4 rfl).2 i j hi' hj']
      unfold Ops.eAddNew
      cases mask <;> rfl
    · exact Or.inl h
    · exact Or.inr (Or.inr h)

/-- A context that is already cancelled: `Add`, `Subtract`, `Transpose`, `Apply`, `Negative` and the
element-wise operations return at once and change nothing at all (whatever the contents). -/
theorem C33_cancelled_before_start (w : World T) (mask : Mask) (out : Ref) (call : OpCall T)
    (hcall : match call with | .mxm .. | .mxv .. | .vxm .. => False | _ => True)
    (hc : w.cancel = some 0) (hg : 0 < w.gas) (hF : mask.Fits w out) (hnp : ∀ w', call.run mask out w ≠ .panic w') :
    call.run mask out w = .ok () w := by
  have hpoll : (poll : M T Bool) w = .ok true w := by unfold poll; rw [hc]
  have hfor : ∀ {β : Type} (p : Ref) (b : β) (body : Nat → Nat → T → M T (Option β)),
      ∃ x, forEach p (some b) body w = .ok x w := by
    intro β p b body
    obtain ⟨g, hg'⟩ : ∃ g, w.gas = g + 1 := ⟨w.gas - 1, by omega⟩
    show ∃ x, loopIter p (some b) body w.gas (w.heap p).iter w = .ok x w
    rw [hg']
    unfold loopIter
    by_cases h : (w.heap p).iter.hasNext
    · refine ⟨some b, ?_⟩
      simp only [h, if_true]
      rw [bind_ok hpoll]; rfl
    · exact ⟨none, by simp only [h]; rfl⟩
  have hmap : ∀ (p : Ref) (f : Nat → Nat → T → M T T), ∃ x, forMap p true f w = .ok x w := by
    intro p f
    obtain ⟨g, hg'⟩ : ∃ g, w.gas = g + 1 := ⟨w.gas - 1, by omega⟩
    show ∃ x, loopMap p true f w.gas (w.heap p).iter w = .ok x w
    rw [hg']
    unfold loopMap
    by_cases h : (w.heap p).iter.hasNext
    · refine ⟨true, ?_⟩
      simp only [h, if_true]
      rw [bind_ok hpoll]; rfl
    · exact ⟨false, by simp only [h]; rfl⟩
  have hfor' : ∀ {β : Type} (p : Ref) (b : β) (body : Nat → Nat → T → M T (Option β)),
      (forEach p (some b) body >>= fun _ => (pure () : M T Unit)) w = .ok () w := by
    intro β p b body
    obtain ⟨x, hx⟩ := hfor p b body
    rw [bind_ok hx]; rfl
  have hmap' : ∀ (p : Ref) (f : Nat → Nat → T → M T T),
      (forMap p true f >>= fun _ => (pure () : M T Unit)) w = .ok () w := by
    intro p f
    obtain ⟨x, hx⟩ := hmap p f
    rw [bind_ok hx]; rfl
  have hpre : ∀ {c : Prop} [Decidable c] {x : M T Unit}, ((if c then (do let _ ← (fail : M T Unit); x) else x) w ≠ .panic w) →
      x w = .ok () w → (if c then (do let _ ← (fail : M T Unit); x) else x) w = .ok () w := by
    intro c _ x hn hx
    split
    · rename_i h; rw [if_pos h] at hn; exact absurd rfl hn
    · exact hx
  have hmul : ∀ s m : Ref, Ops.elementWiseMultiply s m mask out w = .ok () w := by
    intro s m
    refine (Mask.pre_ok hF _).trans ?_
    dsimp only
    split
    · exact hfor' _ _ _
    · split
      · exact hfor' _ _ _
      · rw [bind_ok (show isSparse s w = .ok _ w from rfl)]
        split <;> exact hfor' _ _ _
  have hadd : ∀ s m : Ref, Ops.elementWiseAdd s m mask out w = .ok () w := by
    intro s m
    refine (Mask.pre_ok hF _).trans ?_
    have h2 : ∀ x : Option Unit, (match x with
        | some PUnit.unit => (pure () : M T Unit)
        | none => if m ≠ out then (do let _ ← Ops.eAddLoop m (mask.resolve w out) out; pure ()) else pure ()) w = .ok () w := by
      intro x
      cases x with
      | some u => rfl
      | none =>
        dsimp only
        split
        · exact hfor' _ _ _
        · rfl
    dsimp only
    split
    · obtain ⟨x, hx⟩ := hfor s () (fun r c value => do
        if !isZero value then do
          let e ← (mask.resolve w out).element r c
          if !e then set out r c value
        pure none)
      exact (bind_ok hx).trans (h2 x)
    · exact h2 none
  cases call with
  | mxm s m => exact hcall.elim
  | mxv s m => exact hcall.elim
  | vxm s m => exact hcall.elim
  | add s m =>
    have h : SameShape (w.heap s) (w.heap m) := by
      by_contra h; exact absurd (Ops.add_panic (fun h' => h h'.1)) (hnp w)
    show Ops.add s m mask out w = _
    unfold Ops.add
    rw [bind_ok (show colsOf s w = .ok _ w from rfl), bind_ok (show colsOf m w = .ok _ w from rfl)]
    simp only [h.2, ne_eq, not_true, if_false]
    rw [bind_ok (show rowsOf s w = .ok _ w from rfl), bind_ok (show rowsOf m w = .ok _ w from rfl)]
    simp only [h.1, ne_eq, not_true, if_false]
    refine (Mask.pre_ok hF _).trans ?_
    rw [bind_ok (show isSparse s w = .ok _ w from rfl)]
    exact hfor' _ _ _
  | subtract s m =>
    have h : SameShape (w.heap s) (w.heap m) := by
      by_contra h; exact absurd (Ops.subtract_panic (fun h' => h h'.1)) (hnp w)
    show Ops.subtract s m mask out w = _
    unfold Ops.subtract
    rw [bind_ok (show colsOf s w = .ok _ w from rfl), bind_ok (show colsOf m w = .ok _ w from rfl)]
    simp only [h.2, ne_eq, not_true, if_false]
    rw [bind_ok (show rowsOf s w = .ok _ w from rfl), bind_ok (show rowsOf m w = .ok _ w from rfl)]
    simp only [h.1, ne_eq, not_true, if_false]
    refine (Mask.pre_ok hF _).trans ?_
    exact hfor' _ _ _
  | eMulMatrix s m => exact hpre (hnp w) (hmul s m)
  | eMulVector s m => exact hpre (hnp w) (hmul s m)
  | eAddMatrix s m => exact hpre (hnp w) (hadd s m)
  | eAddVector s m => exact hpre (hnp w) (hadd s m)
  | apply s u =>
    refine (Mask.pre_ok hF _).trans ?_
    split
    · exact hmap' _ _
    · exact hfor' _ _ _
  | negative s => exact (Mask.pre_ok hF _).trans (hmap' _ _)
  | transpose s => exact (Mask.pre_ok hF _).trans (hfor' _ _ _)

/-! ## C48 -/

/-- C48 for multiplication: given an output of the product's shape, the call panics exactly when the
inner dimensions or the mask's shape do not fit, and then the state is as it was. The output may be
either operand, or both. -/
theorem C48_multiply_partial {w : World T} {s m out : Ref} {mask : Mask}
    (hs : (w.heap s).WF) (hm : (w.heap m).WF) (hout : (w.heap out).WF) (hk : (w.heap out).kind ≠ .svec)
    (h2 : (w.heap out).rows = (w.heap s).rows) (h3 : (w.heap out).cols = (w.heap m).cols)
    (hS : mask.Sound w) :
    ((Ops.matrixMatrixMultiply s m mask out w).isPanic = true ↔
      ¬ ((w.heap m).rows = (w.heap s).cols ∧ mask.Fits w out)) ∧
    ((Ops.matrixMatrixMultiply s m mask out w).isPanic = true → Ops.matrixMatrixMultiply s m mask out w = .panic w) := by
  by_cases h : (w.heap m).rows = (w.heap s).cols ∧ mask.Fits w out
  · obtain ⟨m', c, e⟩ : ∃ m' c, Ops.multiply s m mask out w = .ok () (w.upd out m' c) := by
      by_cases hne : m = out
      · subst hne
        obtain ⟨m', c, e, -⟩ := Ops.multiply_writes_right hs hm hk h.1 h2 h.2 hS
        exact ⟨m', c, e⟩
      · obtain ⟨m', c, e, -⟩ := Ops.multiply_writes hs hm hout hk h.1 h2 h3 h.2 hS hne
        exact ⟨m', c, e⟩
    rw [show Ops.matrixMatrixMultiply s m mask out w = _ from e]
    exact ⟨⟨(fun h => by cases h), fun h' => absurd h h'⟩, fun h => by cases h⟩
  · rw [show Ops.matrixMatrixMultiply s m mask out w = _ from Ops.multiply_panic h]
    exact ⟨⟨fun _ => h, fun _ => rfl⟩, fun _ => rfl⟩

/-- C48 for `Add`. -/
theorem C48_add_partial {w : World T} {s m out : Ref} {mask : Mask}
    (hs : (w.heap s).WF) (hm : (w.heap m).WF) (hout : (w.heap out).WF)
    (hk : (w.heap out).kind ≠ .svec) (h2 : SameShape (w.heap s) (w.heap out)) (hS : mask.Sound w)
    (hgs : (w.heap s).nvalues ≤ w.gas) (hgm : (w.heap m).nvalues ≤ w.gas) (hal : s ≠ out ∧ m ≠ out ∨
      ∀ i j, i < (w.heap out).rows → j < (w.heap out).cols →
        Mat.Storable (w.heap out).kind ((w.heap s).val i j + (w.heap m).val i j) ∧
        Mat.Storable (w.heap out).kind ((w.heap m).val i j + (w.heap s).val i j)) :
    ((Ops.add s m mask out w).isPanic = true ↔ ¬ (SameShape (w.heap s) (w.heap m) ∧ mask.Fits w out)) ∧
    ((Ops.add s m mask out w).isPanic = true → Ops.add s m mask out w = .panic w) := by
  by_cases h : SameShape (w.heap s) (w.heap m) ∧ mask.Fits w out
  · obtain ⟨o, -, e, -⟩ := C33_add_partial hs hm hout hk h.1 h2 h.2 hS hgs hgm hal
    have hn : (Ops.add s m mask out w).isPanic = false := by
      revert e; cases Ops.add s m mask out w <;> intro e <;> first | rfl | cases e
    rw [hn]
    exact ⟨⟨(fun h => by cases h), fun h' => absurd h h'⟩, fun h => by cases h⟩
  · rw [Ops.add_panic h]
    exact ⟨⟨fun _ => h, fun _ => rfl⟩, fun _ => rfl⟩

/-- C48 for `Subtract`. -/
theorem C48_subtract_partial {w : World T} {s m out : Ref} {mask : Mask}
    (hs : (w.heap s).WF) (hout : (w.heap out).WF)
    (hk : (w.heap out).kind ≠ .svec) (h2 : SameShape (w.heap s) (w.heap out)) (hS : mask.Sound w)
    (hgs : (w.heap s).nvalues ≤ w.gas)
    (hal : s = out → ∀ i j, i < (w.heap out).rows → j < (w.heap out).cols →
      Mat.Storable (w.heap out).kind ((w.heap s).val i j - (w.heap out).val i j)) :
    ((Ops.subtract s m mask out w).isPanic = true ↔ ¬ (SameShape (w.heap s) (w.heap m) ∧ mask.Fits w out)) ∧
    ((Ops.subtract s m mask out w).isPanic = true → Ops.subtract s m mask out w = .panic w) := by
  by_cases h : SameShape (w.heap s) (w.heap m) ∧ mask.Fits w out
  · obtain ⟨o, -, e, -⟩ := C33_subtract_partial hs hout hk h.1 h2 h.2 hS hgs hal
    have hn : (Ops.subtract s m mask out w).isPanic = false := by
      revert e; cases Ops.subtract s m mask out w <;> intro e <;> first | rfl | cases e
    rw [hn]
    exact ⟨⟨(fun h => by cases h), fun h' => absurd h h'⟩, fun h => by cases h⟩
  · rw [Ops.subtract_panic h]
    exact ⟨⟨fun _ => h, fun _ => rfl⟩, fun _ => rfl⟩

/-- C48 for the element-wise operations on vectors (objects with one column) with an output of the left
operand's length. -/
theorem C48_vector_elementWise_partial {w : World T} {s m out : Ref} {mask : Mask}
    (hs : (w.heap s).WF) (hm : (w.heap m).WF) (hout : (w.heap out).WF) (hk : (w.heap out).kind ≠ .svec)
    (hcs : (w.heap s).cols = 1) (hcm : (w.heap m).cols = 1)
    (h1 : SameShape (w.heap s) (w.heap out)) (hS : mask.Sound w)
    (hgs : (w.heap s).nvalues ≤ w.gas) (hgm : (w.heap m).nvalues ≤ w.gas) :
    ((s = out → m = out → ∀ i j, i < (w.heap out).rows → j < (w.heap out).cols →
        GoNum.geq ((w.heap out).val i j) ((w.heap out).val i j) = true) →
      ((Ops.elementWiseVectorMultiply s m mask out w).isPanic = true ↔
        ¬ ((w.heap m).rows = (w.heap s).rows ∧ mask.Fits w out)) ∧
      ((Ops.elementWiseVectorMultiply s m mask out w).isPanic = true →
        Ops.elementWiseVectorMultiply s m mask out w = .panic w)) ∧
    (mask ≠ .ref out →
      ((Ops.elementWiseVectorAdd s m mask out w).isPanic = true ↔
        ¬ ((w.heap m).rows = (w.heap s).rows ∧ mask.Fits w out)) ∧
      ((Ops.elementWiseVectorAdd s m mask out w).isPanic = true →
        Ops.elementWiseVectorAdd s m mask out w = .panic w)) := by
  constructor
  · intro hrefl
    by_cases h : (w.heap m).rows = (w.heap s).rows ∧ mask.Fits w out
    · have h2 : SameShape (w.heap m) (w.heap out) := ⟨h.1.trans h1.1, by rw [hcm, ← hcs]; exact h1.2⟩
      obtain ⟨o, -, e, -⟩ := (C33_elementWiseMultiply_partial hs hm hout hk h1 h2 h.2 hS hgs hgm hrefl).1
      have hn : (Ops.elementWiseVectorMultiply s m mask out w).isPanic = false := by
        revert e; cases Ops.elementWiseVectorMultiply s m mask out w <;> intro e <;> first | rfl | cases e
      rw [hn]
      exact ⟨⟨(fun h => by cases h), fun h' => absurd h h'⟩, fun h => by cases h⟩
    · rw [eMulV_panic h]
      exact ⟨⟨fun _ => h, fun _ => rfl⟩, fun _ => rfl⟩
  · intro hmo
    by_cases h : (w.heap m).rows = (w.heap s).rows ∧ mask.Fits w out
    · have h2 : SameShape (w.heap m) (w.heap out) := ⟨h.1.trans h1.1, by rw [hcm, ← hcs]; exact h1.2⟩
      obtain ⟨o, -, e, -⟩ := C33_elementWiseAdd_partial hs hm hout hk h1 h2 h.2 hS hmo hgs hgm
      have hn : (Ops.elementWiseVectorAdd s m mask out w).isPanic = false := by
        revert e; cases Ops.elementWiseVectorAdd s m mask out w <;> intro e <;> first | rfl | cases e
      rw [hn]
      exact ⟨⟨(fun h => by cases h), fun h' => absurd h h'⟩, fun h => by cases h⟩
    · rw [eAddV_panic h]
      exact ⟨⟨fun _ => h, fun _ => rfl⟩, fun _ => rfl⟩

/-- C48, for every operator and with nothing asked of the contents: incompatible operand shapes or a
mask of the wrong shape make the call panic with the state exactly as it was. -/
theorem C48_rejected_writes_nothing (w : World T) (mask : Mask) (out : Ref) (call : OpCall T)
    (h : ¬ (mask.Fits w out ∧ match call with
      | .mxm s m | .mxv s m => (w.heap m).rows = (w.heap s).cols
      | .vxm s m => (w.heap s).rows = (w.heap m).cols
      | .add s m | .subtract s m => SameShape (w.heap s) (w.heap m)
      | .eMulVector s m | .eAddVector s m => (w.heap m).rows = (w.heap s).rows
      | .eMulMatrix s m | .eAddMatrix s m => (w.heap m).rows = (w.heap s).cols
      | _ => True)) :
    call.run mask out w = .panic w := by
  cases call with
  | mxm s m => exact Ops.multiply_panic (fun h' => h h'.symm)
  | mxv s m => exact Ops.multiply_panic (fun h' => h h'.symm)
  | vxm s m => exact Ops.multiply_panic (fun h' => h h'.symm)
  | add s m => exact Ops.add_panic (fun h' => h h'.symm)
  | subtract s m => exact Ops.subtract_panic (fun h' => h h'.symm)
  | eMulMatrix s m => exact eMulM_panic (fun h' => h h'.symm)
  | eMulVector s m => exact eMulV_panic (fun h' => h h'.symm)
  | eAddMatrix s m => exact eAddM_panic (fun h' => h h'.symm)
  | eAddVector s m => exact eAddV_panic (fun h' => h h'.symm)
  | apply s u => exact Ops.apply_panic (fun h' => h ⟨h', trivial⟩)
  | negative s => exact Ops.negative_panic (s := s) (fun h' => h ⟨h', trivial⟩)
  | transpose s => exact Ops.transpose_panic (fun h' => h ⟨h', trivial⟩)

/-! ## C46 -/

/-- C46's claim about one operator: `s` and `sep` are two objects with the same contents; using `s` as
output gives the same cells as using `sep`. -/
def AliasSame (w : World T) (al sep : Ref) (run : Ref → M T Unit) : Prop :=
  ∃ o o', (run al w).left al = some o ∧ (run sep w).left sep = some o' ∧ SameShape o o' ∧
    ∀ i j, i < o.rows → j < o.cols → o.val i j = o'.val i j

theorem AliasSame.of_writes {w : World T} {al sep : Ref} {run : Ref → M T Unit} {new new' : Nat → Nat → T}
    (hc : w.cancel = none) (he : w.heap sep = w.heap al)
    (h : Writes w al new (run al w)) (h' : Writes w sep new' (run sep w))
    (hn : ∀ i j, i < (w.heap al).rows → j < (w.heap al).cols → new i j = new' i j) : AliasSame w al sep run := by
  obtain ⟨m1, c1, h1, -, h3, h4, -⟩ := h
  obtain ⟨m2, c2, k1, -, k3, k4, -⟩ := h'
  rw [he] at k3
  refine ⟨m1, m2, by rw [h1]; simp [Res.left, World.upd], by rw [k1]; simp [Res.left, World.upd],
    ⟨h3.2.1.trans k3.2.1.symm, h3.2.2.trans k3.2.2.symm⟩, ?_⟩
  intro i j hi hj
  have hi' : i < (w.heap al).rows := h3.2.1 ▸ hi
  have hj' : j < (w.heap al).cols := h3.2.2 ▸ hj
  rw [(h4 hc).2 i j hi hj, (k4 hc).2 i j (by rw [k3.2.1]; exact hi') (by rw [k3.2.2]; exact hj'), hn i j hi' hj']

theorem Mask.fits_congr {w : World T} {a b : Ref} {mask : Mask} (he : w.heap b = w.heap a)
    (h : mask.Fits w a) : mask.Fits w b := by
  cases mask <;> simp only [Mask.Fits] at h ⊢ <;> rw [he] <;> exact h

/-- C46 for multiplication with the left operand as output. -/
theorem C46_multiply_left_partial {w : World T} {s m sep : Ref} {mask : Mask} (hc : w.cancel = none)
    (hs : (w.heap s).WF) (hm : (w.heap m).WF) (hk : (w.heap s).kind ≠ .svec)
    (h1 : (w.heap m).rows = (w.heap s).cols) (h3 : (w.heap s).cols = (w.heap m).cols)
    (hF : mask.Fits w s) (hS : mask.Sound w) (hne : m ≠ s) (hne' : m ≠ sep) (he : w.heap sep = w.heap s) :
    AliasSame w s sep (fun out => Ops.matrixMatrixMultiply s m mask out) := by
  refine AliasSame.of_writes hc he (Ops.multiply_writes hs hm hs hk h1 rfl h3 hF hS hne)
    (Ops.multiply_writes hs hm (he ▸ hs) (he ▸ hk) h1 (by rw [he]) (by rw [he]; exact h3) (Mask.fits_congr he hF) hS hne') ?_
  intro i j _ _
  simp only [he]

/-- C46 for multiplication with the right operand as output, what happens instead: row `k` of the result is
computed from columns whose first `k` entries are already results (`mulInto`). -/
theorem C46_multiply_right_partial {w : World T} {s out : Ref} {mask : Mask}
    (hs : (w.heap s).WF) (hout : (w.heap out).WF) (hk : (w.heap out).kind ≠ .svec)
    (h1 : (w.heap out).rows = (w.heap s).cols) (h2 : (w.heap out).rows = (w.heap s).rows)
    (hF : mask.Fits w out) (hS : mask.Sound w) :
    Writes w out (mulInto (w.heap s).cols (w.heap s).rowVal (w.heap out).seeCol (mask.bit w) (w.heap out).keep
        (w.heap out).val (w.heap out).rows) (Ops.matrixMatrixMultiply s out mask out w) :=
  Ops.multiply_writes_right hs hout hk h1 h2 hF hS

/-- C46 for `Add`, either operand as output: dense, or no sum is zero. -/
theorem C46_add_partial {w : World T} {s m al sep : Ref} {mask : Mask} (hc : w.cancel = none)
    (hal : al = s ∨ al = m) (hs : (w.heap s).WF) (hm : (w.heap m).WF) (hk : (w.heap al).kind ≠ .svec)
    (h1 : SameShape (w.heap s) (w.heap m)) (hF : mask.Fits w al) (hS : mask.Sound w)
    (hgs : (w.heap s).nvalues ≤ w.gas) (hgm : (w.heap m).nvalues ≤ w.gas)
    (hne : s ≠ sep ∧ m ≠ sep) (he : w.heap sep = w.heap al)
    (hst : ∀ i j, i < (w.heap al).rows → j < (w.heap al).cols →
      Mat.Storable (w.heap al).kind ((w.heap s).val i j + (w.heap m).val i j) ∧
      Mat.Storable (w.heap al).kind ((w.heap m).val i j + (w.heap s).val i j)) :
    AliasSame w al sep (fun out => Ops.add s m mask out) := by
  have hg : (w.heap (Ops.addOver w s m)).nvalues ≤ w.gas := by unfold Ops.addOver; split <;> assumption
  have hover : Ops.addOver w s m ≠ sep := by unfold Ops.addOver; split; exacts [hne.1, hne.2]
  have hwal : (w.heap al).WF := by rcases hal with rfl | rfl <;> assumption
  have h2 : SameShape (w.heap s) (w.heap al) := by rcases hal with rfl | rfl; exacts [⟨rfl, rfl⟩, h1]
  refine AliasSame.of_writes hc he
    (Ops.add_writes hs hm hwal hk h1 h2 hF hS hg (fun _ i j hi hj _ _ => by
      unfold Ops.addOver Ops.addSource
      split
      · exact (hst i j hi hj).2
      · exact (hst i j hi hj).1))
    (Ops.add_writes hs hm (he ▸ hwal) (he ▸ hk) h1 (he ▸ h2) (Mask.fits_congr he hF) hS hg (fun h => absurd h hover)) ?_
  intro i j _ _
  simp only [he]

/-- C46 for `Subtract`, either operand as output; if it is the left one, dense or no difference is zero. -/
theorem C46_subtract_partial {w : World T} {s m al sep : Ref} {mask : Mask} (hc : w.cancel = none)
    (hal : al = s ∨ al = m) (hs : (w.heap s).WF) (hm : (w.heap m).WF) (hk : (w.heap al).kind ≠ .svec)
    (h1 : SameShape (w.heap s) (w.heap m)) (hF : mask.Fits w al) (hS : mask.Sound w)
    (hgs : (w.heap s).nvalues ≤ w.gas) (hne : s ≠ sep) (he : w.heap sep = w.heap al)
    (hst : s = al → ∀ i j, i < (w.heap al).rows → j < (w.heap al).cols →
      Mat.Storable (w.heap al).kind ((w.heap s).val i j - (w.heap al).val i j)) :
    AliasSame w al sep (fun out => Ops.subtract s m mask out) := by
  have hwal : (w.heap al).WF := by rcases hal with rfl | rfl <;> assumption
  have h2 : SameShape (w.heap s) (w.heap al) := by rcases hal with rfl | rfl; exacts [⟨rfl, rfl⟩, h1]
  refine AliasSame.of_writes hc he
    (Ops.subtract_writes hs hwal hk h1 h2 hF hS hgs (fun ho i j hi hj _ _ => hst ho i j hi hj))
    (Ops.subtract_writes hs (he ▸ hwal) (he ▸ hk) h1 (he ▸ h2) (Mask.fits_congr he hF) hS hgs (fun h => absurd h hne)) ?_
  intro i j _ _
  simp only [he]

/-- C46 for the element-wise sum with the left operand as output. (With the right one as output the
left operand wins where both are non-zero; with a separate output the right one does:
`C46_refuted_eadd`.) -/
theorem C46_elementWiseAdd_left_partial {w : World T} {s m sep : Ref} {mask : Mask} (hc : w.cancel = none)
    (hs : (w.heap s).WF) (hm : (w.heap m).WF) (hk : (w.heap s).kind ≠ .svec)
    (h1 : SameShape (w.heap m) (w.heap s)) (hF : mask.Fits w s) (hS : mask.Sound w)
    (hmo : mask ≠ .ref s ∧ mask ≠ .ref sep)
    (hgs : (w.heap s).nvalues ≤ w.gas) (hgm : (w.heap m).nvalues ≤ w.gas)
    (hne : m ≠ s) (hne' : m ≠ sep) (hsep : s ≠ sep) (he : w.heap sep = w.heap s) :
    AliasSame w s sep (fun out => Ops.elementWiseVectorAdd s m mask out) := by
  have hv : ∀ out, Ops.elementWiseVectorAdd s m mask out w = Ops.elementWiseAdd s m mask out w := by
    intro out
    unfold Ops.elementWiseVectorAdd
    rw [bind_apply]; simp only [rowsOf]; rw [bind_apply]; simp only [rowsOf]; simp [h1.1]
  obtain ⟨m1, c1, e1, -, e3, e4, -⟩ := Ops.eAdd_ok (out := s) hs hm hs hk ⟨rfl, rfl⟩ h1 hF hS hmo.1 hgs hgm
  obtain ⟨m2, c2, k1, -, k3, k4, -⟩ := Ops.eAdd_ok (out := sep) hs hm (he ▸ hs) (he ▸ hk) (he ▸ ⟨rfl, rfl⟩) (he ▸ h1)
    (Mask.fits_congr he hF) hS hmo.2 hgs hgm
  rw [he] at k3 k4
  refine ⟨m1, m2, by dsimp only; rw [hv, e1]; simp [Res.left, World.upd], by dsimp only; rw [hv, k1]; simp [Res.left, World.upd],
    ⟨e3.2.1.trans k3.2.1.symm, e3.2.2.trans k3.2.2.symm⟩, ?_⟩
  intro i j hi hj
  have hi' : i < (w.heap s).rows := e3.2.1 ▸ hi
  have hj' : j < (w.heap s).cols := e3.2.2 ▸ hj
  rw [(e4 hc).2 i j hi' hj', (k4 hc).2 i j hi' hj']
  unfold Ops.eAddNew
  simp only [he, hne, hne', hsep, ne_eq, not_true, false_and, not_false_iff, true_and, if_false]
  split
  · rfl
  · split
    · rfl
    · split
      · rename_i h
        refine (Mat.storable_keep ?_).symm
        unfold Mat.Storable
        split <;> trivial
      · rfl

end general

/-! ## Refutations and examples -/

/-- C33, full statement: false for the element-wise sum. Cancelled during the second pass, the cell holds
1 (the left operand), which is neither its old value 0 nor the final value 2. -/
theorem C33_refuted_eadd : ∃ w : World ℤ, (∀ q, (w.heap q).WF) ∧
    ¬ CancelSafe w 2 (Ops.elementWiseVectorAdd 0 1 .nil 2) := by
  refine ⟨{ World.of (T := ℤ) 9 [.dvec { l := 1, values := [1] }, .dvec { l := 1, values := [2] }, .dvec { l := 1, values := [0] }]
    with cancel := some 1 }, ?_, ?_⟩
  · intro q
    rcases q with _ | _ | _ | q <;> rfl
  · rintro ⟨o, o', h1, h2, -, h4⟩
    have e1 : o = .dvec { l := 1, values := [1] } := by
      have : (some o : Option (Mat ℤ)) = some (.dvec { l := 1, values := [1] }) := h1.symm.trans (by kernel_rfl)
      exact Option.some.inj this
    have e2 : o' = .dvec { l := 1, values := [2] } := by
      have : (some o' : Option (Mat ℤ)) = some (.dvec { l := 1, values := [2] }) := h2.symm.trans (by kernel_rfl)
      exact Option.some.inj this
    subst e1 e2
    exact absurd (h4 0 0 (by decide) (by decide)) (by decide +kernel)

/-- A cancellation in the middle of an addition meeting the hypotheses of `C33_add_partial`: the first cell is
new, the others are old. -/
example : (Ops.add 0 1 .nil 0 { World.of (T := ℤ) 9 [.dense { r := 1, c := 3, data := [[1, 2, 3]] },
      .dense { r := 1, c := 3, data := [[10, 20, 30]] }] with cancel := some 1 }).left 0 =
    some (.dense { r := 1, c := 3, data := [[11, 2, 3]] }) := by kernel_rfl

/-- A multiplication that is cancelled while it computes a cell. -/
example : (Ops.matrixMatrixMultiply 0 1 .nil 2 { World.of (T := ℤ) 9 [.dense { r := 1, c := 2, data := [[1, 2]] },
      .dense { r := 2, c := 2, data := [[10, 20], [30, 40]] }, .dense { r := 1, c := 2, data := [[5, 6]] }]
      with cancel := some 3 }).left 2 =
    some (.dense { r := 1, c := 2, data := [[70, 6]] }) := by kernel_rfl

/-- C46, full statement: false for multiplication with the right operand as output. -/
theorem C46_refuted_multiply : ∃ w : World ℤ, (∀ q, (w.heap q).WF) ∧ w.cancel = none ∧ w.heap 2 = w.heap 1 ∧
    ¬ AliasSame w 1 2 (fun out => Ops.matrixMatrixMultiply 0 1 .nil out) := by
  refine ⟨World.of 9 [.dense { r := 2, c := 2, data := [[0, 1], [1, 0]] }, .dense { r := 2, c := 2, data := [[1, 0], [0, 1]] },
    .dense { r := 2, c := 2, data := [[1, 0], [0, 1]] }], ?_, rfl, rfl, ?_⟩
  · intro q
    rcases q with _ | _ | _ | q <;> first | exact ⟨rfl, by decide⟩ | rfl
  · rintro ⟨o, o', h1, h2, -, h4⟩
    have e1 : o = .dense { r := 2, c := 2, data := [[0, 1], [0, 1]] } := by
      have : (some o : Option (Mat ℤ)) = some (.dense { r := 2, c := 2, data := [[0, 1], [0, 1]] }) := h1.symm.trans (by kernel_rfl)
      exact Option.some.inj this
    have e2 : o' = .dense { r := 2, c := 2, data := [[0, 1], [1, 0]] } := by
      have : (some o' : Option (Mat ℤ)) = some (.dense { r := 2, c := 2, data := [[0, 1], [1, 0]] }) := h2.symm.trans (by kernel_rfl)
      exact Option.some.inj this
    subst e1 e2
    exact absurd (h4 1 0 (by decide) (by decide)) (by decide +kernel)

/-- The same product by `mulInto`: the second row is computed from the new first row. -/
example : (fun i j => mulInto 2 (fun i l => if i = l then (0 : ℤ) else 1) id (fun _ _ => false) id (fun i j => if i = j then 1 else 0) 2 i j)
    0 0 = 0 ∧ mulInto 2 (fun i l => if i = l then (0 : ℤ) else 1) id (fun _ _ => false) id (fun i j => if i = j then 1 else 0) 2 1 0 = 0 ∧
    mulInto 2 (fun i l => if i = l then (0 : ℤ) else 1) id (fun _ _ => false) id (fun i j => if i = j then 1 else 0) 2 1 1 = 1 := by
  decide +kernel

/-- C46, full statement: false for the element-wise product (left operand as output). -/
theorem C46_refuted_emul : ∃ w : World ℤ, (∀ q, (w.heap q).WF) ∧ w.cancel = none ∧ w.heap 2 = w.heap 0 ∧
    ¬ AliasSame w 0 2 (fun out => Ops.elementWiseVectorMultiply 0 1 .nil out) := by
  refine ⟨World.of 9 [.dvec { l := 1, values := [1] }, .dvec { l := 1, values := [2] }, .dvec { l := 1, values := [1] }], ?_, rfl, rfl, ?_⟩
  · intro q
    rcases q with _ | _ | _ | q <;> rfl
  · rintro ⟨o, o', h1, h2, -, h4⟩
    have e1 : o = .dvec { l := 1, values := [0] } := by
      have : (some o : Option (Mat ℤ)) = some (.dvec { l := 1, values := [0] }) := h1.symm.trans (by kernel_rfl)
      exact Option.some.inj this
    have e2 : o' = .dvec { l := 1, values := [1] } := by
      have : (some o' : Option (Mat ℤ)) = some (.dvec { l := 1, values := [1] }) := h2.symm.trans (by kernel_rfl)
      exact Option.some.inj this
    subst e1 e2
    exact absurd (h4 0 0 (by decide) (by decide)) (by decide +kernel)

/-- C46, full statement: false for the element-wise sum with the right operand as output. -/
theorem C46_refuted_eadd : ∃ w : World ℤ, (∀ q, (w.heap q).WF) ∧ w.cancel = none ∧ w.heap 2 = w.heap 1 ∧
    ¬ AliasSame w 1 2 (fun out => Ops.elementWiseVectorAdd 0 1 .nil out) := by
  refine ⟨World.of 9 [.dvec { l := 1, values := [1] }, .dvec { l := 1, values := [2] }, .dvec { l := 1, values := [2] }], ?_, rfl, rfl, ?_⟩
  · intro q
    rcases q with _ | _ | _ | q <;> rfl
  · rintro ⟨o, o', h1, h2, -, h4⟩
    have e1 : o = .dvec { l := 1, values := [1] } := by
      have : (some o : Option (Mat ℤ)) = some (.dvec { l := 1, values := [1] }) := h1.symm.trans (by kernel_rfl)
      exact Option.some.inj this
    have e2 : o' = .dvec { l := 1, values := [2] } := by
      have : (some o' : Option (Mat ℤ)) = some (.dvec { l := 1, values := [2] }) := h2.symm.trans (by kernel_rfl)
      exact Option.some.inj this
    subst e1 e2
    exact absurd (h4 0 0 (by decide) (by decide)) (by decide +kernel)

/-- C46, full statement: false for in-place `Add` of compressed matrices when a sum is zero: removing the
cell under the iterator makes the loop read past the end. `[1 2] + [-1 5]` in place panics. -/
theorem C46_refuted_add : ∃ w : World ℚ, w.cancel = none ∧ w.heap 2 = w.heap 0 ∧
    (w.heap 0).WF ∧ (w.heap 1).WF ∧
    ¬ AliasSame w 0 2 (fun out => Ops.add 0 1 .nil out) := by
  refine ⟨World.of 9 [.csr { r := 1, c := 2, values := [1, 2], cols := [0, 1], rowStart := [0, 2] },
    .csr { r := 1, c := 2, values := [-1, 5], cols := [0, 1], rowStart := [0, 2] },
    .csr { r := 1, c := 2, values := [1, 2], cols := [0, 1], rowStart := [0, 2] }], rfl, rfl, ?_, ?_, ?_⟩
  · exact (Reach.arrCSR (data := [[1, 2]]) (c := 2) (by intro row hr; simp at hr; subst hr; rfl) (by kernel_rfl)).wf (by decide)
  · exact (Reach.arrCSR (data := [[-1, 5]]) (c := 2) (by intro row hr; simp at hr; subst hr; rfl) (by kernel_rfl)).wf (by decide)
  · rintro ⟨o, o', h1, -, -, -⟩
    have : (none : Option (Mat ℚ)) = some o := (show _ = none by kernel_rfl).symm.trans h1
    cases this

end GB
