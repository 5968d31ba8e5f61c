import Verif.Model.NilPtr
import Verif.Props.Nil
import Verif.Lemmas.Replay

/-!
# Interfaces that hold a nil pointer: C98
-/

namespace GB

set_option linter.unusedSectionVars false
set_option linter.unusedSimpArgs false

open M

/-- The operator calls that take a mask and an output, with arguments that may be nil or hold a nil pointer. -/
inductive PtrCall (T : Type) where
  | mxm (s m : Arg) | mxv (s m : Arg) | vxm (s m : Arg)
  | add (s m : Arg) | subtract (s m : Arg)
  | eMulMatrix (s m : Arg) | eMulVector (s m : Arg)
  | eAddMatrix (s m : Arg) | eAddVector (s m : Arg)
  | apply (s : Arg) (u : T → T) | negative (s : Arg) | transpose (s : Arg)

/-- Perform the call. -/
def PtrCall.run {T : Type} [GoNum T] (mask : MaskArg) (out : Arg) : PtrCall T → M T Unit
  | .mxm s m => Ptr.multiply s m mask out
  | .mxv s m => Ptr.multiply s m mask out
  | .vxm s m => Ptr.multiply m s mask out
  | .add s m => Ptr.add s m mask out
  | .subtract s m => Ptr.subtract s m mask out
  | .eMulMatrix s m => Ptr.elementWiseMatrixMultiply s m mask out
  | .eMulVector s m => Ptr.elementWiseVectorMultiply s m mask out
  | .eAddMatrix s m => Ptr.elementWiseMatrixAdd s m mask out
  | .eAddVector s m => Ptr.elementWiseVectorAdd s m mask out
  | .apply s u => Ptr.apply s mask u out
  | .negative s => Ptr.negative s mask out
  | .transpose s => Ptr.transpose s mask out

/-- A matrix the operator reads is nil or holds a nil pointer. -/
def PtrCall.lacks {T : Type} : PtrCall T → Prop
  | .mxm s m | .mxv s m | .vxm s m | .add s m | .subtract s m | .eMulMatrix s m | .eMulVector s m
  | .eAddMatrix s m | .eAddVector s m => s.ref = none ∨ m.ref = none
  | .apply s _ | .transpose s => s.ref = none
  | .negative _ => False

/-- No matrix the operator is given holds a nil pointer: the call of `Model/Nil.lean`. -/
def NilCall.lift {T : Type} (f : Option Ref → Arg) : NilCall T → PtrCall T
  | .mxm s m => .mxm (f s) (f m)
  | .mxv s m => .mxv (f s) (f m)
  | .vxm s m => .vxm (f s) (f m)
  | .add s m => .add (f s) (f m)
  | .subtract s m => .subtract (f s) (f m)
  | .eMulMatrix s m => .eMulMatrix (f s) (f m)
  | .eMulVector s m => .eMulVector (f s) (f m)
  | .eAddMatrix s m => .eAddMatrix (f s) (f m)
  | .eAddVector s m => .eAddVector (f s) (f m)
  | .apply s u => .apply (f s) u
  | .negative s => .negative (f s)
  | .transpose s => .transpose (f s)

/-- A nil interface or an object as an argument. -/
def Arg.of : Option Ref → Arg
  | none => .nil
  | some p => .obj p

section
variable {T : Type} [GoNum T] {w : World T}

/-- C98 in full: a call with a matrix, a mask or an output that is nil or a nil pointer panics and has no effect. -/
def NilRejected (T : Type) [GoNum T] : Prop := ∀ (w : World T) (c : PtrCall T) (mask : MaskArg) (out : Arg),
  c.lacks ∨ mask = .ptr ∨ out.ref = none → c.run mask out w = .panic w

/-- A step without effect: it goes on in the same world or panics in it. -/
def Plain {α : Type} (x : M T α) (w : World T) : Prop := (∃ a, x w = .ok a w) ∨ x w = .panic w

theorem Plain.stop {α β : Type} {x : M T α} {k : α → M T β} (hx : Plain x w) (hk : ∀ a, x w = .ok a w → k a w = .panic w) :
    (x >>= k) w = .panic w := by
  rcases hx with ⟨a, h⟩ | h
  · rw [bind_ok h]; exact hk a h
  · rw [bind_apply, h]

theorem Ptr.use_plain (a : Arg) : Plain (Ptr.use a : M T Ref) w := by
  cases a
  · exact .inr rfl
  · exact .inr rfl
  · exact .inl ⟨_, rfl⟩

theorem Ptr.cols_plain (a : Arg) : Plain (Ptr.cols a : M T Nat) w := by
  cases a with
  | nil => exact .inr rfl
  | ptr k => cases k <;> first | exact .inr rfl | exact .inl ⟨1, rfl⟩
  | obj p => exact .inl ⟨_, rfl⟩

theorem rowsOf_plain (p : Ref) : Plain (rowsOf p : M T Nat) w := .inl ⟨_, rfl⟩

theorem Ptr.checkMask_plain (mask : MaskArg) (out : Arg) : Plain (Ptr.checkMask mask out : M T (Mask × Ref)) w := by
  cases mask with
  | ptr => exact .inr rfl
  | mask k =>
    unfold Ptr.checkMask
    cases h : out.ref with
    | none => right; simp only; rw [bind_apply, Nil.checkMask_none]
    | some o =>
      rcases Nil.checkMask_some (w := w) k o with ⟨h, -⟩ | ⟨h, -⟩
      · left; simp only; exact ⟨_, by rw [bind_ok h]; rfl⟩
      · right; simp only; rw [bind_apply, h]

theorem Ptr.use_lacks {a : Arg} (h : a.ref = none) {β : Type} (k : Ref → M T β) : (Ptr.use a >>= k) w = .panic w := by
  unfold Ptr.use; rw [h]; rfl

theorem Ptr.checkMask_lacks {mask : MaskArg} {out : Arg} (h : mask = .ptr ∨ out.ref = none) {β : Type}
    (k : Mask × Ref → M T β) : (Ptr.checkMask mask out >>= k) w = .panic w := by
  cases mask with
  | ptr => rfl
  | mask m =>
    have h : out.ref = none := by simpa using h
    unfold Ptr.checkMask
    simp only [h]
    rw [bind_apply, bind_apply, Nil.checkMask_none]

/-- `multiply` and `ElementWiseMatrixAdd`: `m.Rows()`, `s.Columns()`, the mask and the output, then `s`. -/
theorem Ptr.byColumns {s m : Arg} {mask : MaskArg} {out : Arg} (X : Ref → Ref → Mask → Ref → M T Unit)
    (h : (s.ref = none ∨ m.ref = none) ∨ mask = .ptr ∨ out.ref = none) :
    (do
      let m ← Ptr.use m
      let mr ← rowsOf m
      let sc ← Ptr.cols s
      if mr ≠ sc then fail
      let (mask, out) ← Ptr.checkMask mask out
      let s ← Ptr.use s
      X s m mask out : M T Unit) w = .panic w := by
  refine (Ptr.use_plain m).stop fun m' hm => (rowsOf_plain m').stop fun mr _ => (Ptr.cols_plain s).stop fun sc _ => ?_
  split
  · rfl
  · by_cases hq : mask = .ptr ∨ out.ref = none
    · exact Ptr.checkMask_lacks hq _
    · refine (Ptr.checkMask_plain mask out).stop fun q _ => ?_
      refine Ptr.use_lacks ?_ _
      rcases h with (h | h) | h
      · exact h
      · unfold Ptr.use at hm; rw [h] at hm; cases hm
      · exact absurd h hq

/-- The operators on vectors: `Rows()` of both, then the mask and the output. -/
theorem Ptr.byRows {s m : Arg} {mask : MaskArg} {out : Arg} (X : Ref → Ref → Mask → Ref → M T Unit)
    (h : (s.ref = none ∨ m.ref = none) ∨ mask = .ptr ∨ out.ref = none) :
    (do
      let m ← Ptr.use m
      let s ← Ptr.use s
      let mr ← rowsOf m
      let sr ← rowsOf s
      if mr ≠ sr then fail
      let (mask, out) ← Ptr.checkMask mask out
      X s m mask out : M T Unit) w = .panic w := by
  refine (Ptr.use_plain m).stop fun m' hm => (Ptr.use_plain s).stop fun s' hs => (rowsOf_plain m').stop fun mr _ =>
    (rowsOf_plain s').stop fun sr _ => ?_
  split
  · rfl
  · refine Ptr.checkMask_lacks ?_ _
    rcases h with (h | h) | h
    · unfold Ptr.use at hs; rw [h] at hs; cases hs
    · unfold Ptr.use at hm; rw [h] at hm; cases hm
    · exact h

/-- `Add` and `Subtract`: `Columns()` of both, `Rows()` of both, then the mask and the output. -/
theorem Ptr.byBoth {s m : Arg} {mask : MaskArg} {out : Arg} (X : Ref → Ref → Mask → Ref → M T Unit)
    (h : (s.ref = none ∨ m.ref = none) ∨ mask = .ptr ∨ out.ref = none) :
    (do
      let sc ← Ptr.cols s
      let mc ← Ptr.cols m
      if sc ≠ mc then fail
      let s ← Ptr.use s
      let m ← Ptr.use m
      let sr ← rowsOf s
      let mr ← rowsOf m
      if sr ≠ mr then fail
      let (mask, out) ← Ptr.checkMask mask out
      X s m mask out : M T Unit) w = .panic w := by
  refine (Ptr.cols_plain s).stop fun sc _ => (Ptr.cols_plain m).stop fun mc _ => ?_
  split
  · rfl
  · refine (Ptr.use_plain s).stop fun s' hs => (Ptr.use_plain m).stop fun m' hm => (rowsOf_plain s').stop fun sr _ =>
      (rowsOf_plain m').stop fun mr _ => ?_
    split
    · rfl
    · refine Ptr.checkMask_lacks ?_ _
      rcases h with (h | h) | h
      · unfold Ptr.use at hs; rw [h] at hs; cases hs
      · unfold Ptr.use at hm; rw [h] at hm; cases hm
      · exact h

/-- The operators with one operand: the mask and the output, then the operand. -/
theorem Ptr.byOne {s : Arg} {mask : MaskArg} {out : Arg} (X : Ref → Mask → Ref → M T Unit)
    (h : s.ref = none ∨ mask = .ptr ∨ out.ref = none) :
    (do
      let (mask, out) ← Ptr.checkMask mask out
      let s ← Ptr.use s
      X s mask out : M T Unit) w = .panic w := by
  by_cases hq : mask = .ptr ∨ out.ref = none
  · exact Ptr.checkMask_lacks hq _
  · refine (Ptr.checkMask_plain mask out).stop fun q _ => Ptr.use_lacks ?_ _
    rcases h with h | h
    · exact h
    · exact absurd h hq

/-- The one call that may accept a nil pointer: `ElementWiseMatrixMultiply` of a nil pointer whose `Columns` answers. -/
def PtrCall.Accepts {T : Type} : PtrCall T → Prop
  | .eMulMatrix (.ptr k) (.obj _) => k.columns ≠ none
  | _ => False

/-- **C98**: an operator called with a matrix it reads, a mask or an output that is nil or holds a nil pointer panics, and
nothing at all has changed.

Missing: `ElementWiseMatrixMultiply` with a nil pointer to a vector on the left (`C98_elementWise`, `C98_refuted`). -/
theorem C98_rejects_partial (c : PtrCall T) (mask : MaskArg) (out : Arg)
    (h : (c.lacks ∧ ¬ c.Accepts) ∨ mask = .ptr ∨ out.ref = none) : c.run mask out w = .panic w := by
  have low : c.lacks ∨ mask = .ptr ∨ out.ref = none := h.imp_left And.left
  cases c with
  | mxm s m => exact Ptr.byColumns (fun s m k o => Ops.multiply s m k o) low
  | mxv s m => exact Ptr.byColumns (fun s m k o => Ops.multiply s m k o) low
  | vxm s m => exact Ptr.byColumns (fun s m k o => Ops.multiply s m k o) (low.imp_left Or.symm)
  | add s m => exact Ptr.byBoth (fun s m k o => Ops.add s m k o) low
  | subtract s m => exact Ptr.byBoth (fun s m k o => Ops.subtract s m k o) low
  | eMulVector s m => exact Ptr.byRows (fun s m k o => Ops.elementWiseVectorMultiply s m k o) low
  | eAddMatrix s m => exact Ptr.byColumns (fun s m k o => Ops.elementWiseMatrixAdd s m k o) low
  | eAddVector s m => exact Ptr.byRows (fun s m k o => Ops.elementWiseVectorAdd s m k o) low
  | apply s u => exact Ptr.byOne (fun s k o => Ops.apply s k u o) low
  | transpose s => exact Ptr.byOne (fun s k o => Ops.transpose s k o) low
  | negative s =>
    have hq : mask = .ptr ∨ out.ref = none := low.resolve_left id
    exact Ptr.checkMask_lacks hq _
  | eMulMatrix s m =>
    show Ptr.elementWiseMatrixMultiply s m mask out w = _
    unfold Ptr.elementWiseMatrixMultiply
    refine (Ptr.use_plain m).stop fun m' hm => (rowsOf_plain m').stop fun mr _ => (Ptr.cols_plain s).stop fun sc hsc => ?_
    split
    · rfl
    · by_cases hq : mask = .ptr ∨ out.ref = none
      · exact Ptr.checkMask_lacks hq _
      · have h := h.resolve_right hq
        exfalso
        cases m with
        | nil => cases hm
        | ptr k => cases hm
        | obj p =>
          cases s with
          | nil => cases hsc
          | ptr k =>
            refine h.2 ?_
            show k.columns ≠ none
            cases k <;> first | (cases hsc; done) | simp [PtrTo.columns]
          | obj q => simp [PtrCall.lacks, Arg.ref] at h

/-- The checks of mask and output pass exactly if they fit. -/
theorem Ptr.checkMask_fits [GoStore T] {mask : Mask} {o : Ref} (h : mask.Fits w o) :
    (Ptr.checkMask (.mask mask) (.obj o) : M T (Mask × Ref)) w = .ok (mask, o) w := by
  have : (Nil.checkMask mask (some o) : M T Ref) w = .ok o w := by
    rcases Nil.checkMask_some (w := w) mask o with ⟨h', -⟩ | ⟨-, k, h1, h2⟩
    · exact h'
    · rw [Mask.orEmpty_apply] at h1; cases h1; rw [Mask.check_ok h] at h2; cases h2
  unfold Ptr.checkMask
  exact (bind_ok this).trans rfl

theorem Ptr.checkMask_misfit [GoStore T] {mask : Mask} {o : Ref} (h : ¬ mask.Fits w o) :
    (Ptr.checkMask (.mask mask) (.obj o) : M T (Mask × Ref)) w = .panic w := by
  have : (Nil.checkMask mask (some o) : M T Ref) w = .panic w := by
    rcases Nil.checkMask_some (w := w) mask o with ⟨-, k, h1, h2⟩ | ⟨h', -⟩
    · rw [Mask.orEmpty_apply] at h1; cases h1; rw [Mask.check_panic h] at h2; cases h2
    · exact h'
  unfold Ptr.checkMask
  exact (bind_apply _ _ _).trans (by simp only [Arg.ref, this])

/-- **C98**: without nil pointers the calls are those of the model with nil interfaces (C73). -/
theorem C98_same (c : NilCall T) (mask : Mask) (out : Option Ref) :
    (c.lift Arg.of).run (.mask mask) (Arg.of out) w = c.run mask out w := by
  have chk : ∀ X : Mask × Ref → M T Unit, (Ptr.checkMask (.mask mask) (Arg.of out) >>= X) w =
      (Nil.checkMask mask out >>= fun o => X (mask, o)) w := by
    intro X
    have : (Arg.of out).ref = out := by cases out <;> rfl
    unfold Ptr.checkMask
    simp only [this, bind_apply]
    cases Nil.checkMask mask out w <;> rfl
  have mul : ∀ s m : Option Ref, Ptr.multiply (Arg.of s) (Arg.of m) (.mask mask) (Arg.of out) w =
      Nil.multiply s m mask out w := by
    intro s m
    rcases m with _ | m
    · rfl
    rcases s with _ | s
    · rfl
    show (if _ then _ else _ : M T Unit) w = (if _ then _ else _ : M T Unit) w
    split
    · rfl
    · exact chk _
  cases c with
  | mxm s m => exact mul s m
  | mxv s m => exact mul s m
  | vxm s m => exact mul m s
  | add s m =>
    rcases s with _ | s
    · rfl
    rcases m with _ | m
    · rfl
    show (if _ then _ else _ : M T Unit) w = (if _ then _ else _ : M T Unit) w
    split
    · rfl
    · show (if _ then _ else _ : M T Unit) w = (if _ then _ else _ : M T Unit) w
      split
      · rfl
      · exact chk _
  | subtract s m =>
    rcases s with _ | s
    · rfl
    rcases m with _ | m
    · rfl
    show (if _ then _ else _ : M T Unit) w = (if _ then _ else _ : M T Unit) w
    split
    · rfl
    · show (if _ then _ else _ : M T Unit) w = (if _ then _ else _ : M T Unit) w
      split
      · rfl
      · exact chk _
  | eMulMatrix s m =>
    rcases m with _ | m
    · rfl
    rcases s with _ | s
    · rfl
    show (if _ then _ else _ : M T Unit) w = (if _ then _ else _ : M T Unit) w
    split
    · rfl
    · exact chk _
  | eMulVector s m =>
    rcases m with _ | m
    · rfl
    rcases s with _ | s
    · rfl
    show (if _ then _ else _ : M T Unit) w = (if _ then _ else _ : M T Unit) w
    split
    · rfl
    · exact chk _
  | eAddMatrix s m =>
    rcases m with _ | m
    · rfl
    rcases s with _ | s
    · rfl
    show (if _ then _ else _ : M T Unit) w = (if _ then _ else _ : M T Unit) w
    split
    · rfl
    · exact chk _
  | eAddVector s m =>
    rcases m with _ | m
    · rfl
    rcases s with _ | s
    · rfl
    show (if _ then _ else _ : M T Unit) w = (if _ then _ else _ : M T Unit) w
    split
    · rfl
    · exact chk _
  | apply s u =>
    rcases s with _ | s <;> exact chk _
  | negative s => exact chk _
  | transpose s =>
    rcases s with _ | s <;> exact chk _

/-- **C98**: `ElementWiseMatrixMultiply` with a nil pointer on the left whose `Columns` answers. It returns exactly if the
right operand has one row, the mask and the output fit, the output is not the right operand, the type of the pointer is not
registered, and the right operand delivers nothing or the context is cancelled already. Otherwise it panics. Nothing changes. -/
theorem C98_elementWise [GoStore T] (k : PtrTo) (hk : k.columns ≠ none) (m o : Ref) (mask : Mask) (hm : (w.heap m).Inv)
    (hg : (w.heap m).nvalues ≤ w.gas) :
    let returns := (w.heap m).rows = 1 ∧ mask.Fits w o ∧ m ≠ o ∧ k.typeName T ∉ w.reg ∧
        ((w.heap m).nvalues = 0 ∨ w.cancel = some 0)
    (returns → (PtrCall.eMulMatrix (.ptr k) (.obj m)).run (.mask mask) (.obj o) w = .ok () w) ∧
    (¬ returns → ∃ c, (PtrCall.eMulMatrix (.ptr k) (.obj m)).run (.mask mask) (.obj o) w = .panic { w with cancel := c }) := by
  intro returns
  have hcols : (Ptr.cols (.ptr k) : M T Nat) w = .ok 1 w := by
    cases k <;> first | rfl | exact absurd rfl hk
  have hself : (Res.panic w : Res T Unit) = .panic { w with cancel := w.cancel } := rfl
  show (_ → Ptr.elementWiseMatrixMultiply _ _ _ _ w = _) ∧ (_ → ∃ c, Ptr.elementWiseMatrixMultiply _ _ _ _ w = _)
  unfold Ptr.elementWiseMatrixMultiply
  have huse : (Ptr.use (.obj m) : M T Ref) w = .ok m w := rfl
  rw [bind_ok huse, bind_ok (rowsOf_apply m w), bind_ok hcols]
  by_cases h1 : (w.heap m).rows = 1
  swap
  · refine ⟨fun h => absurd h.1 h1, fun _ => ⟨w.cancel, ?_⟩⟩
    rw [if_pos h1]; rfl
  rw [if_neg (by simpa using h1)]
  by_cases h2 : mask.Fits w o
  swap
  · refine ⟨fun h => absurd h.2.1 h2, fun _ => ⟨w.cancel, ?_⟩⟩
    show (Ptr.checkMask (.mask mask) (.obj o) >>= _) w = _
    rw [bind_apply, Ptr.checkMask_misfit h2]
  show (_ → (Ptr.checkMask (.mask mask) (.obj o) >>= _) w = _) ∧ (_ → ∃ c, (Ptr.checkMask (.mask mask) (.obj o) >>= _) w = _)
  rw [bind_ok (Ptr.checkMask_fits h2)]
  show (_ → Ptr.elementWiseMultiply k m o w = _) ∧ (_ → ∃ c, Ptr.elementWiseMultiply k m o w = _)
  unfold Ptr.elementWiseMultiply
  by_cases h3 : m = o ∨ k.typeName T ∈ w.reg
  · rw [if_pos h3]
    exact ⟨fun h => absurd h3 (not_or.2 ⟨h.2.2.1, h.2.2.2.1⟩), fun _ => ⟨w.cancel, rfl⟩⟩
  rw [if_neg h3]
  have hy := hm.delivers
  have hl := hm.entries_length
  have hfor : (do
    let _ ← forEach m (some ()) (fun _ _ _ => fail)
    pure () : M T Unit) w = (loopIter m (some ()) (fun _ _ _ => fail) w.gas (w.heap m).iter >>= fun _ => pure ()) w := rfl
  rw [hfor]
  cases he : (w.heap m).entries with
  | nil =>
    rw [he] at hy hl
    have hn : (w.heap m).iter.hasNext = false := hy
    refine ⟨fun _ => ?_, fun h => absurd ⟨h1, h2, (not_or.1 h3).1, (not_or.1 h3).2, .inl hl.symm⟩ h⟩
    cases w.gas <;> · unfold loopIter; simp [hn, bind_apply]
  | cons e es =>
    rw [he] at hy hl
    obtain ⟨hn, it', e1, -⟩ := hy
    obtain ⟨g, hg'⟩ : ∃ g, w.gas = g + 1 := ⟨w.gas - 1, by simp at hl; omega⟩
    rw [hg']
    by_cases hc : w.cancel = some 0
    · refine ⟨fun _ => ?_, fun h => absurd ⟨h1, h2, (not_or.1 h3).1, (not_or.1 h3).2, .inr hc⟩ h⟩
      unfold loopIter
      rw [if_pos hn, bind_apply, bind_ok (poll_stop hc)]
      rfl
    · refine ⟨fun h => ?_, fun _ => ⟨tick w.cancel, ?_⟩⟩
      · rcases h.2.2.2.2 with h | h
        · simp at hl; omega
        · exact absurd h hc
      · unfold loopIter
        rw [if_pos hn, bind_apply, bind_ok (poll_go hc)]
        simp only [Bool.false_eq_true, if_false]
        have hst : ofObj m (fun x => x.step (w.heap m).iter) { w with cancel := tick w.cancel } =
              .ok (it', e) { w with cancel := tick w.cancel } := ofObj_ok e1
        rw [bind_ok hst]
        show Res.panic { w with cancel := tick w.cancel } = _
        rw [← hg']

/-- **C98**: `Equal` and `NotEqual` with a nil pointer. To a nil interface it is not equal. Otherwise `Equal` panics, unless
both sides answer `Columns` and differ there, when they are not equal. -/
theorem C98_equal (s m : Arg) (h : (∃ k, s = .ptr k) ∨ ∃ k, m = .ptr k) :
    Ptr.equal s m w =
      (if s = .nil ∨ m = .nil then .ok false w
      else match (Ptr.cols s : M T Nat) w, (Ptr.cols m : M T Nat) w with
        | .ok a _, .ok b _ => if a ≠ b then .ok false w else .panic w
        | _, _ => .panic w) := by
  cases s with
  | nil =>
    cases m with
    | nil => simp at h
    | ptr k => rfl
    | obj p => simp at h
  | ptr k =>
    cases m with
    | nil => rfl
    | ptr k' => cases k <;> cases k' <;> rfl
    | obj p =>
      rw [if_neg (by simp)]
      cases k
      case logicalVector | sparseVector =>
        show (if _ then _ else _ : M T Bool) w = if _ then _ else _
        split
        · rfl
        · rfl
      all_goals rfl
  | obj p =>
    cases m with
    | nil => simp at h
    | obj q => simp at h
    | ptr k =>
      rw [if_neg (by simp)]
      cases k
      case logicalVector | sparseVector =>
        show (if _ then _ else _ : M T Bool) w = if _ then _ else _
        split
        · rfl
        · rfl
      all_goals rfl

/-- **C98**: the functions that return a new matrix panic on nil and on nil pointers. -/
theorem C98_functions (s : Arg) (h : s.ref = none) (alpha : T) :
    Ptr.scalar s alpha w = .panic w ∧ Ptr.transposeToCSR s w = .panic w ∧ Ptr.transposeToCSC s w = .panic w :=
  ⟨Ptr.use_lacks h _, (Ptr.cols_plain s).stop fun _ _ => Ptr.use_lacks h _,
    (Ptr.cols_plain s).stop fun _ _ => Ptr.use_lacks h _⟩

/-- **C98**: `NotEqual` panics with `Equal`, and answers yes where it answers no. -/
theorem C98_notEqual (s m : Arg) (h : (∃ k, s = .ptr k) ∨ ∃ k, m = .ptr k) :
    (Ptr.equal s m w = .ok false w ∧ Ptr.notEqual s m w = .ok true w) ∨
    (Ptr.equal s m w = .panic w ∧ Ptr.notEqual s m w = .panic w) := by
  have key : Ptr.equal s m w = .ok false w ∨ Ptr.equal s m w = .panic w := by
    rw [C98_equal s m h]
    split
    · exact .inl rfl
    · split
      · split
        · exact .inl rfl
        · exact .inr rfl
      · exact .inr rfl
  rcases key with e | e
  · exact .inl ⟨e, by unfold Ptr.notEqual; rw [bind_ok e]; rfl⟩
  · exact .inr ⟨e, by unfold Ptr.notEqual; rw [bind_apply, e]⟩

/-- **C98**: `Multiply`, `Add` and `Subtract` of a nil interface or a nil pointer panic, and nothing that existed has
changed. -/
theorem C98_methods [GoStore T] {s : Ref} (hs : Reach (w.heap s)) {m : Arg} (hm : m.ref = none) :
    ∀ res ∈ [Ptr.methMultiply s m w, Ptr.methAdd s m w, Ptr.methSubtract s m w],
      res.isPanic = true ∧ ∀ q, q < w.next → res.world.heap q = w.heap q := by
  obtain ⟨w0, hw0⟩ : ∃ w0, w0 = { w with cancel := none } := ⟨_, rfl⟩
  have hheap : w0.heap = w.heap := by rw [hw0]
  have hnext : w0.next = w.next := by rw [hw0]
  have bg : ∀ {x : M T Ref}, (∃ w1, x w0 = .panic w1 ∧ ∀ q, q < w.next → w1.heap q = w.heap q) →
      (Meth.background x w).isPanic = true ∧ ∀ q, q < w.next → (Meth.background x w).world.heap q = w.heap q := by
    rintro x ⟨w1, h1, h2⟩
    unfold Meth.background
    rw [← hw0, h1]
    exact ⟨rfl, h2⟩
  have fresh : ∀ x : Mat T, ∀ q, q < w.next → Function.update w0.heap w0.next x q = w.heap q := by
    intro x q hq
    rw [hnext, Function.update_of_ne (Nat.ne_of_lt hq), hheap]
  have copied : ∀ {y : Ref → M T Unit}, (∀ r w', y r w' = .panic w') →
      ∃ w1, (do let r ← copy s; y r; pure r : M T Ref) w0 = .panic w1 ∧ ∀ q, q < w.next → w1.heap q = w.heap q := by
    intro y hy
    have hx : (w0.heap s).copy = .ok (w.heap s) := by
      rw [hheap]
      by_cases hk : (w.heap s).kind = .svec
      · cases h : w.heap s <;> rw [h] at hk <;> simp only [Mat.kind, reduceCtorEq] at hk
        have hw := (h ▸ hs).weak
        simp only [Mat.copy, SVec.copy_eq _ hw.len]
        rfl
      · exact Mat.copy_ok (hs.wf hk)
    have hc : M.copy s w0 = .ok w0.next { w0 with heap := Function.update w0.heap w0.next (w.heap s), next := w0.next + 1 } := by
      unfold M.copy
      rw [bind_ok (ofObj_ok (w := w0) (p := s) hx)]
      rfl
    exact ⟨_, by rw [bind_ok hc, bind_apply, hy], fresh _⟩
  have hadd : ∀ (r : Ref) (w' : World T), Ptr.add (.obj s) m (.mask .nil) (.obj r) w' = .panic w' := fun r w' =>
    Ptr.byBoth Ops.add (.inl (.inr hm))
  have hsub : ∀ (r : Ref) (w' : World T), Ptr.subtract (.obj s) m (.mask .nil) (.obj r) w' = .panic w' := fun r w' =>
    Ptr.byBoth Ops.subtract (.inl (.inr hm))
  have hmul : ∀ (r : Ref) (w' : World T), Ptr.multiply (.obj s) m (.mask .nil) (.obj r) w' = .panic w' := fun r w' =>
    Ptr.byColumns Ops.multiply (.inl (.inr hm))
  have mul : ∃ w1, Ptr.multiplyLacking s m w0 = .panic w1 ∧ ∀ q, q < w.next → w1.heap q = w.heap q := by
    unfold Ptr.multiplyLacking
    split
    · exact ⟨w0, Ptr.use_lacks hm _, fun _ _ => by rw [hheap]⟩
    · exact ⟨w0, Ptr.use_lacks hm _, fun _ _ => by rw [hheap]⟩
    · rcases Ptr.cols_plain (w := w0) m with ⟨c, hc⟩ | hc
      · refine ⟨{ w0 with heap := Function.update w0.heap w0.next (.dense (Dense.new (w0.heap s).rows c)), next := w0.next + 1 },
          ?_, fresh _⟩
        rw [bind_ok hc]
        refine (bind_ok (x := alloc (.dense (Dense.new (w0.heap s).rows c))) (a := w0.next) rfl).trans ?_
        rw [bind_apply, hmul]
      · exact ⟨w0, by rw [bind_apply, hc], fun _ _ => by rw [hheap]⟩
  have sub : ∃ w1, Ptr.subtractLacking s m w0 = .panic w1 ∧ ∀ q, q < w.next → w1.heap q = w.heap q := by
    unfold Ptr.subtractLacking
    split
    · exact copied hsub
    · exact ⟨w0, Ptr.use_lacks hm _, fun _ _ => by rw [hheap]⟩
  intro res hres
  simp only [List.mem_cons, List.not_mem_nil, or_false] at hres
  cases m with
  | obj p => simp [Arg.ref] at hm
  | nil =>
    rcases hres with rfl | rfl | rfl
    · exact bg (x := Ptr.multiplyLacking s .nil) mul
    · exact bg (x := Ptr.addLacking s .nil) (copied hadd)
    · exact bg (x := Ptr.subtractLacking s .nil) sub
  | ptr k =>
    rcases hres with rfl | rfl | rfl
    · exact bg (x := Ptr.multiplyLacking s (.ptr k)) mul
    · exact bg (x := Ptr.addLacking s (.ptr k)) (copied hadd)
    · exact bg (x := Ptr.subtractLacking s (.ptr k)) sub

/-- **C98**: the methods `Equal` and `NotEqual` of a nil pointer: a panic, unless the pointer answers `Columns` and the
object has another number of columns, when they are not equal. Nothing changes. -/
theorem C98_equal_methods (s : Ref) (k : PtrTo) :
    (k.columns = none ∨ k.columns = some (w.heap s).cols →
      Ptr.methEqual s (.ptr k) w = .panic w ∧ Ptr.methNotEqual s (.ptr k) w = .panic w) ∧
    (∀ n, k.columns = some n → n ≠ (w.heap s).cols →
      Ptr.methEqual s (.ptr k) w = .ok false w ∧ Ptr.methNotEqual s (.ptr k) w = .ok true w) := by
  have key : ∀ (w : World T), Ptr.equal (.obj s) (.ptr k) w = match k.columns with
      | none => .panic w
      | some n => if (w.heap s).cols ≠ n then .ok false w else .panic w := by
    intro w
    rw [C98_equal (.obj s) (.ptr k) (.inr ⟨k, rfl⟩), if_neg (by simp)]
    cases k <;> rfl
  refine ⟨fun h => ?_, fun n h1 h2 => ?_⟩
  · have e : ∀ w' : World T, w'.heap = w.heap → Ptr.equal (.obj s) (.ptr k) w' = .panic w' := by
      intro w' hw
      rw [key]
      rcases h with h | h <;> rw [h]
      simp [hw]
    constructor
    · unfold Ptr.methEqual Meth.background
      rw [e { w with cancel := none } rfl]
    · unfold Ptr.methNotEqual Meth.background Ptr.notEqual
      rw [bind_apply, e { w with cancel := none } rfl]
  · have e : ∀ w' : World T, w'.heap = w.heap → Ptr.equal (.obj s) (.ptr k) w' = .ok false w' := by
      intro w' hw
      rw [key, h1]
      simp [hw, h2.symm]
    constructor
    · unfold Ptr.methEqual Meth.background
      rw [e { w with cancel := none } rfl]
    · unfold Ptr.methNotEqual Meth.background Ptr.notEqual
      rw [bind_ok (e { w with cancel := none } rfl)]
      rfl

/-- **C98**: on objects they are the methods of the rest of the model. -/
theorem C98_same_methods (s m : Ref) :
    Ptr.methMultiply s (.obj m) w = Meth.multiply s m w ∧ Ptr.methAdd s (.obj m) w = Meth.add s m w ∧
    Ptr.methSubtract s (.obj m) w = Meth.subtract s m w ∧ Ptr.methEqual s (.obj m) w = Meth.equal s m w ∧
    Ptr.methNotEqual s (.obj m) w = Meth.notEqual s m w := by
  have e : (Ptr.equal (.obj s) (.obj m) : M T Bool) = Ops.equal s m := by
    funext w
    show (if _ then _ else _ : M T Bool) w = (if _ then _ else _ : M T Bool) w
    split <;> rename_i h
    · rfl
    · show Ops.equal s m w = _
      show (if _ then _ else _ : M T Bool) w = _
      rw [if_neg h]
  refine ⟨rfl, rfl, rfl, ?_, ?_⟩
  · unfold Ptr.methEqual Meth.equal
    rw [e]
  · unfold Ptr.methNotEqual Meth.notEqual Ptr.notEqual Ops.notEqual
    rw [e]

end

/-! ## Cases -/

namespace NilPtrEx

/-- An empty 1 × 2 matrix, an output, and a 1 × 2 matrix with a value. -/
def world : World ℤ :=
  World.of 9 [.csr { r := 1, c := 2, values := [], cols := [], rowStart := [0, 0] }, .dense ⟨1, 2, [[5, 6]]⟩,
    .csr { r := 1, c := 2, values := [7], cols := [0], rowStart := [0, 1] }]

/-- `Add(a, (*SparseVector)(nil), nil, b)` and a mask that is a nil pointer. -/
example : (PtrCall.add (.obj 0) (.ptr .sparseVector)).run (.mask .nil) (.obj 1) world = .panic world :=
  C98_rejects_partial _ _ _ (.inl ⟨.inr rfl, id⟩)

example : (PtrCall.transpose (.obj 0)).run .ptr (.obj 1) world = .panic world := C98_rejects_partial _ _ _ (.inr (.inl rfl))

/-- With a value in the right operand `ElementWiseMatrixMultiply` panics as well. -/
example : ((PtrCall.eMulMatrix (.ptr .sparseVector) (.obj 2)).run (.mask .nil) (.obj 1) world).isPanic = true := by kernel_rfl

/-- Both operands are nil pointers of one type: `Equal` panics; to a matrix with two columns a nil vector is not equal. -/
example : Ptr.equal (.ptr .csr) (.ptr .csr) world = .panic world ∧ Ptr.equal (.ptr .sparseVector) (.obj 0) world = .ok false world ∧
    Ptr.equal (.ptr .dense) (.obj 0) world = .panic world ∧ Ptr.equal (.ptr .csr) .nil world = .ok false world :=
  ⟨rfl, rfl, rfl, rfl⟩

/-- A method with a nil pointer: the copy made by `Add` is the only trace. -/
example : (Ptr.methAdd 0 (.ptr .sparseVector) world).isPanic = true ∧ Reach (world.heap 0) :=
  ⟨(C98_methods (w := world) (s := 0) (Reach.newCSR 1 2) (m := .ptr .sparseVector) rfl _ (by simp)).1, Reach.newCSR 1 2⟩

end NilPtrEx

/-- **C98** is false of `ElementWiseMatrixMultiply`: with a nil `*SparseVector[int]` on the left and a matrix of one row
without values on the right it returns and has done nothing. -/
theorem C98_refuted : ¬ NilRejected ℤ ∧
    (PtrCall.eMulMatrix (.ptr .sparseVector) (.obj 0)).run (.mask .nil) (.obj 1) NilPtrEx.world = .ok () NilPtrEx.world := by
  have key : (PtrCall.eMulMatrix (.ptr .sparseVector) (.obj 0)).run (.mask .nil) (.obj 1) NilPtrEx.world =
      .ok () NilPtrEx.world := by
    have hr : Reach (NilPtrEx.world.heap 0) := Reach.newCSR 1 2
    refine (C98_elementWise .sparseVector nofun 0 1 .nil hr.inv (by decide)).1 ⟨rfl, trivial, by decide, ?_, .inl rfl⟩
    decide
  refine ⟨fun h => ?_, key⟩
  have := h NilPtrEx.world (.eMulMatrix (.ptr .sparseVector) (.obj 0)) (.mask .nil) (.obj 1) (.inl (.inl rfl))
  rw [key] at this
  cases this

end GB
