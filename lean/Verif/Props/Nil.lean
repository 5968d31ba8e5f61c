import Verif.Model.Nil
import Verif.SpecLocal
import Verif.Lemmas.Ops3

/-!
# `nil` matrix arguments: C73
-/

namespace GB

set_option linter.unusedSectionVars false

open M

/-- The operator calls that take a mask and an output, with arguments that may be nil. -/
inductive NilCall (T : Type) where
  | mxm (s m : Option Ref) | mxv (s m : Option Ref) | vxm (s m : Option Ref)
  | add (s m : Option Ref) | subtract (s m : Option Ref)
  | eMulMatrix (s m : Option Ref) | eMulVector (s m : Option Ref)
  | eAddMatrix (s m : Option Ref) | eAddVector (s m : Option Ref)
  | apply (s : Option Ref) (u : T → T) | negative (s : Option Ref) | transpose (s : Option Ref)

/-- Perform the call. -/
def NilCall.run {T : Type} [GoNum T] (mask : Mask) (out : Option Ref) : NilCall T → M T Unit
  | .mxm s m => Nil.multiply s m mask out
  | .mxv s m => Nil.multiply s m mask out
  | .vxm s m => Nil.multiply m s mask out
  | .add s m => Nil.add s m mask out
  | .subtract s m => Nil.subtract s m mask out
  | .eMulMatrix s m => Nil.elementWiseMatrixMultiply s m mask out
  | .eMulVector s m => Nil.elementWiseVectorMultiply s m mask out
  | .eAddMatrix s m => Nil.elementWiseMatrixAdd s m mask out
  | .eAddVector s m => Nil.elementWiseVectorAdd s m mask out
  | .apply s u => Nil.apply s mask u out
  | .negative s => Nil.negative s mask out
  | .transpose s => Nil.transpose s mask out

/-- A matrix the operator reads is nil. `Negative` reads only its output. -/
def NilCall.hasNil {T : Type} : NilCall T → Prop
  | .mxm s m | .mxv s m | .vxm s m | .add s m | .subtract s m | .eMulMatrix s m | .eMulVector s m
  | .eAddMatrix s m | .eAddVector s m => s = none ∨ m = none
  | .apply s _ | .transpose s => s = none
  | .negative _ => False

/-- The call with objects. -/
def OpCall.lift {T : Type} : OpCall T → NilCall T
  | .mxm s m => .mxm (some s) (some m)
  | .mxv s m => .mxv (some s) (some m)
  | .vxm s m => .vxm (some s) (some m)
  | .add s m => .add (some s) (some m)
  | .subtract s m => .subtract (some s) (some m)
  | .eMulMatrix s m => .eMulMatrix (some s) (some m)
  | .eMulVector s m => .eMulVector (some s) (some m)
  | .eAddMatrix s m => .eAddMatrix (some s) (some m)
  | .eAddVector s m => .eAddVector (some s) (some m)
  | .apply s u => .apply (some s) u
  | .negative s => .negative (some s)
  | .transpose s => .transpose (some s)

section
variable {T : Type} [GoNum T] {w : World T}

theorem Nil.use_some {p : Ref} : (Nil.use (some p) : M T Ref) w = .ok p w := rfl
theorem Nil.use_none : (Nil.use none : M T Ref) w = .panic w := rfl

/-- The mask and output checks either pass without effect, or panic without effect, and then so does
every operator that starts with them. -/
theorem Nil.checkMask_some (mask : Mask) (o : Ref) :
    (Nil.checkMask mask (some o) w = .ok o w ∧ ∃ k, (mask.orEmpty o : M T Mask) w = .ok k w ∧ (k.check o : M T Unit) w = .ok () w) ∨
    (Nil.checkMask mask (some o) w = .panic w ∧ ∃ k, (mask.orEmpty o : M T Mask) w = .ok k w ∧ (k.check o : M T Unit) w = .panic w) := by
  have key : ∀ k : Mask, k ≠ .nil → (k.check o : M T Unit) w = .ok () w ∨ (k.check o : M T Unit) w = .panic w := by
    intro k hk
    have : ∃ a b, (k.rows : M T Nat) w = .ok a w ∧ (k.cols : M T Nat) w = .ok b w := by
      cases k with
      | nil => exact absurd rfl hk
      | empty r c => exact ⟨r, c, rfl, rfl⟩
      | ref p => exact ⟨_, _, rfl, rfl⟩
      | given r c el => exact ⟨r, c, rfl, rfl⟩
    obtain ⟨a, b, ha, hb⟩ := this
    unfold Mask.check
    rw [bind_ok ha, bind_ok (rowsOf_apply o w)]
    split
    · right; rfl
    · show (k.cols >>= _) w = _ ∨ (k.cols >>= _) w = _
      rw [bind_ok hb, bind_ok (colsOf_apply o w)]
      split
      · right; rfl
      · left; rfl
  cases mask with
  | nil =>
    have e1 : (Mask.nil.orEmpty o : M T Mask) w = .ok (.empty (w.heap o).rows (w.heap o).cols) w := rfl
    have e2 : Nil.checkMask .nil (some o) w = ((Mask.empty (w.heap o).rows (w.heap o).cols).check o >>= fun _ => pure o) w := rfl
    rcases key (.empty (w.heap o).rows (w.heap o).cols) (by simp) with h | h
    · exact Or.inl ⟨by rw [e2, bind_ok h]; rfl, _, e1, h⟩
    · exact Or.inr ⟨by rw [e2, bind_apply, h], _, e1, h⟩
  | empty r c =>
    have e2 : Nil.checkMask (.empty r c) (some o) w = ((Mask.empty r c).check o >>= fun _ => pure o) w := rfl
    rcases key (.empty r c) (by simp) with h | h
    · exact Or.inl ⟨by rw [e2, bind_ok h]; rfl, _, rfl, h⟩
    · exact Or.inr ⟨by rw [e2, bind_apply, h], _, rfl, h⟩
  | given r c el =>
    have e2 : Nil.checkMask (.given r c el) (some o) w = ((Mask.given r c el).check o >>= fun _ => pure o) w := rfl
    rcases key (.given r c el) (by simp) with h | h
    · exact Or.inl ⟨by rw [e2, bind_ok h]; rfl, _, rfl, h⟩
    · exact Or.inr ⟨by rw [e2, bind_apply, h], _, rfl, h⟩
  | ref p =>
    have e2 : Nil.checkMask (.ref p) (some o) w = ((Mask.ref p).check o >>= fun _ => pure o) w := rfl
    rcases key (.ref p) (by simp) with h | h
    · exact Or.inl ⟨by rw [e2, bind_ok h]; rfl, _, rfl, h⟩
    · exact Or.inr ⟨by rw [e2, bind_apply, h], _, rfl, h⟩

theorem Nil.checkMask_none (mask : Mask) : (Nil.checkMask mask none : M T Ref) w = .panic w := by
  cases mask <;> rfl

/-- Repeating the mask and output checks changes nothing. -/
theorem Nil.checked {mask : Mask} {o : Ref} {X : Ref → M T Unit}
    (hX : ∀ k, (mask.orEmpty o : M T Mask) w = .ok k w → (k.check o : M T Unit) w = .panic w → X o w = .panic w) :
    (Nil.checkMask mask (some o) >>= X) w = X o w := by
  rcases Nil.checkMask_some (w := w) mask o with ⟨h, k, h1, h2⟩ | ⟨h, k, h1, h2⟩
  · rw [bind_ok h]
  · rw [bind_apply, h, hX k h1 h2]

/-- An operator that continues after the mask and output checks panics when they do. -/
theorem Nil.check_panic {mask k : Mask} {o : Ref} {K : Mask → M T Unit} (h1 : (mask.orEmpty o : M T Mask) w = .ok k w)
    (h2 : (k.check o : M T Unit) w = .panic w) :
    (mask.orEmpty o >>= fun k => k.check o >>= fun _ => K k : M T Unit) w = .panic w := by
  rw [bind_ok h1, bind_apply, h2]

/-- C73, nothing else changed: without nil the calls are those of the model of the operators. -/
theorem C73_same (c : OpCall T) (mask : Mask) (o : Ref) : c.lift.run mask (some o) w = c.run mask o w := by
  have mul : ∀ s m : Ref, Nil.multiply (some s) (some m) mask (some o) w = Ops.multiply s m mask o w := by
    intro s m
    by_cases hd : (w.heap m).rows = (w.heap s).cols
    · have e : Nil.multiply (some s) (some m) mask (some o) w = (Nil.checkMask mask (some o) >>= Ops.multiply s m mask) w := by
        unfold Nil.multiply
        rw [bind_ok Nil.use_some, bind_ok Nil.use_some, bind_ok (rowsOf_apply m w), bind_ok (colsOf_apply s w),
          if_neg (not_not.2 hd)]
      rw [e]
      refine Nil.checked fun k h1 h2 => ?_
      unfold Ops.multiply
      rw [bind_ok (rowsOf_apply m w), bind_ok (colsOf_apply s w), if_neg (not_not.2 hd)]
      exact Nil.check_panic h1 h2
    · unfold Nil.multiply Ops.multiply
      rw [bind_ok Nil.use_some, bind_ok Nil.use_some, bind_ok (rowsOf_apply m w), bind_ok (colsOf_apply s w), if_pos hd,
        bind_ok (rowsOf_apply m w), bind_ok (colsOf_apply s w), if_pos hd]
      rfl
  cases c with
  | mxm s m => exact mul s m
  | mxv s m => exact mul s m
  | vxm s m => exact mul m s
  | add s m =>
    show Nil.add (some s) (some m) mask (some o) w = Ops.add s m mask o w
    by_cases hc : (w.heap s).cols = (w.heap m).cols
    · by_cases hr : (w.heap s).rows = (w.heap m).rows
      · have e : Nil.add (some s) (some m) mask (some o) w = (Nil.checkMask mask (some o) >>= Ops.add s m mask) w := by
          unfold Nil.add
          rw [bind_ok Nil.use_some, bind_ok Nil.use_some, bind_ok (colsOf_apply s w), bind_ok (colsOf_apply m w),
            if_neg (not_not.2 hc)]
          show (rowsOf s >>= _) w = _
          rw [bind_ok (rowsOf_apply s w), bind_ok (rowsOf_apply m w), if_neg (not_not.2 hr)]
        rw [e]
        refine Nil.checked fun k h1 h2 => ?_
        unfold Ops.add
        rw [bind_ok (colsOf_apply s w), bind_ok (colsOf_apply m w), if_neg (not_not.2 hc)]
        show (rowsOf s >>= _) w = _
        rw [bind_ok (rowsOf_apply s w), bind_ok (rowsOf_apply m w), if_neg (not_not.2 hr)]
        exact Nil.check_panic h1 h2
      · unfold Nil.add Ops.add
        rw [bind_ok Nil.use_some, bind_ok Nil.use_some, bind_ok (colsOf_apply s w), bind_ok (colsOf_apply m w),
          if_neg (not_not.2 hc), bind_ok (colsOf_apply s w), bind_ok (colsOf_apply m w), if_neg (not_not.2 hc)]
        show (rowsOf s >>= _) w = (rowsOf s >>= _) w
        rw [bind_ok (rowsOf_apply s w), bind_ok (rowsOf_apply m w), if_pos hr, bind_ok (rowsOf_apply s w),
          bind_ok (rowsOf_apply m w), if_pos hr]
        rfl
    · unfold Nil.add Ops.add
      rw [bind_ok Nil.use_some, bind_ok Nil.use_some, bind_ok (colsOf_apply s w), bind_ok (colsOf_apply m w),
        if_pos hc, bind_ok (colsOf_apply s w), bind_ok (colsOf_apply m w), if_pos hc]
      rfl
  | subtract s m =>
    show Nil.subtract (some s) (some m) mask (some o) w = Ops.subtract s m mask o w
    by_cases hc : (w.heap s).cols = (w.heap m).cols
    · by_cases hr : (w.heap s).rows = (w.heap m).rows
      · have e : Nil.subtract (some s) (some m) mask (some o) w = (Nil.checkMask mask (some o) >>= Ops.subtract s m mask) w := by
          unfold Nil.subtract
          rw [bind_ok Nil.use_some, bind_ok Nil.use_some, bind_ok (colsOf_apply s w), bind_ok (colsOf_apply m w),
            if_neg (not_not.2 hc)]
          show (rowsOf s >>= _) w = _
          rw [bind_ok (rowsOf_apply s w), bind_ok (rowsOf_apply m w), if_neg (not_not.2 hr)]
        rw [e]
        refine Nil.checked fun k h1 h2 => ?_
        unfold Ops.subtract
        rw [bind_ok (colsOf_apply s w), bind_ok (colsOf_apply m w), if_neg (not_not.2 hc)]
        show (rowsOf s >>= _) w = _
        rw [bind_ok (rowsOf_apply s w), bind_ok (rowsOf_apply m w), if_neg (not_not.2 hr)]
        exact Nil.check_panic h1 h2
      · unfold Nil.subtract Ops.subtract
        rw [bind_ok Nil.use_some, bind_ok Nil.use_some, bind_ok (colsOf_apply s w), bind_ok (colsOf_apply m w),
          if_neg (not_not.2 hc), bind_ok (colsOf_apply s w), bind_ok (colsOf_apply m w), if_neg (not_not.2 hc)]
        show (rowsOf s >>= _) w = (rowsOf s >>= _) w
        rw [bind_ok (rowsOf_apply s w), bind_ok (rowsOf_apply m w), if_pos hr, bind_ok (rowsOf_apply s w),
          bind_ok (rowsOf_apply m w), if_pos hr]
        rfl
    · unfold Nil.subtract Ops.subtract
      rw [bind_ok Nil.use_some, bind_ok Nil.use_some, bind_ok (colsOf_apply s w), bind_ok (colsOf_apply m w),
        if_pos hc, bind_ok (colsOf_apply s w), bind_ok (colsOf_apply m w), if_pos hc]
      rfl
  | eMulMatrix s m =>
    show Nil.elementWiseMatrixMultiply (some s) (some m) mask (some o) w = Ops.elementWiseMatrixMultiply s m mask o w
    by_cases hd : (w.heap m).rows = (w.heap s).cols
    · have e : Nil.elementWiseMatrixMultiply (some s) (some m) mask (some o) w =
          (Nil.checkMask mask (some o) >>= Ops.elementWiseMatrixMultiply s m mask) w := by
        unfold Nil.elementWiseMatrixMultiply
        rw [bind_ok Nil.use_some, bind_ok Nil.use_some, bind_ok (rowsOf_apply m w), bind_ok (colsOf_apply s w),
          if_neg (not_not.2 hd)]
      rw [e]
      refine Nil.checked fun k h1 h2 => ?_
      unfold Ops.elementWiseMatrixMultiply
      rw [bind_ok (rowsOf_apply m w), bind_ok (colsOf_apply s w), if_neg (not_not.2 hd)]
      exact Nil.check_panic h1 h2
    · unfold Nil.elementWiseMatrixMultiply Ops.elementWiseMatrixMultiply
      rw [bind_ok Nil.use_some, bind_ok Nil.use_some, bind_ok (rowsOf_apply m w), bind_ok (colsOf_apply s w), if_pos hd,
        bind_ok (rowsOf_apply m w), bind_ok (colsOf_apply s w), if_pos hd]
      rfl
  | eMulVector s m =>
    show Nil.elementWiseVectorMultiply (some s) (some m) mask (some o) w = Ops.elementWiseVectorMultiply s m mask o w
    by_cases hd : (w.heap m).rows = (w.heap s).rows
    · have e : Nil.elementWiseVectorMultiply (some s) (some m) mask (some o) w =
          (Nil.checkMask mask (some o) >>= Ops.elementWiseVectorMultiply s m mask) w := by
        unfold Nil.elementWiseVectorMultiply
        rw [bind_ok Nil.use_some, bind_ok Nil.use_some, bind_ok (rowsOf_apply m w), bind_ok (rowsOf_apply s w),
          if_neg (not_not.2 hd)]
      rw [e]
      refine Nil.checked fun k h1 h2 => ?_
      unfold Ops.elementWiseVectorMultiply
      rw [bind_ok (rowsOf_apply m w), bind_ok (rowsOf_apply s w), if_neg (not_not.2 hd)]
      exact Nil.check_panic h1 h2
    · unfold Nil.elementWiseVectorMultiply Ops.elementWiseVectorMultiply
      rw [bind_ok Nil.use_some, bind_ok Nil.use_some, bind_ok (rowsOf_apply m w), bind_ok (rowsOf_apply s w), if_pos hd,
        bind_ok (rowsOf_apply m w), bind_ok (rowsOf_apply s w), if_pos hd]
      rfl
  | eAddMatrix s m =>
    show Nil.elementWiseMatrixAdd (some s) (some m) mask (some o) w = Ops.elementWiseMatrixAdd s m mask o w
    by_cases hd : (w.heap m).rows = (w.heap s).cols
    · have e : Nil.elementWiseMatrixAdd (some s) (some m) mask (some o) w =
          (Nil.checkMask mask (some o) >>= Ops.elementWiseMatrixAdd s m mask) w := by
        unfold Nil.elementWiseMatrixAdd
        rw [bind_ok Nil.use_some, bind_ok Nil.use_some, bind_ok (rowsOf_apply m w), bind_ok (colsOf_apply s w),
          if_neg (not_not.2 hd)]
      rw [e]
      refine Nil.checked fun k h1 h2 => ?_
      unfold Ops.elementWiseMatrixAdd
      rw [bind_ok (rowsOf_apply m w), bind_ok (colsOf_apply s w), if_neg (not_not.2 hd)]
      exact Nil.check_panic h1 h2
    · unfold Nil.elementWiseMatrixAdd Ops.elementWiseMatrixAdd
      rw [bind_ok Nil.use_some, bind_ok Nil.use_some, bind_ok (rowsOf_apply m w), bind_ok (colsOf_apply s w), if_pos hd,
        bind_ok (rowsOf_apply m w), bind_ok (colsOf_apply s w), if_pos hd]
      rfl
  | eAddVector s m =>
    show Nil.elementWiseVectorAdd (some s) (some m) mask (some o) w = Ops.elementWiseVectorAdd s m mask o w
    by_cases hd : (w.heap m).rows = (w.heap s).rows
    · have e : Nil.elementWiseVectorAdd (some s) (some m) mask (some o) w =
          (Nil.checkMask mask (some o) >>= Ops.elementWiseVectorAdd s m mask) w := by
        unfold Nil.elementWiseVectorAdd
        rw [bind_ok Nil.use_some, bind_ok Nil.use_some, bind_ok (rowsOf_apply m w), bind_ok (rowsOf_apply s w),
          if_neg (not_not.2 hd)]
      rw [e]
      refine Nil.checked fun k h1 h2 => ?_
      unfold Ops.elementWiseVectorAdd
      rw [bind_ok (rowsOf_apply m w), bind_ok (rowsOf_apply s w), if_neg (not_not.2 hd)]
      exact Nil.check_panic h1 h2
    · unfold Nil.elementWiseVectorAdd Ops.elementWiseVectorAdd
      rw [bind_ok Nil.use_some, bind_ok Nil.use_some, bind_ok (rowsOf_apply m w), bind_ok (rowsOf_apply s w), if_pos hd,
        bind_ok (rowsOf_apply m w), bind_ok (rowsOf_apply s w), if_pos hd]
      rfl
  | apply s u =>
    exact Nil.checked (X := fun out => Nil.use (some s) >>= fun inp => Ops.apply inp mask u out)
      fun k h1 h2 => Nil.check_panic h1 h2
  | negative s =>
    exact Nil.checked (X := fun out => Ops.negative out mask out) fun k h1 h2 => Nil.check_panic h1 h2
  | transpose s =>
    exact Nil.checked (X := fun out => Nil.use (some s) >>= fun inp => Ops.transpose inp mask out)
      fun k h1 h2 => Nil.check_panic h1 h2

/-- C73, a nil operand or a nil output: the call panics and nothing at all has changed. -/
theorem C73_rejects (c : NilCall T) (mask : Mask) (out : Option Ref) (h : c.hasNil ∨ out = none) :
    c.run mask out w = .panic w := by
  have last : ∀ X : Ref → M T Unit, (Nil.checkMask mask none >>= X) w = .panic w := by
    intro X; rw [bind_apply, Nil.checkMask_none]
  have one : ∀ (a : Option Ref) (X : Ref → Ref → M T Unit), (a = none ∨ out = none) →
      (Nil.checkMask mask out >>= fun o => Nil.use a >>= fun p => X p o) w = .panic w := by
    intro a X h
    cases out with
    | none => exact last _
    | some o =>
      obtain rfl : a = none := by simpa using h
      rcases Nil.checkMask_some (w := w) mask o with ⟨h, -⟩ | ⟨h, -⟩
      · rw [bind_ok h]; rfl
      · rw [bind_apply, h]
  cases c with
  | mxm s m =>
    cases m with
    | none => rfl
    | some p =>
      cases s with
      | none => rfl
      | some q =>
        obtain rfl : out = none := by simpa [NilCall.hasNil] using h
        show Nil.multiply (some q) (some p) mask none w = _
        unfold Nil.multiply
        rw [bind_ok Nil.use_some, bind_ok Nil.use_some, bind_ok (rowsOf_apply p w), bind_ok (colsOf_apply q w)]
        split
        · rfl
        · exact last _
  | mxv s m =>
    cases m with
    | none => rfl
    | some p =>
      cases s with
      | none => rfl
      | some q =>
        obtain rfl : out = none := by simpa [NilCall.hasNil] using h
        show Nil.multiply (some q) (some p) mask none w = _
        unfold Nil.multiply
        rw [bind_ok Nil.use_some, bind_ok Nil.use_some, bind_ok (rowsOf_apply p w), bind_ok (colsOf_apply q w)]
        split
        · rfl
        · exact last _
  | vxm s m =>
    cases s with
    | none => rfl
    | some p =>
      cases m with
      | none => rfl
      | some q =>
        obtain rfl : out = none := by simpa [NilCall.hasNil] using h
        show Nil.multiply (some q) (some p) mask none w = _
        unfold Nil.multiply
        rw [bind_ok Nil.use_some, bind_ok Nil.use_some, bind_ok (rowsOf_apply p w), bind_ok (colsOf_apply q w)]
        split
        · rfl
        · exact last _
  | add s m =>
    cases s with
    | none => rfl
    | some p =>
      cases m with
      | none => rfl
      | some q =>
        obtain rfl : out = none := by simpa [NilCall.hasNil] using h
        show Nil.add (some p) (some q) mask none w = _
        unfold Nil.add
        rw [bind_ok Nil.use_some, bind_ok Nil.use_some, bind_ok (colsOf_apply p w), bind_ok (colsOf_apply q w)]
        split
        · rfl
        · show (rowsOf p >>= _) w = _
          rw [bind_ok (rowsOf_apply p w), bind_ok (rowsOf_apply q w)]
          split
          · rfl
          · exact last _
  | subtract s m =>
    cases s with
    | none => rfl
    | some p =>
      cases m with
      | none => rfl
      | some q =>
        obtain rfl : out = none := by simpa [NilCall.hasNil] using h
        show Nil.subtract (some p) (some q) mask none w = _
        unfold Nil.subtract
        rw [bind_ok Nil.use_some, bind_ok Nil.use_some, bind_ok (colsOf_apply p w), bind_ok (colsOf_apply q w)]
        split
        · rfl
        · show (rowsOf p >>= _) w = _
          rw [bind_ok (rowsOf_apply p w), bind_ok (rowsOf_apply q w)]
          split
          · rfl
          · exact last _
  | eMulMatrix s m =>
    cases m with
    | none => rfl
    | some p =>
      cases s with
      | none => rfl
      | some q =>
        obtain rfl : out = none := by simpa [NilCall.hasNil] using h
        show Nil.elementWiseMatrixMultiply (some q) (some p) mask none w = _
        unfold Nil.elementWiseMatrixMultiply
        rw [bind_ok Nil.use_some, bind_ok Nil.use_some, bind_ok (rowsOf_apply p w), bind_ok (colsOf_apply q w)]
        split
        · rfl
        · exact last _
  | eMulVector s m =>
    cases m with
    | none => rfl
    | some p =>
      cases s with
      | none => rfl
      | some q =>
        obtain rfl : out = none := by simpa [NilCall.hasNil] using h
        show Nil.elementWiseVectorMultiply (some q) (some p) mask none w = _
        unfold Nil.elementWiseVectorMultiply
        rw [bind_ok Nil.use_some, bind_ok Nil.use_some, bind_ok (rowsOf_apply p w), bind_ok (rowsOf_apply q w)]
        split
        · rfl
        · exact last _
  | eAddMatrix s m =>
    cases m with
    | none => rfl
    | some p =>
      cases s with
      | none => rfl
      | some q =>
        obtain rfl : out = none := by simpa [NilCall.hasNil] using h
        show Nil.elementWiseMatrixAdd (some q) (some p) mask none w = _
        unfold Nil.elementWiseMatrixAdd
        rw [bind_ok Nil.use_some, bind_ok Nil.use_some, bind_ok (rowsOf_apply p w), bind_ok (colsOf_apply q w)]
        split
        · rfl
        · exact last _
  | eAddVector s m =>
    cases m with
    | none => rfl
    | some p =>
      cases s with
      | none => rfl
      | some q =>
        obtain rfl : out = none := by simpa [NilCall.hasNil] using h
        show Nil.elementWiseVectorAdd (some q) (some p) mask none w = _
        unfold Nil.elementWiseVectorAdd
        rw [bind_ok Nil.use_some, bind_ok Nil.use_some, bind_ok (rowsOf_apply p w), bind_ok (rowsOf_apply q w)]
        split
        · rfl
        · exact last _
  | apply s u => exact one s (fun p o => Ops.apply p mask u o) h
  | negative s =>
    obtain rfl : out = none := by simpa [NilCall.hasNil] using h
    exact last _
  | transpose s => exact one s (fun p o => Ops.transpose p mask o) h

/-- C73, `Negative` does not look at its first matrix, nil or not. -/
theorem C73_negative (s : Option Ref) (p : Ref) (mask : Mask) (o : Ref) :
    (NilCall.negative s).run mask (some o) w = OpCall.run (T := T) mask o (.negative p) w :=
  Nil.checked (X := fun out => Ops.negative out mask out) fun _ h1 h2 => Nil.check_panic h1 h2

/-- C73, `Equal`: nil equals nil and nothing else; `NotEqual` is its negation. -/
theorem C73_equal (s m : Option Ref) (h : s = none ∨ m = none) :
    Nil.equal s m w = .ok (decide (s = m)) w ∧ Nil.notEqual s m w = .ok (!decide (s = m)) w := by
  cases s <;> cases m <;> first | exact ⟨rfl, rfl⟩ | simp at h

/-- C73, the methods `Equal` and `NotEqual` of an object with nil. -/
theorem C73_equal_method (s : Ref) : Nil.methEqual s none w = .ok false w ∧ Nil.methNotEqual s none w = .ok true w :=
  ⟨rfl, rfl⟩

/-- C73, the reductions of nil panic and nothing has changed; on objects they are the reductions of the rest of the
model. -/
theorem C73_reductions (mo : MonoID T) (mask : Mask) (s : Ref) :
    Nil.reduceScalar none mo mask w = .panic w ∧ Nil.reduceVector none mo mask w = .panic w ∧
    Nil.reduceScalar (some s) mo mask w = Ops.reduceScalar s mo mask w ∧
    Nil.reduceVector (some s) mo mask w = Ops.reduceVector s mo mask w := by
  cases mask <;> exact ⟨rfl, rfl, rfl, rfl⟩

/-- C73, functions and methods that return something, on objects: the calls of the rest of the model. -/
theorem C73_same_methods (s m : Ref) (alpha : T) :
    Nil.scalar (some s) alpha w = Ops.scalar s alpha w ∧ Nil.transposeToCSR (some s) w = Ops.transposeToCSR s w ∧
    Nil.transposeToCSC (some s) w = Ops.transposeToCSC s w ∧ Nil.methMultiply s (some m) w = Meth.multiply s m w ∧
    Nil.methAdd s (some m) w = Meth.add s m w ∧ Nil.methSubtract s (some m) w = Meth.subtract s m w ∧
    Nil.equal (some s) (some m) w = Ops.equal s m w ∧ Nil.notEqual (some s) (some m) w = Ops.notEqual s m w ∧
    Nil.methEqual s (some m) w = Meth.equal s m w ∧ Nil.methNotEqual s (some m) w = Meth.notEqual s m w :=
  ⟨rfl, rfl, rfl, rfl, rfl, rfl, rfl, rfl, rfl, rfl⟩

/-- C73, functions and methods that return a matrix panic on nil; nothing that existed has changed. -/
theorem C73_methods [GoStore T] {s : Ref} (hs : Reach (w.heap s)) (alpha : T) :
    ∀ res ∈ [Nil.scalar none alpha w, Nil.transposeToCSR none w, Nil.transposeToCSC none w, Nil.methMultiply s none w,
      Nil.methAdd s none w, Nil.methSubtract s none w],
      res.isPanic = true ∧ ∀ q, q < w.next → res.world.heap q = w.heap q := by
  have hc : M.copy s { w with cancel := none } = .ok w.next
      { w with heap := Function.update w.heap w.next (w.heap s), next := w.next + 1, cancel := none } := by
    unfold M.copy
    rw [bind_ok (ofObj_ok (w := { w with cancel := none }) (p := s) (a := w.heap s) (by
      by_cases hk : (w.heap s).kind = .svec
      · cases hm : w.heap s <;> rw [hm] at hk hs <;> simp [Mat.kind] at hk
        simp [Mat.copy, SVec.copy_eq _ hs.weak.len]
      · exact Mat.copy_ok (hs.wf hk)))]
    rfl
  have hadd : Nil.methAdd s none w =
      .panic { w with heap := Function.update w.heap w.next (w.heap s), next := w.next + 1 } := by
    unfold Nil.methAdd Meth.background
    simp only
    rw [bind_ok hc]
    rfl
  have hsub : Nil.methSubtract s none w = .panic w ∨ Nil.methSubtract s none w =
      .panic { w with heap := Function.update w.heap w.next (w.heap s), next := w.next + 1 } := by
    unfold Nil.methSubtract Meth.background
    simp only
    cases h : w.heap s
    case svec v =>
      right
      simp only
      rw [bind_ok (by rw [hc, h])]
      rfl
    all_goals left; rfl
  have fresh : ∀ q, q < w.next → Function.update w.heap w.next (w.heap s) q = w.heap q :=
    fun q hq => Function.update_of_ne (Nat.ne_of_lt hq) _ _
  intro res hres
  simp only [List.mem_cons, List.not_mem_nil, or_false] at hres
  rcases hres with rfl | rfl | rfl | rfl | rfl | rfl
  · exact ⟨rfl, fun _ _ => rfl⟩
  · exact ⟨rfl, fun _ _ => rfl⟩
  · exact ⟨rfl, fun _ _ => rfl⟩
  · exact ⟨rfl, fun _ _ => rfl⟩
  · rw [hadd]; exact ⟨rfl, fresh⟩
  · rcases hsub with h | h <;> rw [h]
    · exact ⟨rfl, fun _ _ => rfl⟩
    · exact ⟨rfl, fresh⟩

end

/-! ## Cases -/

/-- A world with two objects. -/
def nilWorld : World ℤ := World.of 9 [.dense ⟨1, 2, [[1, 2]]⟩, .dense ⟨1, 2, [[5, 6]]⟩]

/-- `Add(a, nil, nil, b)` panics; `Negative(nil, nil, b)` negates `b`. -/
example : (NilCall.add (some 0) none).run .nil (some 1) nilWorld = .panic nilWorld := C73_rejects _ _ _ (.inl (.inr rfl))

example : ((NilCall.negative none).run .nil (some 1) nilWorld).world.heap 1 = .dense ⟨1, 2, [[-5, -6]]⟩ := by kernel_rfl

end GB
