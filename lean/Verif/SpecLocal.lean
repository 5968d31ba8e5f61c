import Verif.SpecOps

/-!
# Vocabulary for what an operator may depend on
-/

namespace GB

variable {T : Type} [GoNum T]

/-- Same outcome (return of the same value, panic, still running), in worlds related by `R`. -/
inductive Res.Alike {α : Type} (R : World T → World T → Prop) : Res T α → Res T α → Prop
  | ok {a w1 w2} : R w1 w2 → Alike R (.ok a w1) (.ok a w2)
  | panic {w1 w2} : R w1 w2 → Alike R (.panic w1) (.panic w2)
  | hang {w1 w2} : R w1 w2 → Alike R (.hang w1) (.hang w2)

/-- The shape a mask claims; no mask stands for one of the shape of the output. -/
def Mask.shape (w : World T) (out : Ref) : Mask → Nat × Nat
  | .nil => ((w.heap out).rows, (w.heap out).cols)
  | .empty r c => (r, c)
  | .ref p => ((w.heap p).rows, (w.heap p).cols)
  | .given r c _ => (r, c)

/-- What `Element(r, c)` answers, panics included. -/
def Mask.says (w : World T) : Mask → Nat → Nat → Out Bool
  | .ref p, r, c => do let (b, _) ← (w.heap p).element r c; .ok b
  | .given _ _ el, r, c => match el r c with
    | some b => .ok b
    | none => .panic
  | _, _, _ => .ok false

/-- The objects of a call: what is in `objs`, with `σ p` in the second program for `p` in the first, holds
the same; the contexts will be found cancelled at the same poll; same registrations. -/
def AgreeOn (objs : Ref → Prop) (σ : Ref → Ref) (w1 w2 : World T) : Prop :=
  (∀ p, objs p → w2.heap (σ p) = w1.heap p) ∧ w1.cancel = w2.cancel ∧ w1.reg = w2.reg ∧ w1.gas = w2.gas

/-- The same call on other objects. -/
def OpCall.rename (σ : Ref → Ref) : OpCall T → OpCall T
  | .mxm s m => .mxm (σ s) (σ m)
  | .mxv s m => .mxv (σ s) (σ m)
  | .vxm s m => .vxm (σ s) (σ m)
  | .add s m => .add (σ s) (σ m)
  | .subtract s m => .subtract (σ s) (σ m)
  | .eMulMatrix s m => .eMulMatrix (σ s) (σ m)
  | .eMulVector s m => .eMulVector (σ s) (σ m)
  | .eAddMatrix s m => .eAddMatrix (σ s) (σ m)
  | .eAddVector s m => .eAddVector (σ s) (σ m)
  | .apply s u => .apply (σ s) u
  | .negative s => .negative (σ s)
  | .transpose s => .transpose (σ s)

/-- The same mask, another object. -/
def Mask.rename (σ : Ref → Ref) : Mask → Mask
  | .nil => .nil
  | .empty r c => .empty r c
  | .ref p => .ref (σ p)
  | .given r c el => .given r c el

end GB
