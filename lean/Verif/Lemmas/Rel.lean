import Verif.Lemmas.Frame
import Verif.SpecLocal
import Verif.Props.Total

/-!
# Two runs side by side

`Rel R x y`: started from worlds related by `R`, the programs `x` and `y` have the same outcome (return
of the same value, panic, out of gas) and end in related worlds.
-/

namespace GB

set_option linter.unusedSectionVars false

variable {T : Type} [GoNum T]

def Rel {α : Type} (R : World T → World T → Prop) (x y : M T α) : Prop :=
  ∀ w1 w2, R w1 w2 → (x w1).Alike R (y w2)

/-- `R` is kept by what an operator does that reads the objects of `S` and writes to those of `W`; in the
second run the object `p` goes by the name `σ p`. -/
structure Prims (R : World T → World T → Prop) (σ : Ref → Ref) (S W : Ref → Prop) : Prop where
  inj : ∀ p q, S p → S q → σ p = σ q → p = q
  sub : ∀ p, W p → S p
  gas : ∀ w1 w2, R w1 w2 → w1.gas = w2.gas
  poll : Rel R (M.poll : M T Bool) M.poll
  rows : ∀ p, S p → Rel R (M.rowsOf p : M T Nat) (M.rowsOf (σ p))
  cols : ∀ p, S p → Rel R (M.colsOf p : M T Nat) (M.colsOf (σ p))
  values : ∀ p, S p → Rel R (M.valuesOf p : M T Nat) (M.valuesOf (σ p))
  sparse : ∀ p, S p → Rel R (M.isSparse p : M T Bool) (M.isSparse (σ p))
  iter : ∀ p, S p → Rel R (M.iterOf p : M T Mat.Iter) (M.iterOf (σ p))
  read : ∀ p, S p → ∀ {α : Type} (f : Mat T → Out α), Rel R (M.ofObj p f) (M.ofObj (σ p) f)
  look : ∀ p, S p → ∀ r c, Rel R (M.at' p r c : M T T) (M.at' (σ p) r c)
  write : ∀ p, W p → ∀ {α : Type} (f : Mat T → Out (α × Mat T)), Rel R (M.withObj p f) (M.withObj (σ p) f)

namespace Rel
open M

variable {α β : Type} {R : World T → World T → Prop} {σ : Ref → Ref} {S W : Ref → Prop}

theorem pure (a : α) : Rel R (Pure.pure a : M T α) (Pure.pure a) := fun _ _ h => .ok h
theorem fail : Rel R (M.fail : M T α) M.fail := fun _ _ h => .panic h
theorem hang : Rel R (fun w => .hang w : M T α) (fun w => .hang w) := fun _ _ h => .hang h

theorem lift (x : Out α) : Rel R (M.lift x : M T α) (M.lift x) := by
  intro w1 w2 h
  cases x with
  | ok a => exact .ok h
  | panic => exact .panic h
  | hang => exact .hang h

theorem bind {x y : M T α} {f g : α → M T β} (hx : Rel R x y) (hf : ∀ a, Rel R (f a) (g a)) :
    Rel R (x >>= f) (y >>= g) := by
  intro w1 w2 h
  rw [bind_apply, bind_apply]
  have := hx w1 w2 h
  generalize x w1 = rx at this ⊢
  generalize y w2 = ry at this ⊢
  cases this with
  | ok h' => exact hf _ _ _ h'
  | panic h' => exact .panic h'
  | hang h' => exact .hang h'

theorem ite {c : Prop} [Decidable c] {x y x' y' : M T α} (hx : Rel R x x') (hy : Rel R y y') :
    Rel R (if c then x else y) (if c then x' else y') := by split <;> assumption

theorem guard {c : Prop} [Decidable c] {x y : M T α} (h : Rel R x y) :
    Rel R (if c then (do (M.fail : M T Unit); x) else x) (if c then (do (M.fail : M T Unit); y) else y) :=
  ite (bind fail (fun _ => h)) h

theorem forN {body body' : Nat → M T (Option β)} (hb : ∀ i, Rel R (body i) (body' i)) :
    ∀ k i0, Rel R (M.forN k i0 body) (M.forN k i0 body') := by
  intro k
  induction k with
  | zero => intro i0; exact pure _
  | succ k ih =>
    intro i0
    refine bind (hb i0) (fun x => ?_)
    cases x with
    | some b => exact pure _
    | none => exact ih _

theorem loopIter (hR : Prims R σ S W) {p : Ref} (hp : S p) {oc : Option β} {body body' : Nat → Nat → T → M T (Option β)}
    (hb : ∀ r c v, Rel R (body r c v) (body' r c v)) :
    ∀ (g : Nat) (it : Mat.Iter), Rel R (M.loopIter p oc body g it) (M.loopIter (σ p) oc body' g it) := by
  intro g
  induction g with
  | zero => intro it; unfold M.loopIter; by_cases h : it.hasNext <;> simp only [h]; exacts [hang, pure _]
  | succ g ih =>
    intro it
    unfold M.loopIter
    split
    · refine bind hR.poll (fun stop => ?_)
      split
      · cases oc with
        | some b => exact pure _
        | none => exact ih it
      · refine bind (hR.read p hp _) (fun ⟨it', r, c, v⟩ => bind (hb r c v) (fun x => ?_))
        cases x with
        | some b => exact pure _
        | none => exact ih it'
    · exact pure _

theorem forEach (hR : Prims R σ S W) {p : Ref} (hp : S p) {oc : Option β} {body body' : Nat → Nat → T → M T (Option β)}
    (hb : ∀ r c v, Rel R (body r c v) (body' r c v)) : Rel R (M.forEach p oc body) (M.forEach (σ p) oc body') :=
  bind (hR.iter p hp) (fun it w1 w2 h => by
    show Res.Alike R (M.loopIter p oc body w1.gas it w1) (M.loopIter (σ p) oc body' w2.gas it w2)
    rw [hR.gas w1 w2 h]
    exact loopIter hR hp hb _ it w1 w2 h)

theorem loopMap (hR : Prims R σ S W) {p : Ref} (hp : S p) (hw : W p) {oc : Bool} {f f' : Nat → Nat → T → M T T}
    (hb : ∀ r c v, Rel R (f r c v) (f' r c v)) :
    ∀ (g : Nat) (it : Mat.Iter), Rel R (M.loopMap p oc f g it) (M.loopMap (σ p) oc f' g it) := by
  intro g
  induction g with
  | zero => intro it; unfold M.loopMap; by_cases h : it.hasNext <;> simp only [h]; exacts [hang, pure _]
  | succ g ih =>
    intro it
    unfold M.loopMap
    split
    · refine bind hR.poll (fun stop => ?_)
      split
      · split
        · exact pure _
        · exact ih it
      · exact bind (hR.read p hp _) (fun ⟨it', r, c, v⟩ => bind (hb r c v) (fun x =>
          bind (hR.write p hw _) (fun _ => ih it')))
    · exact pure _

theorem forMap (hR : Prims R σ S W) {p : Ref} (hp : S p) (hw : W p) {oc : Bool} {f f' : Nat → Nat → T → M T T}
    (hb : ∀ r c v, Rel R (f r c v) (f' r c v)) : Rel R (M.forMap p oc f) (M.forMap (σ p) oc f') :=
  bind (hR.iter p hp) (fun it w1 w2 h => by
    show Res.Alike R (M.loopMap p oc f w1.gas it w1) (M.loopMap (σ p) oc f' w2.gas it w2)
    rw [hR.gas w1 w2 h]
    exact loopMap hR hp hw hb _ it w1 w2 h)

theorem dot (hR : Prims R σ S W) (rows column : Vec T) :
    ∀ k l sum, Rel R (Ops.dot rows column k l sum) (Ops.dot rows column k l sum) := by
  intro k
  induction k with
  | zero => intro l sum; exact pure _
  | succ k ih =>
    intro l sum
    unfold Ops.dot
    refine bind hR.poll (fun stop => ?_)
    split
    · exact pure _
    · exact bind (lift _) (fun _ => bind (lift _) (fun _ => ih _ _))

/-! ## Operators -/

/-- What is asked of the masks of the two runs: they are there, they pass or fail the shape check
together, and give the same answers. -/
structure Masks (R : World T → World T → Prop) (σ : Ref → Ref) (out : Ref) (k1 k2 : Mask) : Prop where
  one : k1 ≠ .nil
  two : k2 ≠ .nil
  check : Rel R (k1.check out : M T Unit) (k2.check (σ out))
  element : ∀ r c, Rel R (k1.element r c : M T Bool) (k2.element r c)

theorem orEmpty_some {mask : Mask} (h : mask ≠ .nil) (out : Ref) : (mask.orEmpty out : M T Mask) = Pure.pure mask := by
  cases mask with
  | nil => exact absurd rfl h
  | empty r c => rfl
  | ref p => rfl
  | given r c el => rfl

theorem given {k1 k2 : Mask} {out : Ref} (hk : Masks R σ out k1 k2) {f g : Mask → M T β}
    (h : Rel R (f k1) (g k2)) : Rel R (k1.orEmpty out >>= f) (k2.orEmpty (σ out) >>= g) := by
  rw [orEmpty_some hk.one, orEmpty_some hk.two]
  exact h

/-- One step: take the heads of the two programs apart. -/
macro "rel_step" : tactic => `(tactic| first
  | assumption
  | exact Rel.pure _ | exact Rel.fail | exact Rel.lift _
  | exact Prims.rows ‹_› _ ‹_› | exact Prims.cols ‹_› _ ‹_› | exact Prims.values ‹_› _ ‹_› | exact Prims.sparse ‹_› _ ‹_›
  | exact Prims.read ‹_› _ ‹_› _ | exact Prims.look ‹_› _ ‹_› _ _ | exact Prims.write ‹_› _ ‹_› _
  | exact Prims.poll ‹_›
  | exact Rel.Masks.check ‹_› | exact Rel.Masks.element ‹_› _ _
  | exact Rel.dot ‹_› _ _ _ _ _
  | (with_reducible refine Rel.given ‹_› ?_)
  | (with_reducible refine Rel.bind ?_ ?_)
  | (with_reducible refine Rel.forEach ‹_› ‹_› ?_)
  | (with_reducible refine Rel.forMap ‹_› ‹_› ‹_› ?_)
  | (with_reducible refine Rel.forN ?_ _ _)
  | (with_reducible refine Rel.ite ?_ ?_)
  | with_reducible intro _
  | dsimp only
  | split)

variable {s m out : Ref} {k1 k2 : Mask}

theorem multiply (hR : Prims R σ S W) (hs : S s) (hm : S m) (hw : W out) (hk : Masks R σ out k1 k2) :
    Rel R (Ops.multiply s m k1 out : M T Unit) (Ops.multiply (σ s) (σ m) k2 (σ out)) := by
  unfold Ops.multiply M.set
  repeat' rel_step

theorem add (hR : Prims R σ S W) (hs : S s) (hm : S m) (hw : W out) (hk : Masks R σ out k1 k2) :
    Rel R (Ops.add s m k1 out : M T Unit) (Ops.add (σ s) (σ m) k2 (σ out)) := by
  have loop : ∀ over source, S over → S source → Rel R
      (do let _ ← M.forEach over (some ()) (fun r c v => do
            let value ← M.at' source r c
            let e ← k1.element r c
            if !e then M.set out r c (value + v)
            Pure.pure none)
          Pure.pure () : M T Unit)
      (do let _ ← M.forEach (σ over) (some ()) (fun r c v => do
            let value ← M.at' (σ source) r c
            let e ← k2.element r c
            if !e then M.set (σ out) r c (value + v)
            Pure.pure none)
          Pure.pure ()) := by
    intro over source ho hso
    unfold M.set
    repeat' rel_step
  unfold Ops.add
  refine bind (hR.cols s hs) (fun _ => bind (hR.cols m hm) (fun _ => ?_))
  refine guard ?_
  refine bind (hR.rows s hs) (fun _ => bind (hR.rows m hm) (fun _ => ?_))
  refine guard ?_
  refine given hk (bind hk.check (fun _ => bind (hR.sparse s hs) (fun sp => ?_)))
  cases sp with
  | true => exact loop s m hs hm
  | false => exact loop m s hm hs

theorem subtract (hR : Prims R σ S W) (hs : S s) (hm : S m) (hw : W out) (hk : Masks R σ out k1 k2) :
    Rel R (Ops.subtract s m k1 out : M T Unit) (Ops.subtract (σ s) (σ m) k2 (σ out)) := by
  unfold Ops.subtract M.update
  repeat' rel_step

/-- The two runs agree on which arguments are the same object. -/
theorem same (hR : Prims R σ S W) {p q : Ref} (hp : S p) (hq : S q) : (σ p = σ q) = (p = q) :=
  propext ⟨hR.inj p q hp hq, fun h => by rw [h]⟩

theorem elementWiseMultiply (hR : Prims R σ S W) (hs : S s) (hm : S m) (hw : W out) (hk : Masks R σ out k1 k2) :
    Rel R (Ops.elementWiseMultiply s m k1 out : M T Unit) (Ops.elementWiseMultiply (σ s) (σ m) k2 (σ out)) := by
  have src : ∀ r c v, Rel R (Ops.eMulSetSource out k1 r c v : M T Unit) (Ops.eMulSetSource (σ out) k2 r c v) := by
    intro r c v
    unfold Ops.eMulSetSource M.update
    repeat' rel_step
  have tgt : ∀ p, S p → ∀ r c v, Rel R (Ops.eMulTarget p out k1 r c v : M T Unit) (Ops.eMulTarget (σ p) (σ out) k2 r c v) := by
    intro p hp r c v
    unfold Ops.eMulTarget M.set
    repeat' rel_step
  have run : ∀ over, S over → ∀ f g : Nat → Nat → T → M T Unit, (∀ r c v, Rel R (f r c v) (g r c v)) →
      Rel R (do let _ ← M.forEach over (some ()) (fun r c v => do f r c v; Pure.pure none); Pure.pure () : M T Unit)
        (do let _ ← M.forEach (σ over) (some ()) (fun r c v => do g r c v; Pure.pure none); Pure.pure ()) := by
    intro over ho f g h
    exact bind (forEach hR ho (fun r c v => bind (h r c v) (fun _ => pure _))) (fun _ => pure _)
  have ho := hR.sub out hw
  unfold Ops.elementWiseMultiply
  refine given hk (bind hk.check (fun _ => ?_))
  simp only [same hR hm ho, same hR hs ho]
  by_cases h1 : m = out
  · subst h1
    simp only [if_true]
    exact run s hs _ _ src
  · by_cases h2 : s = out
    · subst h2
      simp only [h1, if_false, if_true]
      exact run m hm _ _ src
    · simp only [h1, h2, if_false]
      refine bind (hR.sparse s hs) (fun sp => ?_)
      cases sp with
      | true => exact run s hs _ _ (tgt m hm)
      | false => exact run m hm _ _ (tgt s hs)

theorem eAddLoop (hR : Prims R σ S W) (hs : S s) (hw : W out) (hk : Masks R σ out k1 k2) :
    Rel R (Ops.eAddLoop s k1 out : M T (Option Unit)) (Ops.eAddLoop (σ s) k2 (σ out)) := by
  unfold Ops.eAddLoop M.set
  repeat' rel_step

theorem elementWiseAdd (hR : Prims R σ S W) (hs : S s) (hm : S m) (hw : W out) (hk : Masks R σ out k1 k2) :
    Rel R (Ops.elementWiseAdd s m k1 out : M T Unit) (Ops.elementWiseAdd (σ s) (σ m) k2 (σ out)) := by
  have h1 := eAddLoop hR hs hw hk
  have h2 := eAddLoop hR hm hw hk
  have ho := hR.sub out hw
  have tail : ∀ stop : Option Unit, Rel R
      (match stop with
        | some () => Pure.pure ()
        | none => if m ≠ out then do
            let _ ← Ops.eAddLoop m k1 out
            Pure.pure ()
          else Pure.pure () : M T Unit)
      (match stop with
        | some () => Pure.pure ()
        | none => if m ≠ out then do
            let _ ← Ops.eAddLoop (σ m) k2 (σ out)
            Pure.pure ()
          else Pure.pure ()) := by
    intro stop
    cases stop with
    | some u => exact pure _
    | none => exact ite (bind h2 (fun _ => pure _)) (pure _)
  unfold Ops.elementWiseAdd
  simp only [ne_eq, same hR hs ho, same hR hm ho]
  exact given hk (bind hk.check (fun _ => ite (bind h1 tail) (bind (pure _) tail)))

theorem apply {u : T → T} (hR : Prims R σ S W) (hs : S s) (hw : W out) (hk : Masks R σ out k1 k2) :
    Rel R (Ops.apply s k1 u out : M T Unit) (Ops.apply (σ s) k2 u (σ out)) := by
  have ho := hR.sub out hw
  unfold Ops.apply
  simp only [same hR hs ho]
  by_cases h : s = out
  · subst h
    simp only [if_true]
    repeat' rel_step
  · simp only [h, if_false]
    unfold M.set
    repeat' rel_step

theorem negative (hR : Prims R σ S W) (hw : W out) (hk : Masks R σ out k1 k2) :
    Rel R (Ops.negative s k1 out : M T Unit) (Ops.negative (σ s) k2 (σ out)) := by
  have ho := hR.sub out hw
  unfold Ops.negative
  repeat' rel_step

theorem transpose (hR : Prims R σ S W) (hs : S s) (hw : W out) (hk : Masks R σ out k1 k2) :
    Rel R (Ops.transpose s k1 out : M T Unit) (Ops.transpose (σ s) k2 (σ out)) := by
  unfold Ops.transpose M.set
  repeat' rel_step

theorem equal (hR : Prims R σ S W) (hs : S s) (hm : S m) :
    Rel R (Ops.equal s m : M T Bool) (Ops.equal (σ s) (σ m)) := by
  unfold Ops.equal
  repeat' rel_step

/-- Every operator. -/
theorem run (hR : Prims R σ S W) (call : OpCall T) (hS : ∀ p ∈ call.operands, S p) (hw : W out)
    (hk : Masks R σ out k1 k2) : Rel R (call.run k1 out) ((call.rename σ).run k2 (σ out)) := by
  cases call with
  | mxm s m => exact multiply hR (hS s (by simp [OpCall.operands])) (hS m (by simp [OpCall.operands])) hw hk
  | mxv s m => exact multiply hR (hS s (by simp [OpCall.operands])) (hS m (by simp [OpCall.operands])) hw hk
  | vxm s m => exact multiply hR (hS m (by simp [OpCall.operands])) (hS s (by simp [OpCall.operands])) hw hk
  | add s m => exact add hR (hS s (by simp [OpCall.operands])) (hS m (by simp [OpCall.operands])) hw hk
  | subtract s m => exact subtract hR (hS s (by simp [OpCall.operands])) (hS m (by simp [OpCall.operands])) hw hk
  | eMulMatrix s m =>
    have hs := hS s (by simp [OpCall.operands])
    have hm := hS m (by simp [OpCall.operands])
    exact bind (hR.rows m hm) (fun _ => bind (hR.cols s hs) (fun _ => guard (elementWiseMultiply hR hs hm hw hk)))
  | eMulVector s m =>
    have hs := hS s (by simp [OpCall.operands])
    have hm := hS m (by simp [OpCall.operands])
    exact bind (hR.rows m hm) (fun _ => bind (hR.rows s hs) (fun _ => guard (elementWiseMultiply hR hs hm hw hk)))
  | eAddMatrix s m =>
    have hs := hS s (by simp [OpCall.operands])
    have hm := hS m (by simp [OpCall.operands])
    exact bind (hR.rows m hm) (fun _ => bind (hR.cols s hs) (fun _ => guard (elementWiseAdd hR hs hm hw hk)))
  | eAddVector s m =>
    have hs := hS s (by simp [OpCall.operands])
    have hm := hS m (by simp [OpCall.operands])
    exact bind (hR.rows m hm) (fun _ => bind (hR.rows s hs) (fun _ => guard (elementWiseAdd hR hs hm hw hk)))
  | apply s u => exact apply hR (hS s (by simp [OpCall.operands])) hw hk
  | negative s => exact negative (s := s) hR hw hk
  | transpose s => exact transpose hR (hS s (by simp [OpCall.operands])) hw hk

end Rel

/-! ## Two relations -/

/-- The same world, in which the objects `objs` are as they were in `w`. -/
def Held (w : World T) (objs : Ref → Prop) (u v : World T) : Prop :=
  u = v ∧ ∀ p, objs p → u.heap p = w.heap p

section held
variable [GoStore T] {w : World T} {objs : Ref → Prop}

theorem Held.of_frames (hI : ∀ p, objs p → (w.heap p).Inv) {α : Type} {x : M T α}
    (h : Frames 0 (fun q => ¬ objs q) x) : Rel (Held w objs) x x := by
  rintro u v ⟨rfl, hu⟩
  obtain ⟨h1, -, -⟩ := h u (Nat.zero_le _) (fun q hq => by rw [hu q (not_not.1 hq)]; exact hI q (not_not.1 hq))
  have h2 : Held w objs (x u).world (x u).world :=
    ⟨rfl, fun p hp => (h1 p (not_not.2 hp)).trans (hu p hp)⟩
  cases hx : x u with
  | ok a u' => rw [hx] at h2; exact .ok h2
  | panic u' => rw [hx] at h2; exact .panic h2
  | hang u' => rw [hx] at h2; exact .hang h2

theorem Held.prims (hI : ∀ p, objs p → (w.heap p).Inv) {out : Ref} (hout : ¬ objs out) :
    Prims (Held w objs) id (fun _ => True) (fun p => p = out) where
  inj _ _ _ _ h := h
  sub _ _ := trivial
  gas _ _ h := by rw [h.1]
  poll := of_frames hI .poll
  rows p _ := of_frames hI (.rowsOf p)
  cols p _ := of_frames hI (.colsOf p)
  values p _ := of_frames hI (.valuesOf p)
  sparse p _ := of_frames hI (.isSparse p)
  iter p _ := of_frames hI (.iterOf p)
  read p _ _ f := of_frames hI (.ofObj p f)
  look p _ r c := of_frames hI (.at' p r c)
  write p hp _ f := of_frames hI (.withObj_in (P := fun q => ¬ objs q) (p := p) (by rw [hp]; exact hout) f)

end held

section agree
variable {objs : Ref → Prop} {σ : Ref → Ref}

theorem AgreeOn.look {w1 w2 : World T} (h : AgreeOn objs σ w1 w2) {p : Ref} (hp : objs p) :
    w2.heap (σ p) = w1.heap p := h.1 p hp

theorem AgreeOn.write (hinj : ∀ p q, objs p → objs q → σ p = σ q → p = q) {p : Ref} (hp : objs p) {α : Type}
    (f : Mat T → Out (α × Mat T)) : Rel (AgreeOn objs σ) (M.withObj p f) (M.withObj (σ p) f) := by
  intro w1 w2 h
  unfold M.withObj
  rw [h.look hp]
  cases f (w1.heap p) with
  | ok a =>
    obtain ⟨a, m⟩ := a
    refine .ok ⟨fun q hq => ?_, h.2⟩
    by_cases hqp : q = p
    · subst hqp; simp
    · have : σ q ≠ σ p := fun e => hqp (hinj q p hq hp e)
      simp [Function.update_of_ne hqp, Function.update_of_ne this, h.look hq]
  | panic => exact .panic h
  | hang => exact .hang h

theorem AgreeOn.prims (hinj : ∀ p q, objs p → objs q → σ p = σ q → p = q) :
    Prims (T := T) (AgreeOn objs σ) σ objs objs where
  inj := hinj
  sub _ h := h
  gas _ _ h := h.2.2.2
  poll w1 w2 h := by
    unfold M.poll
    rw [← h.2.1]
    rcases w1.cancel with _ | _ | k
    · exact .ok h
    · exact .ok h
    · exact .ok ⟨h.1, rfl, h.2.2⟩
  rows p hp w1 w2 h := by rw [M.rowsOf_apply, M.rowsOf_apply, h.look hp]; exact .ok h
  cols p hp w1 w2 h := by rw [M.colsOf_apply, M.colsOf_apply, h.look hp]; exact .ok h
  values p hp w1 w2 h := by rw [M.valuesOf_apply, M.valuesOf_apply, h.look hp]; exact .ok h
  sparse p hp w1 w2 h := by rw [M.isSparse_apply, M.isSparse_apply, h.look hp, h.2.2.1]; exact .ok h
  iter p hp w1 w2 h := by rw [M.iterOf_apply, M.iterOf_apply, h.look hp]; exact .ok h
  read p hp _ f w1 w2 h := by
    unfold M.ofObj
    rw [h.look hp]
    cases f (w1.heap p) with
    | ok a => exact .ok h
    | panic => exact .panic h
    | hang => exact .hang h
  look p hp r c := AgreeOn.write hinj hp _
  write p hp _ f := AgreeOn.write hinj hp f

end agree
end GB
