import Verif.Model.Steps

/-!
# The stepwise operators are the operators
-/

namespace GB

set_option linter.unusedSectionVars false

variable {T : Type} [GoNum T]

namespace Prog

theorem bind_def {α β : Type} (x : Prog T α) (f : α → Prog T β) : x >>= f = bind' x f := rfl

theorem run_bind {α β : Type} (x : Prog T α) (f : α → Prog T β) (w : World T) :
    (x >>= f).run w = (x.run >>= fun a => (f a).run) w := by
  rw [bind_def]
  induction x generalizing w with
  | ret a => rfl
  | fail => rfl
  | hang => rfl
  | poll k ih =>
    show (M.poll >>= fun b => run (bind' (k b) f)) w = ((M.poll >>= fun b => run (k b)) >>= fun a => (f a).run) w
    simp only [bind, M.bind']
    cases M.poll w with
    | ok b w' => exact ih b w'
    | panic w' => rfl
    | hang w' => rfl
  | names k ih => exact ih w.reg w
  | call p g k ih =>
    show (M.withObj p g >>= fun b => run (bind' (k b) f)) w
      = ((M.withObj p g >>= fun b => run (k b)) >>= fun a => (f a).run) w
    simp only [bind, M.bind']
    cases M.withObj p g w with
    | ok b w' => exact ih b w'
    | panic w' => rfl
    | hang w' => rfl

theorem poll_gas (w : World T) : (M.poll w).world.gas = w.gas := by
  unfold M.poll; split <;> rfl

theorem withObj_gas {α : Type} (p : Ref) (f : Mat T → Out (α × Mat T)) (w : World T) :
    (M.withObj p f w).world.gas = w.gas := by
  unfold M.withObj; split <;> rfl

theorem run_gas {α : Type} (x : Prog T α) (w : World T) : (x.run w).world.gas = w.gas := by
  induction x generalizing w with
  | ret a => rfl
  | fail => rfl
  | hang => rfl
  | poll k ih =>
    show ((M.poll >>= fun b => run (k b)) w).world.gas = _
    have h := poll_gas w
    simp only [bind, M.bind']
    cases hp : M.poll w with
    | ok b w' => rw [hp] at h; exact (ih b w').trans h
    | panic w' => rw [hp] at h; exact h
    | hang w' => rw [hp] at h; exact h
  | names k ih => exact ih w.reg w
  | call p g k ih =>
    show ((M.withObj p g >>= fun b => run (k b)) w).world.gas = _
    have h := withObj_gas p g w
    simp only [bind, M.bind']
    cases hp : M.withObj p g w with
    | ok b w' => rw [hp] at h; exact (ih b w').trans h
    | panic w' => rw [hp] at h; exact h
    | hang w' => rw [hp] at h; exact h

/-- The program does what the statement does, when `g` iterations are granted. -/
def Sim {α : Type} (g : Nat) (x : Prog T α) (y : M T α) : Prop := ∀ w, w.gas = g → x.run w = y w

variable {g : Nat}

theorem Sim.pure {α : Type} (a : α) : Sim (T := T) g (pure a) (pure a) := fun _ _ => rfl

theorem Sim.bind {α β : Type} {x : Prog T α} {y : M T α} {f : α → Prog T β} {h : α → M T β} (hx : Sim g x y)
    (hf : ∀ a, Sim g (f a) (h a)) : Sim g (x >>= f) (y >>= h) := by
  intro w hw
  have hg := run_gas x w
  rw [run_bind]
  simp only [Bind.bind, M.bind']
  rw [hx w hw] at hg ⊢
  cases hy : y w with
  | ok a w' => rw [hy] at hg; exact hf a w' (hg.trans hw)
  | panic w' => rfl
  | hang w' => rfl

theorem Sim.fail {α : Type} : Sim (T := T) (α := α) g fail M.fail := fun _ _ => rfl

theorem Sim.withObj {α : Type} (p : Ref) (f : Mat T → Out (α × Mat T)) : Sim g (withObj p f) (M.withObj p f) := by
  intro w _
  show (M.withObj p f >>= fun b => run (ret b)) w = _
  simp only [Bind.bind, M.bind']
  cases M.withObj p f w <;> rfl

theorem Sim.ofObj {α : Type} (p : Ref) (f : Mat T → Out α) : Sim g (ofObj p f) (M.ofObj p f) := by
  intro w _
  show (M.withObj p (fun m => do let a ← f m; .ok (a, m)) >>= fun b => run (ret b)) w = _
  simp only [Bind.bind, M.bind', M.withObj, M.ofObj]
  cases f (w.heap p) with
  | ok a =>
    show Res.ok a { w with heap := Function.update w.heap p (w.heap p) } = _
    rw [Function.update_eq_self]
  | panic => rfl
  | hang => rfl

theorem Sim.poll : Sim (T := T) g (poll ret) M.poll := by
  intro w _
  show (M.poll >>= fun b => run (ret b)) w = _
  simp only [Bind.bind, M.bind']
  cases M.poll w <;> rfl

theorem Sim.lift {α : Type} (x : Out α) : Sim (T := T) g (lift x) (M.lift x) := by
  intro w _; cases x <;> rfl

theorem Sim.ite {α : Type} {c : Prop} [Decidable c] {x x' : Prog T α} {y y' : M T α} (h : Sim g x y) (h' : Sim g x' y') :
    Sim g (if c then x else x') (if c then y else y') := by
  split
  · exact h
  · exact h'

theorem Sim.rowsOf (p : Ref) : Sim (T := T) g (rowsOf p) (M.rowsOf p) := Sim.ofObj p _
theorem Sim.colsOf (p : Ref) : Sim (T := T) g (colsOf p) (M.colsOf p) := Sim.ofObj p _
theorem Sim.iterOf (p : Ref) : Sim (T := T) g (iterOf p) (M.iterOf p) := Sim.ofObj p _
theorem Sim.at' (p : Ref) (r c : Nat) : Sim (T := T) g (at' p r c) (M.at' p r c) := Sim.withObj p _
theorem Sim.set (p : Ref) (r c : Nat) (v : T) : Sim g (set p r c v) (M.set p r c v) := Sim.withObj p _
theorem Sim.update (p : Ref) (r c : Nat) (f : T → T) : Sim g (update p r c f) (M.update p r c f) := Sim.withObj p _

theorem Sim.isSparse (p : Ref) : Sim (T := T) g (isSparse p) (M.isSparse p) := by
  intro w hw
  unfold Prog.isSparse
  rw [run_bind]
  simp only [Bind.bind, M.bind']
  rw [Sim.ofObj (g := g) p (fun m => .ok m.typeName) w hw]
  rfl

theorem Sim.loopIter {β : Type} (p : Ref) (oc : Option β) {body : Nat → Nat → T → Prog T (Option β)}
    {body' : Nat → Nat → T → M T (Option β)} (hb : ∀ r c v, Sim g (body r c v) (body' r c v)) (k : Nat) (it : Mat.Iter) :
    Sim g (loopIter p oc body k it) (M.loopIter p oc body' k it) := by
  induction k generalizing it with
  | zero =>
    unfold Prog.loopIter M.loopIter
    exact Sim.ite (fun _ _ => rfl) (Sim.pure _)
  | succ k ih =>
    unfold Prog.loopIter M.loopIter
    refine Sim.ite (Sim.bind Sim.poll fun stop => Sim.ite ?_ (Sim.bind (Sim.ofObj p _) ?_)) (Sim.pure _)
    · cases oc with
      | some b => exact Sim.pure _
      | none => exact ih it
    · rintro ⟨it', r, c, v⟩
      refine Sim.bind (hb r c v) ?_
      rintro (_ | b)
      · exact ih it'
      · exact Sim.pure _

theorem Sim.forEach {β : Type} (p : Ref) (oc : Option β) {body : Nat → Nat → T → Prog T (Option β)}
    {body' : Nat → Nat → T → M T (Option β)} (hb : ∀ r c v, Sim g (body r c v) (body' r c v)) :
    Sim g (forEach g p oc body) (M.forEach p oc body') := by
  refine Sim.bind (Sim.iterOf p) fun it w hw => ?_
  show _ = M.loopIter p oc body' w.gas it w
  rw [hw]
  exact Sim.loopIter p oc hb g it w hw

theorem Sim.loopMap (p : Ref) (oc : Bool) {f : Nat → Nat → T → Prog T T}
    {f' : Nat → Nat → T → M T T} (hb : ∀ r c v, Sim g (f r c v) (f' r c v)) (k : Nat) (it : Mat.Iter) :
    Sim g (loopMap p oc f k it) (M.loopMap p oc f' k it) := by
  induction k generalizing it with
  | zero =>
    unfold Prog.loopMap M.loopMap
    exact Sim.ite (fun _ _ => rfl) (Sim.pure _)
  | succ k ih =>
    unfold Prog.loopMap M.loopMap
    refine Sim.ite (Sim.bind Sim.poll fun stop => Sim.ite (Sim.ite (Sim.pure _) (ih it))
      (Sim.bind (Sim.ofObj p _) ?_)) (Sim.pure _)
    rintro ⟨it', r, c, v⟩
    exact Sim.bind (hb r c v) fun v' => Sim.bind (Sim.withObj p _) fun _ => ih it'

theorem Sim.forMap (p : Ref) (oc : Bool) {f : Nat → Nat → T → Prog T T}
    {f' : Nat → Nat → T → M T T} (hb : ∀ r c v, Sim g (f r c v) (f' r c v)) :
    Sim g (forMap g p oc f) (M.forMap p oc f') := by
  refine Sim.bind (Sim.iterOf p) fun it w hw => ?_
  show _ = M.loopMap p oc f' w.gas it w
  rw [hw]
  exact Sim.loopMap p oc hb g it w hw

theorem Sim.forN {β : Type} {body : Nat → Prog T (Option β)} {body' : Nat → M T (Option β)}
    (hb : ∀ i, Sim g (body i) (body' i)) (n i0 : Nat) : Sim g (forN n i0 body) (M.forN n i0 body') := by
  induction n generalizing i0 with
  | zero => exact Sim.pure _
  | succ n ih =>
    refine Sim.bind (hb i0) ?_
    rintro (_ | b)
    · exact ih (i0 + 1)
    · exact Sim.pure _

theorem Sim.orEmpty (mask : Mask) (out : Ref) : Sim (T := T) g (orEmpty mask out) (mask.orEmpty out) := by
  cases mask with
  | nil => exact Sim.bind (Sim.rowsOf _) fun _ => Sim.bind (Sim.colsOf _) fun _ => Sim.pure _
  | empty r c => exact Sim.pure _
  | ref p => exact Sim.pure _
  | given r c el => exact Sim.pure _

theorem Sim.maskRows (mask : Mask) : Sim (T := T) g (maskRows mask) mask.rows := by
  cases mask with
  | nil => exact Sim.fail
  | empty r c => exact Sim.pure _
  | ref p => exact Sim.rowsOf p
  | given r c el => exact Sim.pure _

theorem Sim.maskCols (mask : Mask) : Sim (T := T) g (maskCols mask) mask.cols := by
  cases mask with
  | nil => exact Sim.fail
  | empty r c => exact Sim.pure _
  | ref p => exact Sim.colsOf p
  | given r c el => exact Sim.pure _

theorem Sim.element (mask : Mask) (r c : Nat) : Sim (T := T) g (element mask r c) (mask.element r c) := by
  cases mask with
  | nil => exact Sim.fail
  | empty _ _ => exact Sim.pure _
  | ref p => exact Sim.withObj p _
  | given _ _ el =>
    cases h : el r c with
    | none => simp only [Prog.element, Mask.element, h]; exact Sim.fail
    | some b => simp only [Prog.element, Mask.element, h]; exact Sim.pure _

theorem Sim.when {α : Type} {c : Prop} [Decidable c] {x : Prog T Unit} {y : M T Unit} {k : Unit → Prog T α}
    {k' : Unit → M T α} (hx : Sim g x y) (h : ∀ u, Sim g (k u) (k' u)) :
    Sim g (if c then x >>= k else k ()) (if c then y >>= k' else k' ()) :=
  Sim.ite (Sim.bind hx h) (h ())

theorem Sim.guard {α : Type} {c : Prop} [Decidable c] {k : Unit → Prog T α}
    {k' : Unit → M T α} (h : ∀ u, Sim g (k u) (k' u)) :
    Sim g (if c then Prog.fail >>= k else k ()) (if c then M.fail >>= k' else k' ()) :=
  Sim.when Sim.fail h

theorem Sim.check (mask : Mask) (out : Ref) : Sim (T := T) g (check mask out) (mask.check out) :=
  Sim.bind (Sim.maskRows _) fun _ => Sim.bind (Sim.rowsOf _) fun _ => Sim.guard
    fun _ => Sim.bind (Sim.maskCols _) fun _ => Sim.bind (Sim.colsOf _) fun _ => Sim.ite Sim.fail (Sim.pure _)

theorem Sim.dot (rows column : Vec T) (n l : Nat) (s : T) : Sim g (dot rows column n l s) (Ops.dot rows column n l s) := by
  induction n generalizing l s with
  | zero => exact Sim.pure _
  | succ n ih =>
    exact Sim.bind Sim.poll fun _ => Sim.ite (Sim.pure _) <| Sim.bind (Sim.lift _) fun _ =>
      Sim.bind (Sim.lift _) fun _ => ih _ _

theorem Sim.pre (mask : Mask) (out : Ref) {f : Mask → Prog T Unit} {h : Mask → M T Unit} (hf : ∀ mk, Sim g (f mk) (h mk)) :
    Sim g (do let mk ← Prog.orEmpty mask out; Prog.check mk out; f mk)
      (do let mk ← mask.orEmpty out; mk.check out; h mk) :=
  Sim.bind (Sim.orEmpty _ _) fun mk => Sim.bind (Sim.check mk out) fun _ => hf mk

theorem Sim.multiply (s m : Ref) (mask : Mask) (out : Ref) :
    Sim (T := T) g (multiply s m mask out) (Ops.multiply s m mask out) := by
  refine Sim.bind (Sim.rowsOf _) fun _ => Sim.bind (Sim.colsOf _) fun _ => Sim.guard fun _ => (Sim.pre mask out fun mk => ?_)
  refine Sim.bind (Sim.rowsOf _) fun _ => Sim.bind (Sim.forN (fun r => ?_) _ _) fun _ => Sim.pure _
  refine Sim.bind (Sim.ofObj _ _) fun _ => Sim.bind (Sim.colsOf _) fun _ => Sim.forN (fun c => ?_) _ _
  refine Sim.bind (Sim.ofObj _ _) fun _ => Sim.bind (Sim.dot _ _ _ _ _) ?_
  rintro (_ | sum)
  · exact Sim.pure _
  · exact Sim.bind (Sim.element _ _ _) fun _ => Sim.when (Sim.set _ _ _ _) fun _ => Sim.pure _

theorem Sim.eMulTarget (source out : Ref) (mask : Mask) (r c : Nat) (v : T) :
    Sim g (eMulTarget source out mask r c v) (Ops.eMulTarget source out mask r c v) :=
  Sim.bind (Sim.at' _ _ _) fun _ => Sim.ite (Sim.bind (Sim.element _ _ _) fun _ => Sim.ite (Sim.set _ _ _ _) (Sim.pure _))
    (Sim.pure _)

theorem Sim.eMulSetSource (source : Ref) (mask : Mask) (r c : Nat) (v : T) :
    Sim g (eMulSetSource source mask r c v) (Ops.eMulSetSource source mask r c v) :=
  Sim.bind (Sim.element _ _ _) fun _ => Sim.ite (Sim.update _ _ _ _) (Sim.pure _)

theorem Sim.elementWiseMultiply (s m : Ref) (mask : Mask) (out : Ref) :
    Sim (T := T) g (elementWiseMultiply g s m mask out) (Ops.elementWiseMultiply s m mask out) := by
  refine Sim.pre mask out fun mk => ?_
  have hrun : ∀ (over : Ref) (t : Nat → Nat → T → Prog T Unit) (t' : Nat → Nat → T → M T Unit),
      (∀ r c v, Sim g (t r c v) (t' r c v)) →
      Sim g (do let _ ← Prog.forEach g over (some ()) (fun r c v => do t r c v; Pure.pure none); Pure.pure ())
        (do let _ ← M.forEach over (some ()) (fun r c v => do t' r c v; Pure.pure none); Pure.pure ()) :=
    fun over t t' h => Sim.bind (Sim.forEach _ _ fun r c v => Sim.bind (h r c v) fun _ => Sim.pure _) fun _ => Sim.pure _
  refine Sim.ite (hrun _ _ _ fun r c v => Sim.eMulSetSource _ _ _ _ _) (Sim.ite (hrun _ _ _ fun r c v =>
    Sim.eMulSetSource _ _ _ _ _) (Sim.bind (Sim.isSparse _) fun sp => Sim.ite (hrun _ _ _ fun r c v =>
      Sim.eMulTarget _ _ _ _ _ _) (hrun _ _ _ fun r c v => Sim.eMulTarget _ _ _ _ _ _)))

theorem Sim.add (s m : Ref) (mask : Mask) (out : Ref) : Sim (T := T) g (add g s m mask out) (Ops.add s m mask out) := by
  refine Sim.bind (Sim.colsOf _) fun _ => Sim.bind (Sim.colsOf _) fun _ => Sim.guard fun _ => ?_
  refine Sim.bind (Sim.rowsOf _) fun _ => Sim.bind (Sim.rowsOf _) fun _ => Sim.guard fun _ => (Sim.pre mask out fun mk => ?_)
  refine Sim.bind (Sim.isSparse _) fun sp => ?_
  cases sp <;>
  exact Sim.bind (Sim.forEach _ _ fun r c v => Sim.bind (Sim.at' _ _ _) fun _ => Sim.bind (Sim.element _ _ _) fun _ =>
    Sim.when (Sim.set _ _ _ _) fun _ => Sim.pure _) fun _ => Sim.pure _

theorem Sim.eAddLoop (src : Ref) (mask : Mask) (out : Ref) :
    Sim (T := T) g (eAddLoop g src mask out) (Ops.eAddLoop src mask out) :=
  Sim.forEach _ _ fun _ _ _ => Sim.ite (Sim.bind (Sim.element _ _ _) fun _ => Sim.when (Sim.set _ _ _ _)
    fun _ => Sim.pure _) (Sim.pure _)

theorem Sim.elementWiseAdd (s m : Ref) (mask : Mask) (out : Ref) :
    Sim (T := T) g (elementWiseAdd g s m mask out) (Ops.elementWiseAdd s m mask out) := by
  refine Sim.pre mask out fun mk => ?_
  have h2 : Sim (T := T) g (if m ≠ out then do let _ ← Prog.eAddLoop g m mk out; Pure.pure () else Pure.pure ())
      (if m ≠ out then do let _ ← Ops.eAddLoop m mk out; Pure.pure () else Pure.pure ()) :=
    Sim.ite (Sim.bind (Sim.eAddLoop _ _ _) fun _ => Sim.pure _) (Sim.pure _)
  refine Sim.ite (Sim.bind (Sim.eAddLoop _ _ _) ?_) h2
  rintro (_ | _)
  · exact h2
  · exact Sim.pure _

theorem Sim.subtract (s m : Ref) (mask : Mask) (out : Ref) :
    Sim (T := T) g (subtract g s m mask out) (Ops.subtract s m mask out) := by
  refine Sim.bind (Sim.colsOf _) fun _ => Sim.bind (Sim.colsOf _) fun _ => Sim.guard fun _ => ?_
  refine Sim.bind (Sim.rowsOf _) fun _ => Sim.bind (Sim.rowsOf _) fun _ => Sim.guard fun _ => (Sim.pre mask out fun mk => ?_)
  exact Sim.bind (Sim.forEach _ _ fun r c v => Sim.bind (Sim.element _ _ _) fun _ =>
    Sim.when (Sim.update _ _ _ _) fun _ => Sim.pure _) fun _ => Sim.pure _

theorem Sim.apply (s : Ref) (mask : Mask) (u : T → T) (out : Ref) :
    Sim (T := T) g (apply g s mask u out) (Ops.apply s mask u out) := by
  refine Sim.pre mask out fun mk => Sim.ite ?_ ?_
  · exact Sim.bind (Sim.forMap _ _ fun r c v => Sim.bind (Sim.element _ _ _) fun _ => Sim.ite (Sim.pure _) (Sim.pure _))
      fun _ => Sim.pure _
  · exact Sim.bind (Sim.forEach _ _ fun r c v => Sim.bind (Sim.element _ _ _) fun _ =>
      Sim.when (Sim.set _ _ _ _) fun _ => Sim.pure _) fun _ => Sim.pure _

theorem Sim.negative (s : Ref) (mask : Mask) (out : Ref) :
    Sim (T := T) g (negative g mask out) (Ops.negative s mask out) := by
  refine Sim.pre mask out fun mk => ?_
  exact Sim.bind (Sim.forMap _ _ fun r c v => Sim.bind (Sim.element _ _ _) fun _ => Sim.ite (Sim.pure _) (Sim.pure _))
      fun _ => Sim.pure _

theorem Sim.transpose (s : Ref) (mask : Mask) (out : Ref) :
    Sim (T := T) g (transpose g s mask out) (Ops.transpose s mask out) := by
  refine Sim.pre mask out fun mk => ?_
  exact Sim.bind (Sim.forEach _ _ fun r c v => Sim.bind (Sim.element _ _ _) fun _ =>
      Sim.when (Sim.set _ _ _ _) fun _ => Sim.pure _) fun _ => Sim.pure _

end Prog

/-- Uninterrupted, the stepwise operators are the operators. -/
theorem OpCall.steps_run (op : OpCall T) (mask : Mask) (out : Ref) (w : World T) :
    (op.steps w.gas mask out).run w = op.run mask out w := by
  have hs : ∀ (x : Prog T Unit) (y : M T Unit), Prog.Sim w.gas x y → x.run w = y w := fun x y h => h w rfl
  cases op with
  | mxm s m => exact hs _ _ (Prog.Sim.multiply _ _ _ _)
  | mxv s m => exact hs _ _ (Prog.Sim.multiply _ _ _ _)
  | vxm s m => exact hs _ _ (Prog.Sim.multiply _ _ _ _)
  | add s m => exact hs _ _ (Prog.Sim.add _ _ _ _)
  | subtract s m => exact hs _ _ (Prog.Sim.subtract _ _ _ _)
  | eMulMatrix s m =>
    exact hs _ _ (Prog.Sim.bind (Prog.Sim.rowsOf _) fun _ => Prog.Sim.bind (Prog.Sim.colsOf _) fun _ =>
      Prog.Sim.guard fun _ => (Prog.Sim.elementWiseMultiply _ _ _ _))
  | eMulVector s m =>
    exact hs _ _ (Prog.Sim.bind (Prog.Sim.rowsOf _) fun _ => Prog.Sim.bind (Prog.Sim.rowsOf _) fun _ =>
      Prog.Sim.guard fun _ => (Prog.Sim.elementWiseMultiply _ _ _ _))
  | eAddMatrix s m =>
    exact hs _ _ (Prog.Sim.bind (Prog.Sim.rowsOf _) fun _ => Prog.Sim.bind (Prog.Sim.colsOf _) fun _ =>
      Prog.Sim.guard fun _ => (Prog.Sim.elementWiseAdd _ _ _ _))
  | eAddVector s m =>
    exact hs _ _ (Prog.Sim.bind (Prog.Sim.rowsOf _) fun _ => Prog.Sim.bind (Prog.Sim.rowsOf _) fun _ =>
      Prog.Sim.guard fun _ => (Prog.Sim.elementWiseAdd _ _ _ _))
  | apply s u => exact hs _ _ (Prog.Sim.apply _ _ _ _)
  | negative s => exact hs _ _ (Prog.Sim.negative s _ _)
  | transpose s => exact hs _ _ (Prog.Sim.transpose _ _ _)

end GB
