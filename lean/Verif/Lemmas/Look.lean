import Verif.SpecLook
import Verif.Lemmas.Conc
import Verif.Lemmas.Safe

/-!
# Cancelled operations stop at a look, with at most one cell written between looks
-/

namespace GB

set_option linter.unusedSectionVars false

variable {T : Type} [GoNum T]

theorem withObj_withCancel {α : Type} (p : Ref) (f : Mat T → Out (α × Mat T)) (w : World T) (c : Option Nat) :
    M.withObj p f { w with cancel := c } = (M.withObj p f w).withCancel c := by
  unfold M.withObj
  show (match f (w.heap p) with | .ok (a, m) => _ | .panic => _ | .hang => _) = _
  cases f (w.heap p) with
  | ok x => obtain ⟨a, m⟩ := x; rfl
  | panic => rfl
  | hang => rfl

namespace Prog

theorem atLook_cancel {α : Type} (x : Prog T α) (k : Nat) (w : World T) (c : Option Nat) :
    x.atLook k { w with cancel := c } = (x.atLook k w).map fun w' => { w' with cancel := c } := by
  induction x generalizing k w with
  | ret a => rfl
  | fail => rfl
  | hang => rfl
  | poll f ih =>
    cases k with
    | zero => rfl
    | succ k => exact ih false k w
  | names f ih => exact ih w.reg k w
  | call p f g ih =>
    simp only [atLook, withObj_withCancel]
    cases M.withObj p f w with
    | ok b w' => exact ih b k w'
    | panic w' => rfl
    | hang w' => rfl

theorem looks_cancel {α : Type} (x : Prog T α) (w : World T) (c : Option Nat) :
    x.looks { w with cancel := c } = x.looks w := by
  induction x generalizing w with
  | ret a => rfl
  | fail => rfl
  | hang => rfl
  | poll f ih => exact congrArg (· + 1) (ih false w)
  | names f ih => exact ih w.reg w
  | call p f g ih =>
    simp only [looks, withObj_withCancel]
    cases M.withObj p f w with
    | ok b w' => exact ih b w'
    | panic w' => rfl
    | hang w' => rfl

theorem atLook_isSome {α : Type} (x : Prog T α) (k : Nat) (w : World T) :
    (x.atLook k w).isSome = decide (k < x.looks w) := by
  induction x generalizing k w with
  | ret a => simp [atLook, looks]
  | fail => simp [atLook, looks]
  | hang => simp [atLook, looks]
  | poll f ih =>
    cases k with
    | zero => simp [atLook, looks]
    | succ k => simp [atLook, looks, ih false k w]
  | names f ih => exact ih w.reg k w
  | call p f g ih =>
    simp only [atLook, looks]
    cases M.withObj p f w with
    | ok b w' => exact ih b k w'
    | panic w' => simp
    | hang w' => simp

/-- At a look the program still has the rest of its run before it. -/
theorem atLook_rest {α : Type} (x : Prog T α) {k : Nat} {w w' : World T} (e : x.atLook k w = some w') :
    ∃ f, x.run { w with cancel := none } = (poll f).run { w' with cancel := none } ∧
      x.looks w = k + (poll f).looks w' := by
  induction x generalizing k w with
  | ret a => cases e
  | fail => cases e
  | hang => cases e
  | poll f ih =>
    cases k with
    | zero => cases e; exact ⟨f, rfl, (Nat.zero_add _).symm⟩
    | succ k =>
      obtain ⟨g, h1, h2⟩ := ih false e
      refine ⟨g, h1, ?_⟩
      show (f false).looks w + 1 = _
      rw [h2]; omega
  | names f ih => exact ih w.reg e
  | call p f g ih =>
    simp only [atLook] at e
    show ∃ f', (M.withObj p f >>= fun b => Prog.run (g b)) { w with cancel := none } = _ ∧ _
    simp only [bind, M.bind', looks, withObj_withCancel]
    cases hp : M.withObj p f w with
    | ok b w1 => rw [hp] at e; exact ih b e
    | panic w1 => rw [hp] at e; cases e
    | hang w1 => rw [hp] at e; cases e

/-- Told at a look that the context is cancelled, the program returns `a` and does nothing else. -/
def Stops {α : Type} (a : α) : Prog T α → Prop
  | ret _ => True
  | fail => True
  | hang => True
  | poll k => k true = ret a ∧ Stops a (k false)
  | names k => ∀ r, Stops a (k r)
  | call _ _ k => ∀ b, Stops a (k b)

theorem Stops.run {α : Type} {a : α} {x : Prog T α} (h : Stops a x) (k : Nat) (w : World T) :
    x.run { w with cancel := some k } =
      match x.atLook k w with
      | some w' => .ok a { w' with cancel := some 0 }
      | none => (x.run { w with cancel := none }).withCancel (some (k - x.looks w)) := by
  induction x generalizing k w with
  | ret a => rfl
  | fail => rfl
  | hang => rfl
  | poll f ih =>
    cases k with
    | zero =>
      show Prog.run (f true) { w with cancel := some 0 } = _
      rw [h.1]; rfl
    | succ k =>
      show Prog.run (f false) { w with cancel := some k } = _
      rw [ih false h.2 k w]
      show _ = match (f false).atLook k w with
        | some w' => _
        | none => ((f false).run { w with cancel := none }).withCancel (some (k + 1 - ((f false).looks w + 1)))
      rw [Nat.add_sub_add_right]
  | names f ih => exact ih w.reg (h _) k w
  | call p f g ih =>
    show (M.withObj p f >>= fun b => Prog.run (g b)) { w with cancel := some k } = _
    have e : Prog.run (call p f g) { w with cancel := none }
        = (M.withObj p f >>= fun b => Prog.run (g b)) { w with cancel := none } := rfl
    rw [e]
    simp only [bind, M.bind', atLook, looks, withObj_withCancel]
    cases M.withObj p f w with
    | ok b w' => exact ih b (h b) k w'
    | panic w' => rfl
    | hang w' => rfl

namespace Stops

theorem pure {α : Type} {a : α} (b : α) : Stops (T := T) a (Pure.pure b : Prog T α) := trivial
theorem fail {α : Type} {a : α} : Stops (T := T) a (Prog.fail : Prog T α) := trivial

theorem bind {α β : Type} {a : α} {b : β} {x : Prog T α} {f : α → Prog T β} (hx : Stops a x) (hab : f a = ret b)
    (hf : ∀ a, Stops b (f a)) : Stops b (x >>= f) := by
  rw [bind_def]
  induction x with
  | ret a => exact hf a
  | fail => trivial
  | hang => trivial
  | poll k ih =>
    refine ⟨?_, ih false hx.2⟩
    show bind' (k true) f = ret b
    rw [hx.1]; exact hab
  | names k ih => exact fun r => ih r (hx r)
  | call p g k ih => exact fun r => ih r (hx r)

/-- No looks at all. -/
def Blind {α : Type} : Prog T α → Prop
  | ret _ => True
  | Prog.fail => True
  | hang => True
  | poll _ => False
  | names k => ∀ r, Blind (k r)
  | call _ _ k => ∀ b, Blind (k b)

theorem seq {α β : Type} {b : β} {x : Prog T α} {f : α → Prog T β} (hx : Blind x) (hf : ∀ a, Stops b (f a)) :
    Stops b (x >>= f) := by
  rw [bind_def]
  induction x with
  | ret a => exact hf a
  | fail => trivial
  | hang => trivial
  | poll k ih => exact hx.elim
  | names k ih => exact fun r => ih r (hx r)
  | call p g k ih => exact fun r => ih r (hx r)

theorem Blind.pure {α : Type} (b : α) : Blind (T := T) (Pure.pure b : Prog T α) := trivial
theorem Blind.fail {α : Type} : Blind (T := T) (Prog.fail : Prog T α) := trivial

theorem Blind.bind {α β : Type} {x : Prog T α} {f : α → Prog T β} (hx : Blind x) (hf : ∀ a, Blind (f a)) :
    Blind (x >>= f) := by
  rw [bind_def]
  induction x with
  | ret a => exact hf a
  | fail => trivial
  | hang => trivial
  | poll k ih => exact hx.elim
  | names k ih => exact fun r => ih r (hx r)
  | call p g k ih => exact fun r => ih r (hx r)

theorem Blind.ite {α : Type} {c : Prop} [Decidable c] {x y : Prog T α} (hx : Blind x) (hy : Blind y) :
    Blind (if c then x else y) := by split; exacts [hx, hy]

theorem Blind.lift {α : Type} (x : Out α) : Blind (T := T) (Prog.lift x) := by cases x <;> trivial
theorem Blind.withObj {α : Type} (p : Ref) (f : Mat T → Out (α × Mat T)) : Blind (Prog.withObj p f) := fun _ => trivial
theorem Blind.ofObj {α : Type} (p : Ref) (f : Mat T → Out α) : Blind (Prog.ofObj p f) := fun _ => trivial
theorem Blind.isSparse (p : Ref) : Blind (T := T) (Prog.isSparse p) := Blind.bind (.ofObj _ _) fun _ _ => trivial

theorem Blind.element (mask : Mask) (r c : Nat) : Blind (T := T) (Prog.element mask r c) := by
  cases mask with
  | nil => trivial
  | empty _ _ => trivial
  | ref p => exact fun _ => trivial
  | given _ _ el =>
    cases h : el r c <;> simp only [Prog.element, h] <;> trivial

theorem Blind.when {α : Type} {c : Prop} [Decidable c] {x : Prog T Unit} {k : Unit → Prog T α} (hx : Blind x)
    (h : ∀ u, Blind (k u)) : Blind (if c then x >>= k else k ()) := .ite (.bind hx h) (h ())

theorem ite {α : Type} {a : α} {c : Prop} [Decidable c] {x y : Prog T α} (hx : Stops a x) (hy : Stops a y) :
    Stops a (if c then x else y) := by split; exacts [hx, hy]

theorem guard {α : Type} {a : α} {c : Prop} [Decidable c] {k : Unit → Prog T α} (h : ∀ u, Stops a (k u)) :
    Stops (T := T) a (if c then Prog.fail >>= k else k ()) := ite (seq .fail h) (h ())

theorem look {α : Type} {a : α} {x y : Prog T α} (hx : x = ret a) (hy : Stops a y) :
    Stops a (Prog.poll ret >>= fun stop => if stop = true then x else y) := ⟨hx, hy⟩

theorem loopIter {β : Type} (p : Ref) (b : β) {body : Nat → Nat → T → Prog T (Option β)}
    (hb : ∀ r c v, Blind (body r c v)) (k : Nat) (it : Mat.Iter) :
    Stops (some b) (Prog.loopIter p (some b) body k it) := by
  induction k generalizing it with
  | zero => unfold Prog.loopIter; exact ite trivial (pure _)
  | succ k ih =>
    unfold Prog.loopIter
    refine ite ?_ (pure _)
    refine look rfl (seq (Blind.ofObj p _) ?_)
    rintro ⟨it', r, c, v⟩
    refine seq (hb r c v) ?_
    rintro (_ | b)
    · exact ih it'
    · exact pure _

theorem forEach {β : Type} {g : Nat} (p : Ref) (b : β) {body : Nat → Nat → T → Prog T (Option β)}
    (hb : ∀ r c v, Blind (body r c v)) : Stops (some b) (Prog.forEach g p (some b) body) :=
  seq (.ofObj _ _) fun it => loopIter p b hb g it

theorem loopMap (p : Ref) {f : Nat → Nat → T → Prog T T} (hb : ∀ r c v, Blind (f r c v)) (k : Nat)
    (it : Mat.Iter) : Stops true (Prog.loopMap p true f k it) := by
  induction k generalizing it with
  | zero => unfold Prog.loopMap; exact ite trivial (pure _)
  | succ k ih =>
    unfold Prog.loopMap
    refine ite ?_ (pure _)
    refine look rfl (seq (Blind.ofObj p _) ?_)
    rintro ⟨it', r, c, v⟩
    exact seq (hb r c v) fun v' => seq (.withObj _ _) fun _ => ih it'

theorem forMap {g : Nat} (p : Ref) {f : Nat → Nat → T → Prog T T} (hb : ∀ r c v, Blind (f r c v)) :
    Stops true (Prog.forMap g p true f) := seq (.ofObj _ _) fun it => loopMap p hb g it

theorem forN {β : Type} {b : β} {body : Nat → Prog T (Option β)} (hb : ∀ i, Stops (some b) (body i)) (n i0 : Nat) :
    Stops (some b) (Prog.forN n i0 body) := by
  induction n generalizing i0 with
  | zero => exact pure _
  | succ n ih =>
    refine bind (hb i0) rfl ?_
    rintro (_ | b)
    · exact ih (i0 + 1)
    · exact pure _

theorem dot (rows column : Vec T) (n l : Nat) (s : T) : Stops none (Prog.dot rows column n l s) := by
  induction n generalizing l s with
  | zero => exact pure _
  | succ n ih => exact look rfl (seq (.lift _) fun _ => seq (.lift _) fun _ => ih _ _)

theorem pre {mask : Mask} {out : Ref} {f : Mask → Prog T Unit} (hf : ∀ mk, Stops () (f mk)) :
    Stops () (do let mk ← Prog.orEmpty mask out; Prog.check mk out; f mk) := by
  have h1 : ∀ mk : Mask, Blind (T := T) (Prog.maskRows mk) := by rintro (_ | _ | _ | _) <;> first | trivial | exact fun _ => trivial
  have h2 : ∀ mk : Mask, Blind (T := T) (Prog.maskCols mk) := by rintro (_ | _ | _ | _) <;> first | trivial | exact fun _ => trivial
  have h3 : ∀ mk : Mask, Blind (T := T) (Prog.check mk out) := fun mk =>
    .bind (h1 mk) fun _ => .bind (.ofObj _ _) fun _ => .when .fail fun _ => .bind (h2 mk) fun _ => .bind (.ofObj _ _)
      fun _ => .ite .fail (.pure _)
  have h4 : Blind (T := T) (Prog.orEmpty mask out) := by
    cases mask with
    | nil => exact .bind (.ofObj _ _) fun _ => .bind (.ofObj _ _) fun _ => .pure _
    | empty _ _ => trivial
    | ref p => trivial
    | given _ _ _ => trivial
  exact seq h4 fun mk => seq (h3 mk) fun _ => hf mk

theorem multiply (s m : Ref) (mask : Mask) (out : Ref) : Stops (T := T) () (Prog.multiply s m mask out) := by
  refine seq (.ofObj _ _) fun _ => seq (.ofObj _ _) fun _ => guard fun _ => pre fun mk => ?_
  refine seq (.ofObj _ _) fun _ => bind (a := some ()) (forN (fun r => ?_) _ _) rfl fun _ => pure _
  refine seq (.ofObj _ _) fun _ => seq (.ofObj _ _) fun _ => forN (fun c => ?_) _ _
  refine seq (.ofObj _ _) fun _ => bind (dot _ _ _ _ _) rfl ?_
  rintro (_ | sum)
  · exact pure _
  · exact seq (.element _ _ _) fun _ => ite (seq (.withObj _ _) fun _ => pure _) (pure _)

theorem elementWiseMultiply (g : Nat) (s m : Ref) (mask : Mask) (out : Ref) :
    Stops (T := T) () (Prog.elementWiseMultiply g s m mask out) := by
  refine pre fun mk => ?_
  have hrun : ∀ (over : Ref) {t : Nat → Nat → T → Prog T Unit}, (∀ r c v, Blind (t r c v)) →
      Stops () (do let _ ← Prog.forEach g over (some ()) (fun r c v => do t r c v; Pure.pure none); Pure.pure ()) :=
    fun over t h => bind (forEach over () fun r c v => .bind (h r c v) fun _ => .pure _) rfl fun _ => pure _
  have h1 : ∀ (src : Ref) r c v, Blind (T := T) (Prog.eMulSetSource src mk r c v) := fun src r c v =>
    .bind (.element _ _ _) fun _ => .ite (.withObj _ _) (.pure _)
  have h2 : ∀ (src : Ref) r c v, Blind (T := T) (Prog.eMulTarget src out mk r c v) := fun src r c v =>
    .bind (.withObj _ _) fun _ => .ite (.bind (.element _ _ _) fun _ => .ite (.withObj _ _) (.pure _)) (.pure _)
  exact ite (hrun _ (h1 _)) (ite (hrun _ (h1 _)) (seq (.isSparse _) fun _ => ite (hrun _ (h2 _)) (hrun _ (h2 _))))

theorem add (g : Nat) (s m : Ref) (mask : Mask) (out : Ref) : Stops (T := T) () (Prog.add g s m mask out) := by
  refine seq (.ofObj _ _) fun _ => seq (.ofObj _ _) fun _ => guard fun _ => ?_
  refine seq (.ofObj _ _) fun _ => seq (.ofObj _ _) fun _ => guard fun _ => pre fun mk => ?_
  refine seq (.isSparse _) fun sp => ?_
  cases sp <;>
  exact bind (forEach _ () fun r c v => .bind (.withObj _ _) fun _ => .bind (.element _ _ _) fun _ =>
      .when (.withObj _ _) fun _ => .pure _) rfl fun _ => pure _

theorem eAddLoop (g : Nat) (src : Ref) (mask : Mask) (out : Ref) :
    Stops (T := T) (some ()) (Prog.eAddLoop g src mask out) :=
  forEach _ () fun _ _ _ => .ite (.bind (.element _ _ _) fun _ => .when (.withObj _ _) fun _ => .pure _) (.pure _)

theorem elementWiseAdd (g : Nat) (s m : Ref) (mask : Mask) (out : Ref) :
    Stops (T := T) () (Prog.elementWiseAdd g s m mask out) := by
  refine pre fun mk => ?_
  have h2 : Stops (T := T) () (if m ≠ out then do let _ ← Prog.eAddLoop g m mk out; Pure.pure () else Pure.pure ()) :=
    ite (bind (eAddLoop g m mk out) rfl fun _ => pure _) (pure _)
  refine ite (bind (eAddLoop g s mk out) rfl ?_) h2
  rintro (_ | _)
  · exact h2
  · exact pure _

theorem subtract (g : Nat) (s m : Ref) (mask : Mask) (out : Ref) : Stops (T := T) () (Prog.subtract g s m mask out) := by
  refine seq (.ofObj _ _) fun _ => seq (.ofObj _ _) fun _ => guard fun _ => ?_
  refine seq (.ofObj _ _) fun _ => seq (.ofObj _ _) fun _ => guard fun _ => pre fun mk => ?_
  exact bind (forEach _ () fun r c v => .bind (.element _ _ _) fun _ => .when (.withObj _ _) fun _ => .pure _) rfl
    fun _ => pure _

theorem apply (g : Nat) (s : Ref) (mask : Mask) (u : T → T) (out : Ref) :
    Stops (T := T) () (Prog.apply g s mask u out) := by
  refine pre fun mk => ite ?_ ?_
  · exact bind (forMap _ fun _ _ _ => .bind (.element _ _ _) fun _ => .ite (.pure _) (.pure _)) rfl fun _ => pure _
  · exact bind (forEach _ () fun r c v => .bind (.element _ _ _) fun _ => .when (.withObj _ _) fun _ => .pure _) rfl
      fun _ => pure _

theorem negative (g : Nat) (mask : Mask) (out : Ref) : Stops (T := T) () (Prog.negative g mask out) :=
  pre fun _ => bind (forMap _ fun _ _ _ => .bind (.element _ _ _) fun _ => .ite (.pure _) (.pure _)) rfl fun _ => pure _

theorem transpose (g : Nat) (s : Ref) (mask : Mask) (out : Ref) : Stops (T := T) () (Prog.transpose g s mask out) :=
  pre fun _ => bind (forEach _ () fun _ _ _ => .bind (.element _ _ _) fun _ => .when (.withObj _ _) fun _ => .pure _) rfl
    fun _ => pure _

/-- Every operator stops when it is told that the context is cancelled. -/
theorem steps (g : Nat) (op : OpCall T) (mask : Mask) (out : Ref) : Stops () (op.steps g mask out) := by
  cases op with
  | mxm s m => exact multiply s m mask out
  | mxv s m => exact multiply s m mask out
  | vxm s m => exact multiply m s mask out
  | add s m => exact add g s m mask out
  | subtract s m => exact subtract g s m mask out
  | eMulMatrix s m => exact seq (.ofObj _ _) fun _ => seq (.ofObj _ _) fun _ => guard fun _ => elementWiseMultiply g s m mask out
  | eMulVector s m => exact seq (.ofObj _ _) fun _ => seq (.ofObj _ _) fun _ => guard fun _ => elementWiseMultiply g s m mask out
  | eAddMatrix s m => exact seq (.ofObj _ _) fun _ => seq (.ofObj _ _) fun _ => guard fun _ => elementWiseAdd g s m mask out
  | eAddVector s m => exact seq (.ofObj _ _) fun _ => seq (.ofObj _ _) fun _ => guard fun _ => elementWiseAdd g s m mask out
  | apply s u => exact apply g s mask u out
  | negative s => exact negative g mask out
  | transpose s => exact transpose g s mask out

end Stops
end Prog
end GB
