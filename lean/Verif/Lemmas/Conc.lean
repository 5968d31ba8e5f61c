import Verif.Lemmas.Steps
import Verif.Lemmas.Frame
import Verif.Lemmas.Rel
import Mathlib.Algebra.BigOperators.Group.Finset.Basic
import Mathlib.Algebra.BigOperators.Fin

/-!
# Goroutines that share only what none of them writes
-/

namespace GB

set_option linter.unusedSectionVars false

variable {T : Type} [GoNum T]

namespace Prog

/-- A method that leaves objects in reachable states as they are. -/
def Reads {β : Type} (f : Mat T → Out (β × Mat T)) : Prop := ∀ m : Mat T, m.Inv → ∀ b m', f m = .ok (b, m') → m' = m

/-- The program calls methods of `out`, and of the objects in `R` those that leave them as they are. -/
def Within (out : Ref) (R : Ref → Prop) {α : Type} : Prog T α → Prop
  | ret _ => True
  | fail => True
  | hang => True
  | poll k => ∀ b, Within out R (k b)
  | names k => ∀ b, Within out R (k b)
  | call p f k => (p = out ∨ (R p ∧ Reads f)) ∧ ∀ b, Within out R (k b)

variable {out : Ref} {R : Ref → Prop}

namespace Within

theorem pure {α : Type} (a : α) : Within (T := T) out R (Pure.pure a : Prog T α) := trivial
theorem fail {α : Type} : Within (T := T) out R (Prog.fail : Prog T α) := trivial

theorem bind {α β : Type} {x : Prog T α} {f : α → Prog T β} (hx : Within out R x) (hf : ∀ a, Within out R (f a)) :
    Within out R (x >>= f) := by
  rw [bind_def]
  induction x with
  | ret a => exact hf a
  | fail => trivial
  | hang => trivial
  | poll k ih => exact fun b => ih b (hx b)
  | names k ih => exact fun b => ih b (hx b)
  | call p g k ih => exact ⟨hx.1, fun b => ih b (hx.2 b)⟩

theorem ite {α : Type} {c : Prop} [Decidable c] {x y : Prog T α} (hx : Within out R x) (hy : Within out R y) :
    Within out R (if c then x else y) := by split; exacts [hx, hy]

theorem poll : Within (T := T) out R (Prog.poll ret) := fun _ => trivial

theorem lift {α : Type} (x : Out α) : Within (T := T) out R (Prog.lift x) := by cases x <;> trivial

/-- The objects the program may look at. -/
abbrev In (out : Ref) (R : Ref → Prop) (p : Ref) : Prop := p = out ∨ R p

theorem ofObj {α : Type} {p : Ref} (hp : In out R p) (f : Mat T → Out α) : Within out R (Prog.ofObj p f) := by
  refine ⟨hp.imp id fun h => ⟨h, ?_⟩, fun _ => trivial⟩
  intro m _ b m' e
  dsimp only at e
  cases hf : f m with
  | ok a => rw [hf] at e; cases e; rfl
  | panic => rw [hf] at e; cases e
  | hang => rw [hf] at e; cases e

theorem rowsOf {p : Ref} (hp : In out R p) : Within (T := T) out R (Prog.rowsOf p) := ofObj hp _
theorem colsOf {p : Ref} (hp : In out R p) : Within (T := T) out R (Prog.colsOf p) := ofObj hp _
theorem iterOf {p : Ref} (hp : In out R p) : Within (T := T) out R (Prog.iterOf p) := ofObj hp _

theorem isSparse {p : Ref} (hp : In out R p) : Within (T := T) out R (Prog.isSparse p) :=
  bind (ofObj hp _) fun _ _ => trivial

theorem withOut {α : Type} (f : Mat T → Out (α × Mat T)) : Within out R (Prog.withObj out f) :=
  ⟨.inl rfl, fun _ => trivial⟩

theorem loopIter {β : Type} {p : Ref} (hp : In out R p) (oc : Option β) {body : Nat → Nat → T → Prog T (Option β)}
    (hb : ∀ r c v, Within out R (body r c v)) (k : Nat) (it : Mat.Iter) :
    Within out R (Prog.loopIter p oc body k it) := by
  induction k generalizing it with
  | zero => unfold Prog.loopIter; exact ite trivial (pure _)
  | succ k ih =>
    unfold Prog.loopIter
    refine ite (bind poll fun stop => ite ?_ (bind (ofObj hp _) ?_)) (pure _)
    · cases oc with
      | some b => exact pure _
      | none => exact ih it
    · rintro ⟨it', r, c, v⟩
      refine bind (hb r c v) ?_
      rintro (_ | b)
      · exact ih it'
      · exact pure _

theorem forEach {β : Type} {g : Nat} {p : Ref} (hp : In out R p) (oc : Option β)
    {body : Nat → Nat → T → Prog T (Option β)} (hb : ∀ r c v, Within out R (body r c v)) :
    Within out R (Prog.forEach g p oc body) := bind (iterOf hp) fun it => loopIter hp oc hb g it

theorem loopMap (oc : Bool) {f : Nat → Nat → T → Prog T T} (hb : ∀ r c v, Within out R (f r c v)) (k : Nat)
    (it : Mat.Iter) : Within out R (Prog.loopMap out oc f k it) := by
  induction k generalizing it with
  | zero => unfold Prog.loopMap; exact ite trivial (pure _)
  | succ k ih =>
    unfold Prog.loopMap
    refine ite (bind poll fun stop => ite (ite (pure _) (ih it)) (bind (ofObj (.inl rfl) _) ?_)) (pure _)
    rintro ⟨it', r, c, v⟩
    exact bind (hb r c v) fun v' => bind (withOut _) fun _ => ih it'

theorem forMap {g : Nat} (oc : Bool) {f : Nat → Nat → T → Prog T T} (hb : ∀ r c v, Within out R (f r c v)) :
    Within out R (Prog.forMap g out oc f) := bind (iterOf (.inl rfl)) fun it => loopMap oc hb g it

theorem forN {β : Type} {body : Nat → Prog T (Option β)} (hb : ∀ i, Within out R (body i)) (n i0 : Nat) :
    Within out R (Prog.forN n i0 body) := by
  induction n generalizing i0 with
  | zero => exact pure _
  | succ n ih =>
    refine bind (hb i0) ?_
    rintro (_ | b)
    · exact ih (i0 + 1)
    · exact pure _

theorem when {α : Type} {c : Prop} [Decidable c] {x : Prog T Unit} {k : Unit → Prog T α} (hx : Within out R x)
    (h : ∀ u, Within out R (k u)) : Within out R (if c then x >>= k else k ()) := ite (bind hx h) (h ())

theorem guard {α : Type} {c : Prop} [Decidable c] {k : Unit → Prog T α} (h : ∀ u, Within out R (k u)) :
    Within (T := T) out R (if c then Prog.fail >>= k else k ()) := when fail h

theorem dot (rows column : Vec T) (n l : Nat) (s : T) : Within out R (Prog.dot rows column n l s) := by
  induction n generalizing l s with
  | zero => exact pure _
  | succ n ih => exact bind poll fun _ => ite (pure _) <| bind (lift _) fun _ => bind (lift _) fun _ => ih _ _

theorem set (r c : Nat) (v : T) : Within out R (Prog.set out r c v) := withOut _
theorem update (r c : Nat) (f : T → T) : Within out R (Prog.update out r c f) := withOut _

theorem pre {mask : Mask} (hk : ∀ p, mask = .ref p → In out R p) {f : Mask → Prog T Unit}
    (hf : ∀ mk, (∀ p, mk = .ref p → In out R p) → Within out R (f mk)) :
    Within out R (do let mk ← Prog.orEmpty mask out; Prog.check mk out; f mk) := by
  have ho : In out R out := .inl rfl
  have key : ∀ mk : Mask, (∀ p, mk = .ref p → In out R p) →
      Within (T := T) out R (do Prog.check mk out; f mk) := by
    intro mk h
    have h1 : Within (T := T) out R (Prog.maskRows mk) := by
      cases mk with
      | nil => exact fail
      | empty _ _ => exact pure _
      | ref p => exact rowsOf (h p rfl)
      | given _ _ _ => exact pure _
    have h2 : Within (T := T) out R (Prog.maskCols mk) := by
      cases mk with
      | nil => exact fail
      | empty _ _ => exact pure _
      | ref p => exact colsOf (h p rfl)
      | given _ _ _ => exact pure _
    exact bind (bind h1 fun _ => bind (rowsOf ho) fun _ => guard fun _ => bind h2 fun _ => bind (colsOf ho) fun _ =>
      ite fail (pure _)) fun _ => hf mk h
  cases mask with
  | nil => exact (bind (rowsOf ho) fun r => bind (colsOf ho) fun c => key (.empty r c) (by intro p e; cases e) :
      Within out R (Prog.rowsOf out >>= fun r => Prog.colsOf out >>= fun c =>
        Prog.check (.empty r c) out >>= fun _ => f (.empty r c)))
  | empty r c => exact key _ hk
  | given r c el => exact key _ hk
  | ref p => exact key _ hk

variable [GoStore T]

theorem at' {p : Ref} (hp : In out R p) (r c : Nat) : Within (T := T) out R (Prog.at' p r c) :=
  ⟨hp.imp id fun h => ⟨h, fun _ h _ _ e => (h.reads_preserve _ _).1 _ _ e⟩, fun _ => trivial⟩

theorem element {mask : Mask} (hk : ∀ p, mask = .ref p → In out R p) (r c : Nat) :
    Within (T := T) out R (Prog.element mask r c) := by
  cases mask with
  | nil => exact fail
  | empty _ _ => exact pure _
  | given _ _ el =>
    cases h : el r c with
    | none => simp only [Prog.element, h]; exact fail
    | some b => simp only [Prog.element, h]; exact pure _
  | ref p =>
    exact ⟨(hk p rfl).imp id fun h => ⟨h, fun _ h _ _ e => (h.reads_preserve _ _).2 _ _ e⟩, fun _ => trivial⟩

theorem multiply {s m : Ref} {mask : Mask} (hs : In out R s) (hm : In out R m) (hk : ∀ p, mask = .ref p → In out R p) :
    Within (T := T) out R (Prog.multiply s m mask out) := by
  refine bind (rowsOf hm) fun _ => bind (colsOf hs) fun _ => guard fun _ => pre hk fun mk hk => ?_
  refine bind (rowsOf hs) fun _ => bind (forN (fun r => ?_) _ _) fun _ => pure _
  refine bind (ofObj hs _) fun _ => bind (colsOf hm) fun _ => forN (fun c => ?_) _ _
  refine bind (ofObj hm _) fun _ => bind (dot _ _ _ _ _) ?_
  rintro (_ | sum)
  · exact pure _
  · exact bind (element hk _ _) fun _ => when (set _ _ _) fun _ => pure _

theorem eMulSetSource {mask : Mask} (hk : ∀ p, mask = .ref p → In out R p) (r c : Nat) (v : T) :
    Within out R (Prog.eMulSetSource out mask r c v) := bind (element hk _ _) fun _ => ite (update _ _ _) (pure _)

theorem eMulTarget {src : Ref} (hs : In out R src) {mask : Mask} (hk : ∀ p, mask = .ref p → In out R p) (r c : Nat)
    (v : T) : Within out R (Prog.eMulTarget src out mask r c v) :=
  bind (at' hs _ _) fun _ => ite (bind (element hk _ _) fun _ => ite (set _ _ _) (pure _)) (pure _)

theorem elementWiseMultiply {g : Nat} {s m : Ref} {mask : Mask} (hs : In out R s) (hm : In out R m)
    (hk : ∀ p, mask = .ref p → In out R p) : Within (T := T) out R (Prog.elementWiseMultiply g s m mask out) := by
  refine pre hk fun mk hk => ?_
  have hrun : ∀ {over : Ref}, In out R over → ∀ {t : Nat → Nat → T → Prog T Unit}, (∀ r c v, Within out R (t r c v)) →
      Within out R (do let _ ← Prog.forEach g over (some ()) (fun r c v => do t r c v; Pure.pure none); Pure.pure ()) :=
    fun ho t h => bind (forEach ho _ fun r c v => bind (h r c v) fun _ => pure _) fun _ => pure _
  dsimp only
  split
  · next h => subst h; exact hrun hs fun _ _ _ => eMulSetSource hk _ _ _
  split
  · next h => subst h; exact hrun hm fun _ _ _ => eMulSetSource hk _ _ _
  exact bind (isSparse hs) fun _ => ite (hrun hs fun _ _ _ => eMulTarget hm hk _ _ _)
    (hrun hm fun _ _ _ => eMulTarget hs hk _ _ _)

theorem add {g : Nat} {s m : Ref} {mask : Mask} (hs : In out R s) (hm : In out R m)
    (hk : ∀ p, mask = .ref p → In out R p) : Within (T := T) out R (Prog.add g s m mask out) := by
  refine bind (colsOf hs) fun _ => bind (colsOf hm) fun _ => guard fun _ => ?_
  refine bind (rowsOf hs) fun _ => bind (rowsOf hm) fun _ => guard fun _ => pre hk fun mk hk => ?_
  refine bind (isSparse hs) fun sp => ?_
  cases sp
  · exact bind (forEach hm _ fun r c v => bind (at' hs _ _) fun _ => bind (element hk _ _) fun _ =>
      when (set _ _ _) fun _ => pure _) fun _ => pure _
  · exact bind (forEach hs _ fun r c v => bind (at' hm _ _) fun _ => bind (element hk _ _) fun _ =>
      when (set _ _ _) fun _ => pure _) fun _ => pure _

theorem eAddLoop {g : Nat} {src : Ref} {mask : Mask} (hs : In out R src) (hk : ∀ p, mask = .ref p → In out R p) :
    Within (T := T) out R (Prog.eAddLoop g src mask out) :=
  forEach hs _ fun _ _ _ => ite (bind (element hk _ _) fun _ => when (set _ _ _) fun _ => pure _) (pure _)

theorem elementWiseAdd {g : Nat} {s m : Ref} {mask : Mask} (hs : In out R s) (hm : In out R m)
    (hk : ∀ p, mask = .ref p → In out R p) : Within (T := T) out R (Prog.elementWiseAdd g s m mask out) := by
  refine pre hk fun mk hk => ?_
  have h2 : Within (T := T) out R (if m ≠ out then do let _ ← Prog.eAddLoop g m mk out; Pure.pure () else Pure.pure ()) :=
    ite (bind (eAddLoop hm hk) fun _ => pure _) (pure _)
  refine ite (bind (eAddLoop hs hk) ?_) h2
  rintro (_ | _)
  · exact h2
  · exact pure _

theorem subtract {g : Nat} {s m : Ref} {mask : Mask} (hs : In out R s) (hm : In out R m)
    (hk : ∀ p, mask = .ref p → In out R p) : Within (T := T) out R (Prog.subtract g s m mask out) := by
  refine bind (colsOf hs) fun _ => bind (colsOf hm) fun _ => guard fun _ => ?_
  refine bind (rowsOf hs) fun _ => bind (rowsOf hm) fun _ => guard fun _ => pre hk fun mk hk => ?_
  exact bind (forEach hs _ fun r c v => bind (element hk _ _) fun _ => when (update _ _ _) fun _ => pure _) fun _ => pure _

theorem apply {g : Nat} {s : Ref} {mask : Mask} {u : T → T} (hs : In out R s) (hk : ∀ p, mask = .ref p → In out R p) :
    Within (T := T) out R (Prog.apply g s mask u out) := by
  refine pre hk fun mk hk => ?_
  split
  · next h =>
    subst h
    exact bind (forMap _ fun _ _ _ => bind (element hk _ _) fun _ => ite (pure _) (pure _)) fun _ => pure _
  · exact bind (forEach hs _ fun r c v => bind (element hk _ _) fun _ => when (set _ _ _) fun _ => pure _) fun _ => pure _

theorem negative {g : Nat} {mask : Mask} (hk : ∀ p, mask = .ref p → In out R p) :
    Within (T := T) out R (Prog.negative g mask out) :=
  pre hk fun _ hk => bind (forMap _ fun _ _ _ => bind (element hk _ _) fun _ => ite (pure _) (pure _)) fun _ => pure _

theorem transpose {g : Nat} {s : Ref} {mask : Mask} (hs : In out R s) (hk : ∀ p, mask = .ref p → In out R p) :
    Within (T := T) out R (Prog.transpose g s mask out) :=
  pre hk fun _ hk => bind (forEach hs _ fun _ _ _ => bind (element hk _ _) fun _ => when (set _ _ _) fun _ => pure _)
    fun _ => pure _

/-- What an operator looks at and writes. -/
theorem steps (g : Nat) (op : OpCall T) (mask : Mask) (out : Ref) :
    Within out (fun q => q ∈ op.operands ∨ mask = .ref q) (op.steps g mask out) := by
  have hk : ∀ p, mask = .ref p → In out (fun q => q ∈ op.operands ∨ mask = .ref q) p := fun p h => .inr (.inr h)
  have hS : ∀ p, p ∈ op.operands → In out (fun q => q ∈ op.operands ∨ mask = .ref q) p := fun p h => .inr (.inl h)
  cases op with
  | mxm s m => exact multiply (hS s (by simp [OpCall.operands])) (hS m (by simp [OpCall.operands])) hk
  | mxv s m => exact multiply (hS s (by simp [OpCall.operands])) (hS m (by simp [OpCall.operands])) hk
  | vxm s m => exact multiply (hS m (by simp [OpCall.operands])) (hS s (by simp [OpCall.operands])) hk
  | add s m => exact add (hS s (by simp [OpCall.operands])) (hS m (by simp [OpCall.operands])) hk
  | subtract s m => exact subtract (hS s (by simp [OpCall.operands])) (hS m (by simp [OpCall.operands])) hk
  | eMulMatrix s m =>
    have hs := hS s (by simp [OpCall.operands])
    have hm := hS m (by simp [OpCall.operands])
    exact bind (rowsOf hm) fun _ => bind (colsOf hs) fun _ => guard fun _ => elementWiseMultiply hs hm hk
  | eMulVector s m =>
    have hs := hS s (by simp [OpCall.operands])
    have hm := hS m (by simp [OpCall.operands])
    exact bind (rowsOf hm) fun _ => bind (rowsOf hs) fun _ => guard fun _ => elementWiseMultiply hs hm hk
  | eAddMatrix s m =>
    have hs := hS s (by simp [OpCall.operands])
    have hm := hS m (by simp [OpCall.operands])
    exact bind (rowsOf hm) fun _ => bind (colsOf hs) fun _ => guard fun _ => elementWiseAdd hs hm hk
  | eAddVector s m =>
    have hs := hS s (by simp [OpCall.operands])
    have hm := hS m (by simp [OpCall.operands])
    exact bind (rowsOf hm) fun _ => bind (rowsOf hs) fun _ => guard fun _ => elementWiseAdd hs hm hk
  | apply s u => exact apply (hS s (by simp [OpCall.operands])) hk
  | negative s => exact negative hk
  | transpose s => exact transpose (hS s (by simp [OpCall.operands])) hk

end Within
end Prog

/-! ## Executions -/

/-- How many steps the program takes when nobody interferes. -/
def Prog.cost {α : Type} : Prog T α → World T → Nat
  | .ret _, _ => 0
  | .fail, _ => 0
  | .hang, _ => 0
  | .poll k, w =>
    match M.poll w with
    | .ok b w' => cost (k b) w' + 1
    | _ => 1
  | .names k, w => cost (k w.reg) w + 1
  | .call p f k, w =>
    match M.withObj p f w with
    | .ok b w' => cost (k b) w' + 2
    | _ => 1

/-- What the goroutine would still see if all the others had never run. -/
def Thread.alone (w : World T) (out : Ref) (h : Ref → Mat T) (t : Thread T) : World T :=
  let b := Function.update w.heap out (h out)
  { w with
    heap := match t.store with
      | none => b
      | some (p, m) => Function.update b p m
    cancel := t.cancel }

/-- The steps the goroutine has left. -/
def Thread.left (w : World T) (t : Thread T) : Nat := t.prog.cost w + (if t.store.isSome then 1 else 0)

/-- The invariant of executions of goroutines that share only what none of them writes; `w` is the state they started
in (but for the contexts) and `res` what each of them does alone. -/
structure Conf.Apart {n : Nat} (w : World T) (out : Fin n → Ref) (R : Fin n → Ref → Prop) (res : Fin n → Res T Unit)
    (N k : Nat) (c : Conf T n) : Prop where
  quiet : ∀ q, (∀ i, q ≠ out i) → c.heap q = w.heap q
  within : ∀ i, (c.threads i).prog.Within (out i) (R i)
  pend : ∀ i p m, (c.threads i).store = some (p, m) → p = out i ∨ (m = w.heap p ∧ ∀ j, p ≠ out j)
  same : ∀ i, (c.threads i).prog.run ((c.threads i).alone w (out i) c.heap) = res i
  count : k + ∑ i, (c.threads i).left ((c.threads i).alone w (out i) c.heap) = N

section apart
variable {n : Nat} {w : World T} {out : Fin n → Ref} {R : Fin n → Ref → Prop} {res : Fin n → Res T Unit} {N k : Nat}

/-- One goroutine, seen from the world in which it is alone. -/
theorem Thread.step_alone {o : Ref} {Rd : Ref → Prop} {t t' : Thread T} {h h' : Ref → Mat T} (hw : t.prog.Within o Rd)
    (hI : ∀ q, q ≠ o → Rd q → (w.heap q).Inv) (hq : ∀ q, q ≠ o → Rd q → h q = w.heap q)
    (hp : ∀ p m, t.store = some (p, m) → p = o ∨ (p ≠ o ∧ m = w.heap p))
    (hs : t.step w.reg h = some (h', t')) :
    t'.prog.Within o Rd ∧ t'.prog.run (t'.alone w o h') = t.prog.run (t.alone w o h) ∧
      t.left (t.alone w o h) = t'.left (t'.alone w o h') + 1 ∧
      (h' = h ∨ ∃ p m, t.store = some (p, m) ∧ h' = Function.update h p m) ∧
      (∀ p m, t'.store = some (p, m) → p = o ∨ (Rd p ∧ m = w.heap p)) := by
  obtain ⟨x, st, cn⟩ := t
  cases st with
  | some pm =>
    obtain ⟨p, m⟩ := pm
    simp only [Thread.step, Option.some.injEq, Prod.mk.injEq] at hs
    obtain ⟨rfl, rfl⟩ := hs
    have e : (⟨x, none, cn⟩ : Thread T).alone w o (Function.update h p m)
        = (⟨x, some (p, m), cn⟩ : Thread T).alone w o h := by
      simp only [Thread.alone]
      congr 1
      rcases hp p m rfl with rfl | ⟨hne, rfl⟩
      · simp
      · rw [Function.update_of_ne hne.symm]
        funext q
        by_cases hq : q = p
        · subst hq; simp [hne]
        · simp [hq]
    refine ⟨hw, by rw [e], ?_, .inr ⟨p, m, rfl, rfl⟩, by simp⟩
    rw [e]
    simp [Thread.left]
  | none =>
    have hal : ∀ (y : Prog T Unit) (c : Option Nat), (⟨y, none, c⟩ : Thread T).alone w o h
        = { w with heap := Function.update w.heap o (h o), cancel := c } := fun _ _ => rfl
    cases x with
    | ret a => simp [Thread.step] at hs
    | fail => simp [Thread.step] at hs
    | hang => simp [Thread.step] at hs
    | poll f =>
      rcases cn with _ | _ | c <;> simp only [Thread.step, Option.some.injEq, Prod.mk.injEq] at hs <;>
        obtain ⟨rfl, rfl⟩ := hs <;> refine ⟨hw _, rfl, ?_, .inl rfl, by simp⟩ <;> rfl
    | names f =>
      simp only [Thread.step, Option.some.injEq, Prod.mk.injEq] at hs
      obtain ⟨rfl, rfl⟩ := hs
      exact ⟨hw _, rfl, rfl, .inl rfl, by simp⟩
    | call p f k =>
      obtain ⟨hpR, hk⟩ := hw
      have hrd : Function.update w.heap o (h o) p = h p := by
        by_cases hpo : p = o
        · subst hpo; simp
        · rw [Function.update_of_ne hpo]
          rcases hpR with hpR | hpR
          · exact (hpo hpR).elim
          · exact (hq p hpo hpR.1).symm
      have hrun : (Prog.call p f k).run ((⟨.call p f k, none, cn⟩ : Thread T).alone w o h)
          = (M.withObj p f >>= fun b => (k b).run) ((⟨.call p f k, none, cn⟩ : Thread T).alone w o h) := rfl
      have hwo : M.withObj p f ((⟨.call p f k, none, cn⟩ : Thread T).alone w o h)
          = (match f (h p) with
            | .ok (a, m) => .ok a { w with heap := Function.update (Function.update w.heap o (h o)) p m, cancel := cn }
            | .panic => .panic { w with heap := Function.update w.heap o (h o), cancel := cn }
            | .hang => .hang { w with heap := Function.update w.heap o (h o), cancel := cn }) := by
        rw [hal]
        unfold M.withObj
        simp only [hrd]
        cases f (h p) <;> rfl
      simp only [Thread.step] at hs
      cases hf : f (h p) with
      | ok bm =>
        obtain ⟨b, m⟩ := bm
        rw [hf] at hs hwo
        simp only [Option.some.injEq, Prod.mk.injEq] at hs hwo
        obtain ⟨rfl, rfl⟩ := hs
        refine ⟨hk b, ?_, ?_, .inl rfl, ?_⟩
        · simp only
          rw [hrun, M.bind_apply, hwo]
          rfl
        · simp only [Thread.left, Prog.cost]
          rw [hwo]
          rfl
        · intro p' m' e
          simp only [Option.some.injEq, Prod.mk.injEq] at e
          obtain ⟨rfl, rfl⟩ := e
          by_cases hpo : p = o
          · exact .inl hpo
          · rcases hpR with hpR | ⟨hpR, hrds⟩
            · exact (hpo hpR).elim
            · refine .inr ⟨hpR, ?_⟩
              rw [hq p hpo hpR] at hf
              exact hrds _ (hI p hpo hpR) b m hf
      | panic =>
        rw [hf] at hs hwo
        simp only [Option.some.injEq, Prod.mk.injEq] at hs hwo
        obtain ⟨rfl, rfl⟩ := hs
        refine ⟨trivial, ?_, ?_, .inl rfl, by simp⟩
        · simp only
          rw [hrun, M.bind_apply, hwo]
          rfl
        · simp only [Thread.left, Prog.cost]
          rw [hwo]
          rfl
      | hang =>
        rw [hf] at hs hwo
        simp only [Option.some.injEq, Prod.mk.injEq] at hs hwo
        obtain ⟨rfl, rfl⟩ := hs
        refine ⟨trivial, ?_, ?_, .inl rfl, by simp⟩
        · simp only
          rw [hrun, M.bind_apply, hwo]
          rfl
        · simp only [Thread.left, Prog.cost]
          rw [hwo]
          rfl

theorem Conf.Apart.step (hd : ∀ i j, i ≠ j → out i ≠ out j) (hR : ∀ i j, i ≠ j → ¬ R i (out j))
    (hI : ∀ q, (∀ i, q ≠ out i) → (w.heap q).Inv) {c c' : Conf T n} (ha : c.Apart w out R res N k)
    (hs : c.Step w.reg c') : c'.Apart w out R res N (k + 1) := by
  obtain ⟨j, h', t', hs, rfl⟩ := hs
  have hno : ∀ q, q ≠ out j → R j q → ∀ i, q ≠ out i := by
    intro q hq hr i e
    subst e
    by_cases hij : j = i
    · subst hij; exact hq rfl
    · exact hR j i hij hr
  obtain ⟨h1, h2, h3, h4, h5⟩ := Thread.step_alone (w := w) (ha.within j) (fun q hq hr => hI q (hno q hq hr))
    (fun q hq hr => ha.quiet q (hno q hq hr))
    (fun p m e => (ha.pend j p m e).imp id fun h => ⟨h.2 j, h.1⟩) hs
  -- the heap changes at the output of `j` only
  have hheap : ∀ q, q ≠ out j → h' q = c.heap q := by
    intro q hq
    rcases h4 with rfl | ⟨p, m, e, rfl⟩
    · rfl
    · by_cases hqp : q = p
      · subst hqp
        rcases ha.pend j q m e with h | ⟨rfl, hn⟩
        · exact (hq h).elim
        · rw [Function.update_self]; exact (ha.quiet q hn).symm
      · rw [Function.update_of_ne hqp]
  have hal : ∀ i, i ≠ j → (c.threads i).alone w (out i) h' = (c.threads i).alone w (out i) c.heap := by
    intro i hij
    simp only [Thread.alone]
    rw [hheap (out i) (hd i j hij)]
  refine ⟨fun q hq => (hheap q (hq j)).trans (ha.quiet q hq), fun i => ?_, fun i p m e => ?_, fun i => ?_, ?_⟩
  · by_cases hij : i = j
    · subst hij; simpa using h1
    · simpa [hij] using ha.within i
  · by_cases hij : i = j
    · subst hij
      simp only [Function.update_self] at e
      rcases h5 p m e with h | ⟨hr, h⟩
      · exact .inl h
      · by_cases hpo : p = out i
        · exact .inl hpo
        · exact .inr ⟨h, hno p hpo hr⟩
    · simp only [ne_eq, hij, not_false_eq_true, Function.update_of_ne] at e
      exact ha.pend i p m e
  · by_cases hij : i = j
    · subst hij
      simp only [Function.update_self]
      exact h2.trans (ha.same i)
    · simp only [ne_eq, hij, not_false_eq_true, Function.update_of_ne]
      rw [hal i hij]
      exact ha.same i
  · rw [← ha.count, Nat.add_assoc]
    congr 1
    rw [← Finset.add_sum_erase _ _ (Finset.mem_univ j), ← Finset.add_sum_erase _ _ (Finset.mem_univ j)]
    simp only [Function.update_self]
    rw [h3]
    have : ∑ i ∈ Finset.univ.erase j, (Function.update c.threads j t' i).left
          ((Function.update c.threads j t' i).alone w (out i) h')
        = ∑ i ∈ Finset.univ.erase j, (c.threads i).left ((c.threads i).alone w (out i) c.heap) := by
      refine Finset.sum_congr rfl fun i hi => ?_
      have hij := Finset.ne_of_mem_erase hi
      simp only [ne_eq, hij, not_false_eq_true, Function.update_of_ne]
      rw [hal i hij]
    rw [this]
    omega

theorem Conf.Apart.exec (hd : ∀ i j, i ≠ j → out i ≠ out j) (hR : ∀ i j, i ≠ j → ¬ R i (out j))
    (hI : ∀ q, (∀ i, q ≠ out i) → (w.heap q).Inv) {c c' : Conf T n} (ha : c.Apart w out R res N 0)
    (he : Conf.Exec w.reg k c c') : c'.Apart w out R res N k := by
  induction he with
  | nil c => exact ha
  | snoc _ hs ih => exact (ih ha).step hd hR hI hs

end apart

/-! ## Whole executions -/

section whole
variable {n : Nat} {reg : List String}

theorem Thread.step_none {t : Thread T} {h : Ref → Mat T} : t.step reg h = none ↔ t.Done := by
  obtain ⟨x, st, cn⟩ := t
  cases st with
  | some pm => simp [Thread.step, Thread.Done]
  | none =>
    cases x with
    | ret a => simp [Thread.step, Thread.Done]
    | fail => simp [Thread.step, Thread.Done]
    | hang => simp [Thread.step, Thread.Done]
    | poll f => rcases cn with _ | _ | c <;> simp [Thread.step, Thread.Done]
    | names f => simp [Thread.step, Thread.Done]
    | call p f k =>
      simp only [Thread.step, Thread.Done, true_and, reduceCtorEq, or_self, iff_false]
      cases f (h p) <;> simp

theorem Conf.stuck_iff {c : Conf T n} : (¬ ∃ c', c.Step reg c') ↔ ∀ i, (c.threads i).Done := by
  constructor
  · intro hn i
    rw [← Thread.step_none (reg := reg) (h := c.heap)]
    cases hs : (c.threads i).step reg c.heap with
    | none => rfl
    | some x => exact (hn ⟨_, i, x.1, x.2, hs, rfl⟩).elim
  · rintro hd ⟨c', i, h, t, hs, -⟩
    rw [(Thread.step_none).2 (hd i)] at hs
    cases hs

theorem Conf.Exec.append {k l : Nat} {c c' c'' : Conf T n} (h : Exec reg k c c') (h' : Exec reg l c' c'') :
    Exec reg (k + l) c c'' := by
  induction h' with
  | nil c => exact h
  | snoc _ hs ih => exact .snoc (ih h) hs

theorem Conf.Exec.one {c c' : Conf T n} (h : c.Step reg c') : Exec reg 1 c c' := .snoc (.nil c) h

/-- Goroutine `i` takes a step, if it has not ended. -/
def Conf.next (reg : List String) (c : Conf T n) (i : Fin n) : Conf T n :=
  match (c.threads i).step reg c.heap with
  | none => c
  | some (h, t) => ⟨h, Function.update c.threads i t⟩

theorem Conf.exec_next (l : List (Fin n)) (c : Conf T n) : ∃ k, Exec reg k c (l.foldl (Conf.next reg) c) := by
  induction l generalizing c with
  | nil => exact ⟨0, .nil c⟩
  | cons i l ih =>
    obtain ⟨k, hk⟩ := ih (c.next reg i)
    rw [List.foldl_cons]
    cases hs : (c.threads i).step reg c.heap with
    | none =>
      have e : c.next reg i = c := by unfold Conf.next; rw [hs]
      rw [e] at hk ⊢
      exact ⟨k, hk⟩
    | some x =>
      have e : c.Step reg (c.next reg i) := ⟨i, x.1, x.2, hs, by unfold Conf.next; rw [hs]⟩
      exact ⟨_, (Exec.one e).append hk⟩

theorem Thread.left_zero {w : World T} {t : Thread T} : t.left w = 0 ↔ t.Done := by
  obtain ⟨x, st, cn⟩ := t
  cases st with
  | some pm => simp [Thread.left, Thread.Done]
  | none =>
    cases x with
    | ret a => simp [Thread.left, Thread.Done, Prog.cost]
    | fail => simp [Thread.left, Thread.Done, Prog.cost]
    | hang => simp [Thread.left, Thread.Done, Prog.cost]
    | poll f =>
      simp only [Thread.left, Thread.Done, Prog.cost]
      cases M.poll w <;> simp
    | names f => simp [Thread.left, Thread.Done, Prog.cost]
    | call p f k =>
      simp only [Thread.left, Thread.Done, Prog.cost]
      cases M.withObj p f w <;> simp

/-- How a goroutine ended. -/
def Thread.EndsAs (t : Thread T) : Res T Unit → Prop
  | .ok _ _ => t.prog = .ret ()
  | .panic _ => t.prog = .fail
  | .hang _ => t.prog = .hang

/-- A goroutine that runs to its end while the others wait. -/
theorem Conf.Exec.finish (w : World T) (i : Fin n) (x : Prog T Unit) (c : Conf T n) (cn : Option Nat)
    (hc : c.threads i = ⟨x, none, cn⟩) :
    ∃ k c', Exec w.reg k c c' ∧ (c'.threads i).Done ∧
      (c'.threads i).EndsAs (x.run { w with heap := c.heap, cancel := cn }) ∧
      (∀ j, j ≠ i → c'.threads j = c.threads j) ∧
      c'.heap = (x.run { w with heap := c.heap, cancel := cn }).world.heap := by
  -- one step, then the rest
  have go : ∀ {c c1 : Conf T n} {y : Prog T Unit} {r : Res T Unit}, (∃ l, Exec w.reg l c c1) →
      (∀ j, j ≠ i → c1.threads j = c.threads j) →
      (∃ k c', Exec w.reg k c1 c' ∧ (c'.threads i).Done ∧ (c'.threads i).EndsAs r ∧
        (∀ j, j ≠ i → c'.threads j = c1.threads j) ∧ c'.heap = r.world.heap) →
      ∃ k c', Exec w.reg k c c' ∧ (c'.threads i).Done ∧ (c'.threads i).EndsAs r ∧
        (∀ j, j ≠ i → c'.threads j = c.threads j) ∧ c'.heap = r.world.heap := by
    rintro c c1 y r ⟨l, hl⟩ ho ⟨k, c', he, hd, hE, hj, hh⟩
    exact ⟨l + k, c', hl.append he, hd, hE, fun j hji => (hj j hji).trans (ho j hji), hh⟩
  induction x generalizing c cn with
  | ret a => exact ⟨0, c, .nil c, by rw [hc]; exact ⟨rfl, .inl rfl⟩, by rw [hc]; rfl, fun _ _ => rfl, rfl⟩
  | fail => exact ⟨0, c, .nil c, by rw [hc]; exact ⟨rfl, .inr (.inl rfl)⟩, by rw [hc]; rfl, fun _ _ => rfl, rfl⟩
  | hang => exact ⟨0, c, .nil c, by rw [hc]; exact ⟨rfl, .inr (.inr rfl)⟩, by rw [hc]; rfl, fun _ _ => rfl, rfl⟩
  | poll f ih =>
    have step : ∀ b cn', (⟨.poll f, none, cn⟩ : Thread T).step w.reg c.heap = some (c.heap, ⟨f b, none, cn'⟩) →
        (Prog.poll f).run { w with heap := c.heap, cancel := cn } = (f b).run { w with heap := c.heap, cancel := cn' } →
        _ := fun b cn' hs hr =>
      go (c := c) (c1 := ⟨c.heap, Function.update c.threads i ⟨f b, none, cn'⟩⟩) (y := f b)
        (r := (Prog.poll f).run { w with heap := c.heap, cancel := cn })
        ⟨1, .one ⟨i, _, _, by rw [hc]; exact hs, rfl⟩⟩ (fun j hj => by simp [hj])
        (by rw [hr]; exact ih b _ cn' (by simp))
    rcases cn with _ | _ | m
    · exact step false none rfl rfl
    · exact step true (some 0) rfl rfl
    · exact step false (some m) rfl rfl
  | names f ih =>
    exact go (c := c) (c1 := ⟨c.heap, Function.update c.threads i ⟨f w.reg, none, cn⟩⟩) (y := f w.reg)
      ⟨1, .one ⟨i, _, _, by rw [hc]; rfl, rfl⟩⟩ (fun j hj => by simp [hj]) (ih w.reg _ cn (by simp))
  | call p f k ih =>
    have hrun : (Prog.call p f k).run { w with heap := c.heap, cancel := cn }
        = (M.withObj p f >>= fun b => (k b).run) { w with heap := c.heap, cancel := cn } := rfl
    rw [hrun, M.bind_apply]
    cases hf : f (c.heap p) with
    | ok bm =>
      obtain ⟨b, m⟩ := bm
      have hwo : M.withObj p f { w with heap := c.heap, cancel := cn }
          = .ok b { w with heap := Function.update c.heap p m, cancel := cn } := by
        unfold M.withObj; simp only [hf]
      rw [hwo]
      have e1 : c.Step w.reg ⟨c.heap, Function.update c.threads i ⟨k b, some (p, m), cn⟩⟩ :=
        ⟨i, _, _, by rw [hc]; simp only [Thread.step, hf], rfl⟩
      have e2 : Conf.Step w.reg ⟨c.heap, Function.update c.threads i ⟨k b, some (p, m), cn⟩⟩
          ⟨Function.update c.heap p m, Function.update c.threads i ⟨k b, none, cn⟩⟩ :=
        ⟨i, Function.update c.heap p m, ⟨k b, none, cn⟩, by simp only [Function.update_self, Thread.step],
          by simp only [Function.update_idem]⟩
      exact go (c := c) (c1 := ⟨Function.update c.heap p m, Function.update c.threads i ⟨k b, none, cn⟩⟩) (y := k b)
        ⟨2, .snoc (.one e1) e2⟩ (fun j hj => by simp [hj]) (ih b _ cn (by simp))
    | panic =>
      have hwo : M.withObj p f { w with heap := c.heap, cancel := cn }
          = .panic { w with heap := c.heap, cancel := cn } := by
        unfold M.withObj; simp only [hf]
      rw [hwo]
      refine ⟨1, _, .one ⟨i, _, _, by rw [hc]; simp only [Thread.step, hf]; rfl, rfl⟩, ?_, ?_, ?_, ?_⟩
      · simp [Thread.Done]
      · simp [Thread.EndsAs]
      · intro j hj; simp [hj]
      · rfl
    | hang =>
      have hwo : M.withObj p f { w with heap := c.heap, cancel := cn }
          = .hang { w with heap := c.heap, cancel := cn } := by
        unfold M.withObj; simp only [hf]
      rw [hwo]
      refine ⟨1, _, .one ⟨i, _, _, by rw [hc]; simp only [Thread.step, hf]; rfl, rfl⟩, ?_, ?_, ?_, ?_⟩
      · simp [Thread.Done]
      · simp [Thread.EndsAs]
      · intro j hj; simp [hj]
      · rfl

theorem Conf.Apart.init {w : World T} {gas : Nat} {calls : Fin n → Call T} [GoStore T] :
    (Conf.start gas w.heap calls).Apart w (fun i => (calls i).out)
      (fun i q => q ∈ (calls i).op.operands ∨ (calls i).mask = .ref q)
      (fun i => ((calls i).op.steps gas (calls i).mask (calls i).out).run { w with cancel := (calls i).cancel })
      (∑ i, ((calls i).op.steps gas (calls i).mask (calls i).out).cost { w with cancel := (calls i).cancel }) 0 := by
  have hal : ∀ i, ((Conf.start gas w.heap calls).threads i).alone w (calls i).out w.heap
      = { w with cancel := (calls i).cancel } := by
    intro i
    simp only [Thread.alone, Conf.start, Function.update_eq_self]
  refine ⟨fun _ _ => rfl, fun i => Prog.Within.steps _ _ _ _, fun i p m e => by simp [Conf.start] at e,
    fun i => ?_, ?_⟩
  · rw [show (Conf.start gas w.heap calls).heap = w.heap from rfl, hal i]
    rfl
  · rw [Nat.zero_add]
    refine Finset.sum_congr rfl fun i _ => ?_
    rw [show (Conf.start gas w.heap calls).heap = w.heap from rfl, hal i]
    simp [Thread.left, Conf.start]

end whole

end GB
