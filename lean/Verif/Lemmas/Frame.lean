import Verif.Props.Storage
import Verif.Lemmas.Meth

/-!
# Which objects an operator may change

`Frames n P x`: from every state in which the objects outside `P` are in reachable states, running `x`
— to the end, to a panic, or for as long as the gas lasts — changes no object outside `P`, and not the
registry.
-/

namespace GB

set_option linter.unusedSectionVars false

variable {T : Type} [GoNum T] [GoStore T]

/-- See the head of the file; `n` is a lower bound of the allocation pointer. -/
def Frames {α : Type} (n : Nat) (P : Ref → Prop) (x : M T α) : Prop :=
  ∀ w : World T, n ≤ w.next → (∀ q, ¬ P q → (w.heap q).Inv) →
    (∀ q, ¬ P q → (x w).world.heap q = w.heap q) ∧ n ≤ (x w).world.next ∧ (x w).world.reg = w.reg

namespace Frames
open M

variable {α β : Type} {n : Nat} {P : Ref → Prop}

theorem of_same {x : M T α} (h : ∀ w, (x w).world.heap = w.heap ∧ (x w).world.next = w.next ∧ (x w).world.reg = w.reg) :
    Frames n P x := by
  intro w hn _
  obtain ⟨h1, h2, h3⟩ := h w
  exact ⟨fun q _ => by rw [h1], by rw [h2]; exact hn, h3⟩

theorem pure (a : α) : Frames n P (Pure.pure a : M T α) := of_same (fun _ => ⟨rfl, rfl, rfl⟩)

theorem bind {x : M T α} {f : α → M T β} (hx : Frames n P x) (hf : ∀ a, Frames n P (f a)) :
    Frames n P (x >>= f) := by
  intro w hn hI
  obtain ⟨h1, h2, h3⟩ := hx w hn hI
  rw [bind_apply]
  cases hxw : x w with
  | ok a w' =>
    rw [hxw] at h1 h2 h3
    obtain ⟨k1, k2, k3⟩ := hf a w' h2 (fun q hq => by
      have := h1 q hq; simp only [Res.world] at this; rw [this]; exact hI q hq)
    exact ⟨fun q hq => (k1 q hq).trans (h1 q hq), k2, k3.trans h3⟩
  | panic w' => rw [hxw] at h1 h2 h3; exact ⟨h1, h2, h3⟩
  | hang w' => rw [hxw] at h1 h2 h3; exact ⟨h1, h2, h3⟩

theorem fail : Frames n P (M.fail : M T α) := of_same (fun _ => ⟨rfl, rfl, rfl⟩)
theorem hang : Frames n P (fun w => .hang w : M T α) := of_same (fun _ => ⟨rfl, rfl, rfl⟩)
theorem rowsOf (p : Ref) : Frames n P (M.rowsOf p : M T Nat) := of_same (fun _ => ⟨rfl, rfl, rfl⟩)
theorem colsOf (p : Ref) : Frames n P (M.colsOf p : M T Nat) := of_same (fun _ => ⟨rfl, rfl, rfl⟩)
theorem valuesOf (p : Ref) : Frames n P (M.valuesOf p : M T Nat) := of_same (fun _ => ⟨rfl, rfl, rfl⟩)
theorem isSparse (p : Ref) : Frames n P (M.isSparse p : M T Bool) := of_same (fun _ => ⟨rfl, rfl, rfl⟩)
theorem iterOf (p : Ref) : Frames n P (M.iterOf p : M T Mat.Iter) := of_same (fun _ => ⟨rfl, rfl, rfl⟩)
theorem lift (x : Out α) : Frames n P (M.lift x : M T α) := of_same (fun _ => by
  unfold M.lift; cases x <;> exact ⟨rfl, rfl, rfl⟩)
theorem ofObj (p : Ref) (f : Mat T → Out α) : Frames n P (M.ofObj p f) := of_same (fun w => by
  unfold M.ofObj; cases f (w.heap p) <;> exact ⟨rfl, rfl, rfl⟩)
theorem poll : Frames n P (M.poll : M T Bool) := of_same (fun w => by
  unfold M.poll; rcases w.cancel with _ | _ | _ <;> exact ⟨rfl, rfl, rfl⟩)

/-- Writing an object of `P`. -/
theorem withObj_in {p : Ref} (hp : P p) (f : Mat T → Out (α × Mat T)) : Frames n P (M.withObj p f) := by
  intro w hn _
  unfold M.withObj
  cases f (w.heap p) with
  | ok a => exact ⟨fun q hq => by
      have : q ≠ p := fun h => hq (h ▸ hp)
      simp [Res.world, this], hn, rfl⟩
  | panic => exact ⟨fun _ _ => rfl, hn, rfl⟩
  | hang => exact ⟨fun _ _ => rfl, hn, rfl⟩

/-- Calling a method that leaves objects in reachable states as they are. -/
theorem withObj_read {p : Ref} {f : Mat T → Out (α × Mat T)}
    (hf : ∀ m : Mat T, m.Inv → ∀ a m', f m = .ok (a, m') → m' = m) : Frames n P (M.withObj p f) := by
  by_cases hp : P p
  · exact withObj_in hp f
  intro w hn hI
  unfold M.withObj
  cases h : f (w.heap p) with
  | ok a =>
    obtain ⟨a, m⟩ := a
    obtain rfl := hf _ (hI p hp) a m h
    exact ⟨fun q _ => by simp [Res.world], hn, rfl⟩
  | panic => exact ⟨fun _ _ => rfl, hn, rfl⟩
  | hang => exact ⟨fun _ _ => rfl, hn, rfl⟩

theorem at' (p : Ref) (r c : Nat) : Frames n P (M.at' p r c : M T T) :=
  withObj_read (fun _ h _ _ e => (h.reads_preserve _ _).1 _ _ e)
theorem set {p : Ref} (hp : P p) (r c : Nat) (v : T) : Frames n P (M.set p r c v) := withObj_in hp _
theorem update {p : Ref} (hp : P p) (r c : Nat) (f : T → T) : Frames n P (M.update p r c f) := withObj_in hp _

/-- Allocating, when everything from `n` on is in `P`. -/
theorem alloc (hP : ∀ q, n ≤ q → P q) (m : Mat T) : Frames n P (M.alloc m) := by
  intro w hn _
  refine ⟨fun q hq => ?_, Nat.le_succ_of_le hn, rfl⟩
  have : q ≠ w.next := fun h => hq (hP q (h ▸ hn))
  simp [M.alloc, Res.world, this]

theorem copy (hP : ∀ q, n ≤ q → P q) (p : Ref) : Frames n P (M.copy p : M T Ref) :=
  bind (ofObj p _) (fun m => alloc hP m)

theorem loopIter {p : Ref} {oc : Option β} {body : Nat → Nat → T → M T (Option β)}
    (hb : ∀ r c v, Frames n P (body r c v)) : ∀ (g : Nat) (it : Mat.Iter), Frames n P (M.loopIter p oc body g it) := by
  intro g
  induction g with
  | zero => intro it; unfold M.loopIter; by_cases h : it.hasNext <;> simp only [h]; exacts [hang, pure _]
  | succ g ih =>
    intro it
    unfold M.loopIter
    split
    · refine bind poll (fun stop => ?_)
      split
      · cases oc with
        | some b => exact pure _
        | none => exact ih it
      · refine bind (ofObj _ _) (fun ⟨it', r, c, v⟩ => bind (hb r c v) (fun x => ?_))
        cases x with
        | some b => exact pure _
        | none => exact ih it'
    · exact pure _

theorem gas {α : Type} {f : Nat → M T α} (h : ∀ g, Frames n P (f g)) : Frames n P (fun w => f w.gas w) :=
  fun w => h w.gas w

theorem forEach {p : Ref} {oc : Option β} {body : Nat → Nat → T → M T (Option β)}
    (hb : ∀ r c v, Frames n P (body r c v)) : Frames n P (M.forEach p oc body) :=
  bind (iterOf p) (fun it => gas (fun g => loopIter hb g it))

theorem loopMap {p : Ref} (hp : P p) {oc : Bool} {f : Nat → Nat → T → M T T}
    (hb : ∀ r c v, Frames n P (f r c v)) : ∀ (g : Nat) (it : Mat.Iter), Frames n P (M.loopMap p oc f g it) := by
  intro g
  induction g with
  | zero => intro it; unfold M.loopMap; by_cases h : it.hasNext <;> simp only [h]; exacts [hang, pure _]
  | succ g ih =>
    intro it
    unfold M.loopMap
    split
    · refine bind poll (fun stop => ?_)
      split
      · split
        · exact pure _
        · exact ih it
      · exact bind (ofObj _ _) (fun ⟨it', r, c, v⟩ => bind (hb r c v) (fun x =>
          bind (withObj_in hp _) (fun _ => ih it')))
    · exact pure _

theorem forMap {p : Ref} (hp : P p) {oc : Bool} {f : Nat → Nat → T → M T T}
    (hb : ∀ r c v, Frames n P (f r c v)) : Frames n P (M.forMap p oc f) :=
  bind (iterOf p) (fun it => gas (fun g => loopMap hp hb g it))

theorem forN {body : Nat → M T (Option β)} (hb : ∀ i, Frames n P (body i)) :
    ∀ k i0, Frames n P (M.forN k i0 body) := by
  intro k
  induction k with
  | zero => intro i0; exact pure _
  | succ k ih =>
    intro i0
    refine bind (hb i0) (fun x => ?_)
    cases x with
    | some b => exact pure _
    | none => exact ih _

theorem ite {c : Prop} [Decidable c] {x y : M T α} (hx : Frames n P x) (hy : Frames n P y) :
    Frames n P (if c then x else y) := by split <;> assumption

/-- Under the background context. -/
theorem background {x : M T α} (hx : Frames n P x) : Frames n P (Meth.background x) := by
  intro w hn hI
  obtain ⟨h1, h2, h3⟩ := hx { w with cancel := none } hn hI
  unfold Meth.background
  cases h : x { w with cancel := none } <;> rw [h] at h1 h2 h3 <;> exact ⟨h1, h2, h3⟩

/-! ## Masks -/

theorem orEmpty (mask : Mask) (p : Ref) : Frames n P (mask.orEmpty p : M T Mask) := by
  cases mask with
  | nil => exact bind (rowsOf p) (fun _ => bind (colsOf p) (fun _ => pure _))
  | empty r c => exact pure _
  | ref p => exact pure _
  | given r c el => exact pure _

theorem maskRows (mask : Mask) : Frames n P (mask.rows : M T Nat) := by
  cases mask with
  | nil => exact fail
  | empty r c => exact pure _
  | ref p => exact rowsOf p
  | given r c el => exact pure _

theorem maskCols (mask : Mask) : Frames n P (mask.cols : M T Nat) := by
  cases mask with
  | nil => exact fail
  | empty r c => exact pure _
  | ref p => exact colsOf p
  | given r c el => exact pure _

theorem element (mask : Mask) (r c : Nat) : Frames n P (mask.element r c : M T Bool) := by
  cases mask with
  | nil => exact fail
  | empty r c => exact pure _
  | ref p => exact withObj_read (fun _ h _ _ e => (h.reads_preserve _ _).2 _ _ e)
  | given _ _ el =>
    cases h : el r c with
    | none => simp only [Mask.element, h]; exact fail
    | some b => simp only [Mask.element, h]; exact pure _

/-- One step of the frame calculus: take the head of the program apart. -/
macro "frame_step" : tactic => `(tactic| first
  | assumption
  | exact Frames.pure _ | exact Frames.fail | exact Frames.rowsOf _ | exact Frames.colsOf _
  | exact Frames.valuesOf _ | exact Frames.isSparse _ | exact Frames.lift _ | exact Frames.ofObj _ _
  | exact Frames.poll | exact Frames.at' _ _ _ | exact Frames.element _ _ _ | exact Frames.orEmpty _ _
  | exact Frames.set ‹_› _ _ _ | exact Frames.update ‹_› _ _ _ | exact Frames.withObj_in ‹_› _
  | (with_reducible refine Frames.bind ?_ ?_)
  | (with_reducible refine Frames.forEach ?_)
  | (with_reducible refine Frames.forMap ‹_› ?_)
  | (with_reducible refine Frames.forN ?_ _ _)
  | (with_reducible refine Frames.ite ?_ ?_)
  | with_reducible intro _
  | dsimp only
  | split)

theorem check (mask : Mask) (p : Ref) : Frames n P (mask.check p : M T Unit) := by
  unfold Mask.check
  repeat' (first | exact maskRows _ | exact maskCols _ | frame_step)

/-! ## Operators -/

theorem dot (rows column : Vec T) : ∀ k l sum, Frames n P (Ops.dot rows column k l sum) := by
  intro k
  induction k with
  | zero => intro l sum; exact pure _
  | succ k ih =>
    intro l sum
    unfold Ops.dot
    repeat' (first | exact ih _ _ | frame_step)

theorem multiply {s m out : Ref} {mask : Mask} (ho : P out) : Frames n P (Ops.multiply s m mask out : M T Unit) := by
  unfold Ops.multiply
  repeat' (first | exact check _ _ | exact dot _ _ _ _ _ | frame_step)

theorem add {s m out : Ref} {mask : Mask} (ho : P out) : Frames n P (Ops.add s m mask out : M T Unit) := by
  unfold Ops.add
  repeat' (first | exact check _ _ | frame_step)

theorem subtract {s m out : Ref} {mask : Mask} (ho : P out) :
    Frames n P (Ops.subtract s m mask out : M T Unit) := by
  unfold Ops.subtract
  repeat' (first | exact check _ _ | frame_step)

theorem elementWiseMultiply {s m out : Ref} {mask : Mask} (ho : P out) :
    Frames n P (Ops.elementWiseMultiply s m mask out : M T Unit) := by
  have src : ∀ (p : Ref) (mask : Mask), P p → ∀ r c v, Frames n P (Ops.eMulSetSource p mask r c v : M T Unit) := by
    intro p mask hp r c v
    unfold Ops.eMulSetSource
    repeat' frame_step
  have tgt : ∀ (p : Ref) (mask : Mask) r c v, Frames n P (Ops.eMulTarget p out mask r c v : M T Unit) := by
    intro p mask r c v
    unfold Ops.eMulTarget
    repeat' frame_step
  unfold Ops.elementWiseMultiply
  by_cases h1 : m = out
  · subst h1
    simp only [if_true]
    repeat' (first | exact check _ _ | exact src _ _ ho _ _ _ | exact tgt _ _ _ _ _ | frame_step)
  · by_cases h2 : s = out
    · subst h2
      simp only [h1, if_false]
      repeat' (first | exact check _ _ | exact src _ _ ho _ _ _ | exact tgt _ _ _ _ _ | frame_step)
    · simp only [h1, h2, if_false]
      repeat' (first | exact check _ _ | exact tgt _ _ _ _ _ | frame_step)

theorem eAddLoop {src out : Ref} {mask : Mask} (ho : P out) :
    Frames n P (Ops.eAddLoop src mask out : M T (Option Unit)) := by
  unfold Ops.eAddLoop
  repeat' frame_step

theorem elementWiseAdd {s m out : Ref} {mask : Mask} (ho : P out) :
    Frames n P (Ops.elementWiseAdd s m mask out : M T Unit) := by
  unfold Ops.elementWiseAdd
  repeat' (first | exact check _ _ | exact eAddLoop ho | frame_step)

theorem apply {s out : Ref} {mask : Mask} {u : T → T} (ho : P out) :
    Frames n P (Ops.apply s mask u out : M T Unit) := by
  unfold Ops.apply
  by_cases h : s = out
  · subst h
    repeat' (first | exact check _ _ | frame_step)
  · simp only [h, if_false]
    repeat' (first | exact check _ _ | frame_step)

theorem negative {s out : Ref} {mask : Mask} (ho : P out) :
    Frames n P (Ops.negative s mask out : M T Unit) := by
  unfold Ops.negative
  repeat' (first | exact check _ _ | frame_step)

theorem transpose {s out : Ref} {mask : Mask} (ho : P out) :
    Frames n P (Ops.transpose s mask out : M T Unit) := by
  unfold Ops.transpose
  repeat' (first | exact check _ _ | frame_step)

theorem equal {s m : Ref} : Frames n P (Ops.equal s m : M T Bool) := by
  unfold Ops.equal
  repeat' frame_step

end Frames
end GB
