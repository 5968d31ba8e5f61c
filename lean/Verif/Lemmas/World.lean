import Verif.Lemmas.Ext
import Verif.Model.Operators

/-!
# Reasoning about statements: loops over iterators
-/

namespace GB

set_option linter.unusedSectionVars false
set_option linter.unusedSimpArgs false

variable {T : Type} [GoNum T]

namespace M

@[simp] theorem pure_apply {α : Type} (a : α) (w : World T) : (pure a : M T α) w = .ok a w := rfl

theorem bind_apply {α β : Type} (x : M T α) (f : α → M T β) (w : World T) :
    (x >>= f) w = match x w with
      | .ok a w' => f a w'
      | .panic w' => .panic w'
      | .hang w' => .hang w' := rfl

theorem bind_ok {α β : Type} {x : M T α} {f : α → M T β} {w w' : World T} {a : α}
    (h : x w = .ok a w') : (x >>= f) w = f a w' := by rw [bind_apply, h]

theorem bind_panic {α β : Type} {x : M T α} {f : α → M T β} {w w' : World T}
    (h : x w = .panic w') : (x >>= f) w = .panic w' := by rw [bind_apply, h]

@[simp] theorem rowsOf_apply (p : Ref) (w : World T) : rowsOf p w = .ok (w.heap p).rows w := rfl
@[simp] theorem colsOf_apply (p : Ref) (w : World T) : colsOf p w = .ok (w.heap p).cols w := rfl
@[simp] theorem valuesOf_apply (p : Ref) (w : World T) : valuesOf p w = .ok (w.heap p).nvalues w := rfl
@[simp] theorem isSparse_apply (p : Ref) (w : World T) :
    isSparse p w = .ok (decide ((w.heap p).typeName ∈ w.reg)) w := rfl
@[simp] theorem iterOf_apply (p : Ref) (w : World T) : iterOf p w = .ok (w.heap p).iter w := rfl
@[simp] theorem fail_apply {α : Type} (w : World T) : (fail : M T α) w = .panic w := rfl
@[simp] theorem alloc_apply (m : Mat T) (w : World T) : alloc m w =
    .ok w.next { w with heap := Function.update w.heap w.next m, next := w.next + 1 } := rfl

theorem ofObj_ok {α : Type} {p : Ref} {f : Mat T → Out α} {w : World T} {a : α}
    (h : f (w.heap p) = .ok a) : ofObj p f w = .ok a w := by unfold ofObj; rw [h]

theorem withObj_ok {α : Type} {p : Ref} {f : Mat T → Out (α × Mat T)} {w : World T} {a : α} {m : Mat T}
    (h : f (w.heap p) = .ok (a, m)) :
    withObj p f w = .ok a { w with heap := Function.update w.heap p m } := by unfold withObj; rw [h]

/-- A call that leaves the object as it was leaves the world as it was. -/
theorem withObj_same {α : Type} {p : Ref} {f : Mat T → Out (α × Mat T)} {w : World T} {a : α}
    (h : f (w.heap p) = .ok (a, w.heap p)) : withObj p f w = .ok a w := by
  rw [withObj_ok h]; simp

section
variable [GoStore T]

theorem at_ok {p : Ref} {w : World T} {i j : Nat} (h : (w.heap p).Inv) (hi : i < (w.heap p).rows)
    (hj : j < (w.heap p).cols) : at' p i j w = .ok ((w.heap p).val i j) w :=
  withObj_same (h.at_ok hi hj)

theorem update_ok {p : Ref} {w : World T} {i j : Nat} (h : (w.heap p).WF) (hk : (w.heap p).kind ≠ .svec)
    (hi : i < (w.heap p).rows) (hj : j < (w.heap p).cols) (f : T → T) :
    ∃ m, update p i j f w = .ok () { w with heap := Function.update w.heap p m } ∧
      Mat.Wrote (w.heap p) m i j ((w.heap p).keep (f ((w.heap p).val i j))) := by
  obtain ⟨m, h1, h2⟩ := Mat.update_ok h hk hi hj f
  exact ⟨m, withObj_ok (by simp [h1]), h2⟩

theorem set_ok {p : Ref} {w : World T} {i j : Nat} (h : (w.heap p).WF) (hk : (w.heap p).kind ≠ .svec)
    (hi : i < (w.heap p).rows) (hj : j < (w.heap p).cols) (v : T) :
    ∃ m, set p i j v w = .ok () { w with heap := Function.update w.heap p m } ∧
      Mat.Wrote (w.heap p) m i j ((w.heap p).keep v) := by
  obtain ⟨m, h1, h2⟩ := Mat.set_ok h hk hi hj v
  exact ⟨m, withObj_ok (by simp [h1]), h2⟩

end

/-- One turn of the context: what a poll that is not cancelled leaves behind. -/
def tick : Option Nat → Option Nat
  | none => none
  | some 0 => some 0
  | some (k + 1) => some k

theorem poll_stop {w : World T} (h : w.cancel = some 0) : poll w = .ok true w := by
  unfold poll; rw [h]

theorem poll_go {w : World T} (h : w.cancel ≠ some 0) :
    poll w = .ok false { w with cancel := tick w.cancel } := by
  unfold poll
  rcases hc : w.cancel with _ | _ | k
  · obtain ⟨a, b, c, d, e⟩ := w; simp only at hc; subst hc; rfl
  · exact absurd hc h
  · rfl

/-- The rule for iterator loops whose cancelled branch returns. `J it rest w` is the loop invariant:
the iterator is in state `it` and `rest` has still to be delivered; `Q b w` is what holds when the
body returns `b`. -/
theorem loopIter_rule {β : Type} {p : Ref} {b0 : β} {body : Nat → Nat → T → M T (Option β)}
    {J : Mat.Iter → List (Nat × Nat × T) → World T → Prop} {Q : β → World T → Prop}
    (hnil : ∀ it w, J it [] w → it.hasNext = false)
    (htick : ∀ it rest w, J it rest w → J it rest { w with cancel := tick w.cancel })
    (hcons : ∀ it e rest w, J it (e :: rest) w → it.hasNext = true ∧
      ∃ it', (w.heap p).step it = .ok (it', e) ∧ ∃ x w', body e.1 e.2.1 e.2.2 w = .ok x w' ∧
        (x = none → J it' rest w') ∧ ∀ b, x = some b → Q b w') :
    ∀ (g : Nat) (it : Mat.Iter) (rest : List (Nat × Nat × T)) (w : World T), rest.length ≤ g → J it rest w →
      ∃ x w', loopIter p (some b0) body g it w = .ok x w' ∧
        ((x = none ∧ ∃ it', J it' [] w') ∨ (∃ b, x = some b ∧ Q b w') ∨
          (x = some b0 ∧ w'.cancel = some 0 ∧ ∃ it' e rest', J it' (e :: rest') w')) := by
  intro g
  induction g with
  | zero =>
    intro it rest w hg hJ
    obtain rfl : rest = [] := List.length_eq_zero_iff.1 (by omega)
    refine ⟨none, w, ?_, Or.inl ⟨rfl, it, hJ⟩⟩
    unfold loopIter; simp [hnil it w hJ]
  | succ g ih =>
    intro it rest w hg hJ
    cases rest with
    | nil =>
      refine ⟨none, w, ?_, Or.inl ⟨rfl, it, hJ⟩⟩
      unfold loopIter; simp [hnil it w hJ]
    | cons e rest =>
      obtain ⟨hn, -⟩ := hcons it e rest w hJ
      by_cases hc : w.cancel = some 0
      · refine ⟨some b0, w, ?_, Or.inr (Or.inr ⟨rfl, hc, it, e, rest, hJ⟩)⟩
        unfold loopIter
        simp only [hn, if_true]
        rw [bind_ok (poll_stop hc)]
        rfl
      · obtain ⟨-, it', h1, x, w', h2, h3, h4⟩ := hcons it e rest _ (htick it _ w hJ)
        have hstep : loopIter p (some b0) body (g + 1) it w =
            (body e.1 e.2.1 e.2.2 >>= fun x => match x with
              | some b => pure (some b)
              | none => loopIter p (some b0) body g it') { w with cancel := tick w.cancel } := by
          conv => lhs; unfold loopIter
          simp only [hn, if_true]
          rw [bind_ok (poll_go hc)]
          simp only [Bool.false_eq_true, if_false]
          rw [bind_ok (ofObj_ok h1)]
          rfl
        rw [hstep, bind_ok h2]
        cases x with
        | some b => exact ⟨some b, w', rfl, Or.inr (Or.inl ⟨b, rfl, h4 b rfl⟩)⟩
        | none => exact ih it' rest w' (by simp at hg; omega) (h3 rfl)

theorem forEach_eq {β : Type} (p : Ref) (oc : Option β) (body : Nat → Nat → T → M T (Option β))
    (w : World T) : forEach p oc body w = loopIter p oc body w.gas (w.heap p).iter w := rfl

/-- The rule for `Map` loops whose cancelled branch returns. -/
theorem loopMap_rule {p : Ref} {f : Nat → Nat → T → M T T} {oc : Bool}
    {J : Mat.Iter → List (Nat × Nat × T) → World T → Prop}
    (hnil : ∀ it w, J it [] w → it.hasNext = false)
    (htick : ∀ it rest w, J it rest w → J it rest { w with cancel := tick w.cancel })
    (hoc : oc = false → ∀ it rest w, J it rest w → w.cancel ≠ some 0)
    (hcons : ∀ it e rest w, J it (e :: rest) w → it.hasNext = true ∧
      ∃ it', (w.heap p).step it = .ok (it', e) ∧ ∃ v w', f e.1 e.2.1 e.2.2 w = .ok v w' ∧
        ∃ m', (w'.heap p).put it' v = .ok m' ∧
          J it' rest { w' with heap := Function.update w'.heap p m' }) :
    ∀ (g : Nat) (it : Mat.Iter) (rest : List (Nat × Nat × T)) (w : World T), rest.length ≤ g → J it rest w →
      ∃ x w', loopMap p oc f g it w = .ok x w' ∧
        ((x = false ∧ ∃ it', J it' [] w') ∨
          (x = true ∧ w'.cancel = some 0 ∧ ∃ it' e rest', J it' (e :: rest') w')) := by
  intro g
  induction g with
  | zero =>
    intro it rest w hg hJ
    obtain rfl : rest = [] := List.length_eq_zero_iff.1 (by omega)
    refine ⟨false, w, ?_, Or.inl ⟨rfl, it, hJ⟩⟩
    unfold loopMap; simp [hnil it w hJ]
  | succ g ih =>
    intro it rest w hg hJ
    cases rest with
    | nil =>
      refine ⟨false, w, ?_, Or.inl ⟨rfl, it, hJ⟩⟩
      unfold loopMap; simp [hnil it w hJ]
    | cons e rest =>
      obtain ⟨hn, -⟩ := hcons it e rest w hJ
      by_cases hc : w.cancel = some 0
      · cases oc with
        | false => exact absurd hc (hoc rfl it _ w hJ)
        | true =>
          refine ⟨true, w, ?_, Or.inr ⟨rfl, hc, it, e, rest, hJ⟩⟩
          unfold loopMap
          simp only [hn, if_true]
          rw [bind_ok (poll_stop hc)]
          rfl
      · obtain ⟨-, it', h1, v, w', h2, m', h3, h4⟩ := hcons it e rest _ (htick it _ w hJ)
        have hstep : loopMap p oc f (g + 1) it w =
            loopMap p oc f g it' { w' with heap := Function.update w'.heap p m' } := by
          conv => lhs; unfold loopMap
          simp only [hn, if_true]
          rw [bind_ok (poll_go hc)]
          simp only [Bool.false_eq_true, if_false]
          rw [bind_ok (ofObj_ok h1)]
          simp only
          rw [bind_ok h2, bind_ok (withObj_ok (a := ()) (m := m') (by simp [h3]))]
        rw [hstep]
        exact ih it' rest _ (by simp at hg; omega) h4

theorem forMap_eq (p : Ref) (oc : Bool) (f : Nat → Nat → T → M T T) (w : World T) :
    forMap p oc f w = loopMap p oc f w.gas (w.heap p).iter w := rfl

end M
end GB
