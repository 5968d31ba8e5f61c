import Verif.Model.Reduce
import Verif.Lemmas.Ops

/-!
# Invariants of the reduction goroutines, and the producer's loop
-/

namespace GB

set_option linter.unusedSectionVars false
set_option linter.unusedSimpArgs false

namespace Reduce
variable {T : Type} [GoNum T]

/-- The values the reducer has folded after the given turns. -/
def fold (m : MonoID T) (turns : List (Option T)) : T := (turns.filterMap id).foldl m.op m.unit

theorem fold_none (m : MonoID T) (pre : List (Option T)) : fold m (pre ++ [none]) = fold m pre := by
  simp [fold]

theorem fold_some (m : MonoID T) (pre : List (Option T)) (v : T) :
    fold m (pre ++ [some v]) = m.op (fold m pre) v := by
  simp [fold, List.filterMap_append, List.foldl_append]

/-- The producer will not look at the context any more. -/
def Late (script : List (Option T)) : Prod T → Prop
  | .idle => script = []
  | .loop rest => rest = []
  | .sending _ rest => rest = []
  | .signal => True
  | .finished => True
  | .stopped => False
  | .crashed => False

/-- The states reachable when the mask is accepted and the context is not cancelled as long as the
producer looks at it. -/
def Inv (m : MonoID T) (script : List (Option T)) (s : Sys T) : Prop :=
  (s.cancelled = false ∨ Late script s.prod) ∧
  ((s.main = .start ∧ s.prod = .idle ∧ s.red = .run m.unit ∧ s.doneClosed = false ∧ s.sliceClosed = false) ∨
   (s.main = .waiting ∧ s.doneClosed = false ∧ s.sliceClosed = false ∧
     ((∃ pre rest, script = pre ++ rest ∧ s.prod = .loop rest ∧ s.red = .run (fold m pre)) ∨
      (∃ pre v rest, script = pre ++ some v :: rest ∧ s.prod = .sending v rest ∧ s.red = .run (fold m pre)) ∨
      (s.prod = .signal ∧ s.red = .run (fold m script)) ∨
      (s.prod = .finished ∧ s.red = .deliver (fold m script)))) ∨
   (s.prod = .finished ∧ (s.red = .closing ∨ s.red = .finished) ∧
     (s.main = .got (fold m script) ∨ s.main = .closing (fold m script) ∨ s.main = .returned (fold m script))))

theorem Inv.init (m : MonoID T) (script : List (Option T)) : Inv m script (Sys.init m false) :=
  ⟨Or.inl rfl, Or.inl ⟨rfl, rfl, rfl, rfl, rfl⟩⟩

theorem Inv.init_empty (m : MonoID T) (c : Bool) : Inv m [] (Sys.init m c) :=
  ⟨Or.inr rfl, Or.inl ⟨rfl, rfl, rfl, rfl, rfl⟩⟩

theorem Inv.cancel {m : MonoID T} {script : List (Option T)} {s : Sys T} (h : Inv m script s)
    (hl : Late script s.prod) : Inv m script { s with cancelled := true } := ⟨Or.inr hl, h.2⟩

theorem Inv.step {m : MonoID T} {script : List (Option T)} {s t : Sys T} (h : Inv m script s)
    (hst : Step m script true s t) : Inv m script t := by
  obtain ⟨hc, h⟩ := h
  cases hst with
  | accept h1 h2 =>
    rcases h with ⟨-, hp, hr, hd, hs⟩ | ⟨h, -⟩ | ⟨-, -, h⟩
    · refine ⟨hc.imp id (fun hl => by rw [hp] at hl; exact hl), Or.inr (Or.inl ?_)⟩
      exact ⟨rfl, hd, hs, Or.inl ⟨[], script, rfl, rfl, hr⟩⟩
    · rw [h1] at h; cases h
    · rw [h1] at h; simp at h
  | reject h1 h2 => cases h2
  | pollStop h1 h2 => rw [h1, h2] at hc; simp [Late] at hc
  | @masked rest h1 h2 =>
    refine ⟨Or.inl h2, Or.inr (Or.inl ?_)⟩
    rcases h with ⟨-, h, -⟩ | ⟨hm, hd, hs, h⟩ | ⟨h, -⟩
    · rw [h1] at h; cases h
    · rcases h with ⟨pre, r, e, hp, hr⟩ | ⟨_, _, _, _, h, -⟩ | ⟨h, -⟩ | ⟨h, -⟩
      · rw [h1] at hp
        injection hp with hp
        subst hp
        refine ⟨hm, hd, hs, Or.inl ⟨pre ++ [none], rest, by simp [e], rfl, ?_⟩⟩
        rw [fold_none]; exact hr
      all_goals (rw [h1] at h; cases h)
    · rw [h1] at h; cases h
  | @next v rest h1 h2 =>
    refine ⟨Or.inl h2, Or.inr (Or.inl ?_)⟩
    rcases h with ⟨-, h, -⟩ | ⟨hm, hd, hs, h⟩ | ⟨h, -⟩
    · rw [h1] at h; cases h
    · rcases h with ⟨pre, r, e, hp, hr⟩ | ⟨_, _, _, _, h, -⟩ | ⟨h, -⟩ | ⟨h, -⟩
      · rw [h1] at hp
        injection hp with hp
        subst hp
        exact ⟨hm, hd, hs, Or.inr (Or.inl ⟨pre, v, rest, e, rfl, hr⟩)⟩
      all_goals (rw [h1] at h; cases h)
    · rw [h1] at h; cases h
  | loopEnd h1 =>
    refine ⟨Or.inr trivial, Or.inr (Or.inl ?_)⟩
    rcases h with ⟨-, h, -⟩ | ⟨hm, hd, hs, h⟩ | ⟨h, -⟩
    · rw [h1] at h; cases h
    · rcases h with ⟨pre, r, e, hp, hr⟩ | ⟨_, _, _, _, h, -⟩ | ⟨h, -⟩ | ⟨h, -⟩
      · rw [h1] at hp
        injection hp with hp
        subst hp
        rw [List.append_nil] at e
        subst e
        exact ⟨hm, hd, hs, Or.inr (Or.inr (Or.inl ⟨rfl, hr⟩))⟩
      all_goals (rw [h1] at h; cases h)
    · rw [h1] at h; cases h
  | @send v rest acc h1 h2 h3 =>
    refine ⟨hc.imp id (fun hl => by rw [h1] at hl; exact hl), Or.inr (Or.inl ?_)⟩
    rcases h with ⟨-, h, -⟩ | ⟨hm, hd, hs, h⟩ | ⟨h, -⟩
    · rw [h1] at h; cases h
    · rcases h with ⟨_, _, _, h, -⟩ | ⟨pre, v', r, e, hp, hr⟩ | ⟨h, -⟩ | ⟨h, -⟩
      · rw [h1] at h; cases h
      · rw [h1] at hp
        injection hp with hp hp'
        subst hp hp'
        rw [h2] at hr
        injection hr with hr
        subst hr
        refine ⟨hm, hd, hs, Or.inl ⟨pre ++ [some v], rest, by simp [e], rfl, ?_⟩⟩
        rw [fold_some]
      all_goals (rw [h1] at h; cases h)
    · rw [h1] at h; cases h
  | sendClosed h1 h2 =>
    exfalso
    rcases h with ⟨-, h, -⟩ | ⟨hm, hd, hs, h⟩ | ⟨h, -⟩
    · rw [h1] at h; cases h
    · rw [h2] at hs; cases hs
    · rw [h1] at h; cases h
  | @signal acc h1 h2 h3 =>
    refine ⟨Or.inr trivial, Or.inr (Or.inl ?_)⟩
    rcases h with ⟨-, h, -⟩ | ⟨hm, hd, hs, h⟩ | ⟨h, -⟩
    · rw [h1] at h; cases h
    · rcases h with ⟨_, _, _, h, -⟩ | ⟨_, _, _, _, h, -⟩ | ⟨hp, hr⟩ | ⟨h, -⟩
      · rw [h1] at h; cases h
      · rw [h1] at h; cases h
      · rw [h2] at hr
        injection hr with hr
        subst hr
        exact ⟨hm, hd, hs, Or.inr (Or.inr (Or.inr ⟨rfl, rfl⟩))⟩
      · rw [h1] at h; cases h
    · rw [h1] at h; cases h
  | signalClosed h1 h2 =>
    exfalso
    rcases h with ⟨-, h, -⟩ | ⟨hm, hd, hs, h⟩ | ⟨h, -⟩
    · rw [h1] at h; cases h
    · rw [h2] at hd; cases hd
    · rw [h1] at h; cases h
  | recvClosed h1 h2 =>
    exfalso
    rcases h with ⟨-, -, -, -, h⟩ | ⟨hm, hd, hs, h⟩ | ⟨-, h, -⟩
    · rw [h2] at h; cases h
    · rw [h2] at hs; cases hs
    · rw [h1] at h; simp at h
  | doneClosed h1 h2 =>
    exfalso
    rcases h with ⟨-, -, -, h, -⟩ | ⟨hm, hd, hs, h⟩ | ⟨-, h, -⟩
    · rw [h2] at h; cases h
    · rw [h2] at hd; cases hd
    · rw [h1] at h; simp at h
  | @deliver acc h1 h2 =>
    refine ⟨hc, Or.inr (Or.inr ?_)⟩
    rcases h with ⟨h, -⟩ | ⟨hm, hd, hs, h⟩ | ⟨-, h, -⟩
    · rw [h2] at h; cases h
    · rcases h with ⟨_, _, _, -, h⟩ | ⟨_, _, _, _, -, h⟩ | ⟨-, h⟩ | ⟨hp, hr⟩
      · rw [h1] at h; cases h
      · rw [h1] at h; cases h
      · rw [h1] at h; cases h
      · rw [h1] at hr
        injection hr with hr
        subst hr
        exact ⟨hp, Or.inl rfl, Or.inl rfl⟩
    · rw [h1] at h; simp at h
  | closeOut h1 =>
    refine ⟨hc, Or.inr (Or.inr ?_)⟩
    rcases h with ⟨-, -, h, -⟩ | ⟨hm, hd, hs, h⟩ | ⟨hp, -, h⟩
    · rw [h1] at h; cases h
    · rw [h1] at h; simp at h
    · exact ⟨hp, Or.inr rfl, h⟩
  | closeDone h1 =>
    refine ⟨hc, Or.inr (Or.inr ?_)⟩
    rcases h with ⟨h, -⟩ | ⟨h, -⟩ | ⟨hp, hr, h⟩
    · rw [h1] at h; cases h
    · rw [h1] at h; cases h
    · rw [h1] at h
      simp at h
      subst h
      exact ⟨hp, hr, Or.inr (Or.inl rfl)⟩
  | closeSlice h1 =>
    refine ⟨hc, Or.inr (Or.inr ?_)⟩
    rcases h with ⟨h, -⟩ | ⟨h, -⟩ | ⟨hp, hr, h⟩
    · rw [h1] at h; cases h
    · rw [h1] at h; cases h
    · rw [h1] at h
      simp at h
      subst h
      exact ⟨hp, hr, Or.inr (Or.inr rfl)⟩
  | panicDone h1 =>
    exfalso
    rcases h with ⟨h, -⟩ | ⟨h, -⟩ | ⟨-, -, h⟩
    · rw [h1] at h; cases h
    · rw [h1] at h; cases h
    · rw [h1] at h; simp at h
  | panicSlice h1 =>
    exfalso
    rcases h with ⟨h, -⟩ | ⟨h, -⟩ | ⟨-, -, h⟩
    · rw [h1] at h; cases h
    · rw [h1] at h; cases h
    · rw [h1] at h; simp at h

theorem Inv.steps {m : MonoID T} {script : List (Option T)} {s t : Sys T} (h : Inv m script s)
    (hst : Steps m script true s t) : Inv m script t := by
  induction hst with
  | refl => exact h
  | tail _ h2 ih => exact ih.step h2

/-- How much work is left. -/
def work (script : List (Option T)) (s : Sys T) : Nat :=
  (match s.prod with
    | .idle => 2 * script.length + 3
    | .loop rest => 2 * rest.length + 2
    | .sending _ rest => 2 * rest.length + 3
    | .signal => 1
    | _ => 0) +
  (match s.red with
    | .run _ => 3
    | .deliver _ => 2
    | .closing => 1
    | .finished => 0) +
  (match s.main with
    | .start => 4
    | .waiting => 3
    | .got _ => 2
    | .closing _ => 1
    | _ => 0)

theorem Inv.work_lt {m : MonoID T} {script : List (Option T)} {s t : Sys T} (h : Inv m script s)
    (hst : Step m script true s t) : work script t < work script s := by
  obtain ⟨hc, h⟩ := h
  cases hst with
  | accept h1 h2 =>
    rcases h with ⟨-, hp, hr, hd, hs⟩ | ⟨h, -⟩ | ⟨-, -, h⟩
    · simp [work, h1, hp, hr]
    · rw [h1] at h; cases h
    · rw [h1] at h; simp at h
  | reject h1 h2 => cases h2
  | pollStop h1 h2 => rw [h1, h2] at hc; simp [Late] at hc
  | masked h1 h2 => simp only [work, h1, List.length_cons]; omega
  | next h1 h2 => simp only [work, h1, List.length_cons]; omega
  | loopEnd h1 => simp only [work, h1, List.length_nil]; omega
  | send h1 h2 h3 => simp only [work, h1, h2]; omega
  | sendClosed h1 h2 => simp only [work, h1]; omega
  | signal h1 h2 h3 => simp only [work, h1, h2]; omega
  | signalClosed h1 h2 => simp only [work, h1]; omega
  | recvClosed h1 h2 =>
    exfalso
    rcases h with ⟨-, -, -, -, h⟩ | ⟨hm, hd, hs, h⟩ | ⟨-, h, -⟩
    · rw [h2] at h; cases h
    · rw [h2] at hs; cases hs
    · rw [h1] at h; simp at h
  | doneClosed h1 h2 => simp only [work, h1]; omega
  | deliver h1 h2 => simp only [work, h1, h2]; omega
  | closeOut h1 => simp only [work, h1]; omega
  | closeDone h1 => simp only [work, h1]; omega
  | closeSlice h1 => simp only [work, h1]; omega
  | panicDone h1 =>
    exfalso
    rcases h with ⟨h, -⟩ | ⟨h, -⟩ | ⟨-, -, h⟩
    · rw [h1] at h; cases h
    · rw [h1] at h; cases h
    · rw [h1] at h; simp at h
  | panicSlice h1 =>
    exfalso
    rcases h with ⟨h, -⟩ | ⟨h, -⟩ | ⟨-, -, h⟩
    · rw [h1] at h; cases h
    · rw [h1] at h; cases h
    · rw [h1] at h; simp at h

/-- Everything has ended. -/
def Ended (v : T) (s : Sys T) : Prop := s.main = .returned v ∧ s.prod = .finished ∧ s.red = .finished

theorem Inv.progress {m : MonoID T} {script : List (Option T)} {s : Sys T} (h : Inv m script s) :
    (∃ t, Step m script true s t) ∨ Ended (fold m script) s := by
  obtain ⟨hc, h⟩ := h
  rcases h with ⟨hm, -⟩ | ⟨hm, hd, hs, h⟩ | ⟨hp, hr, hm⟩
  · exact Or.inl ⟨_, .accept hm rfl⟩
  · rcases h with ⟨pre, rest, e, hp, hr⟩ | ⟨pre, v, rest, e, hp, hr⟩ | ⟨hp, hr⟩ | ⟨hp, hr⟩
    · cases rest with
      | nil => exact Or.inl ⟨_, .loopEnd hp⟩
      | cons x rest =>
        have hc : s.cancelled = false := by rw [hp] at hc; simpa [Late] using hc
        cases x with
        | none => exact Or.inl ⟨_, .masked hp hc⟩
        | some v => exact Or.inl ⟨_, .next hp hc⟩
    · exact Or.inl ⟨_, .send hp hr hs⟩
    · exact Or.inl ⟨_, .signal hp hr hd⟩
    · exact Or.inl ⟨_, .deliver hr hm⟩
  · rcases hm with hm | hm | hm
    · exact Or.inl ⟨_, .closeDone hm⟩
    · exact Or.inl ⟨_, .closeSlice hm⟩
    · rcases hr with hr | hr
      · exact Or.inl ⟨_, .closeOut hr⟩
      · exact Or.inr ⟨hm, hp, hr⟩

/-- From every such state the end can be reached, and there is no way around it. -/
theorem Inv.reaches {m : MonoID T} {script : List (Option T)} :
    ∀ (n : Nat) (s : Sys T), work script s ≤ n → Inv m script s →
      ∃ t, Steps m script true s t ∧ Ended (fold m script) t := by
  intro n
  induction n with
  | zero =>
    intro s hn h
    rcases h.progress with ⟨t, ht⟩ | he
    · have := h.work_lt ht; omega
    · exact ⟨s, .refl, he⟩
  | succ n ih =>
    intro s hn h
    rcases h.progress with ⟨t, ht⟩ | he
    · have := h.work_lt ht
      obtain ⟨u, hu, he⟩ := ih t (by omega) (h.step ht)
      refine ⟨u, ?_, he⟩
      clear he ih
      induction hu with
      | refl => exact .tail .refl ht
      | tail _ h2 ih => exact .tail ih h2
    · exact ⟨s, .refl, he⟩

/-! ## After cancellation -/

/-- The producer has returned on cancellation (or must do so at its next turn) and the channels are open. -/
def Doomed (s : Sys T) : Prop :=
  s.cancelled = true ∧ s.doneClosed = false ∧ s.sliceClosed = false ∧ (∃ acc, s.red = .run acc) ∧
  s.main = .waiting ∧ (s.prod = .stopped ∨ ∃ e rest, s.prod = .loop (e :: rest))

theorem Doomed.step {m : MonoID T} {script : List (Option T)} {fits : Bool} {s t : Sys T} (h : Doomed s)
    (hst : Step m script fits s t) : Doomed t := by
  obtain ⟨hc, hd, hs, ⟨acc, hr⟩, hm, hp⟩ := h
  cases hst with
  | accept h1 h2 => rw [hm] at h1; cases h1
  | reject h1 h2 => rw [hm] at h1; cases h1
  | pollStop h1 h2 => exact ⟨hc, hd, hs, ⟨acc, hr⟩, hm, Or.inl rfl⟩
  | masked h1 h2 => rw [hc] at h2; cases h2
  | next h1 h2 => rw [hc] at h2; cases h2
  | loopEnd h1 => rw [h1] at hp; simp at hp
  | send h1 h2 h3 => rw [h1] at hp; simp at hp
  | sendClosed h1 h2 => rw [h1] at hp; simp at hp
  | signal h1 h2 h3 => rw [h1] at hp; simp at hp
  | signalClosed h1 h2 => rw [h1] at hp; simp at hp
  | recvClosed h1 h2 => rw [hs] at h2; cases h2
  | doneClosed h1 h2 => rw [hd] at h2; cases h2
  | deliver h1 h2 => rw [hr] at h1; cases h1
  | closeOut h1 => rw [hr] at h1; cases h1
  | closeDone h1 => rw [hm] at h1; cases h1
  | closeSlice h1 => rw [hm] at h1; cases h1
  | panicDone h1 => rw [hm] at h1; cases h1
  | panicSlice h1 => rw [hm] at h1; cases h1

theorem Doomed.stepsEnv {m : MonoID T} {script : List (Option T)} {fits : Bool} {s t : Sys T} (h : Doomed s)
    (hst : StepsEnv m script fits s t) : Doomed t := by
  induction hst with
  | refl => exact h
  | step _ h2 ih => exact ih.step h2
  | env _ h2 ih => cases h2; exact ⟨rfl, ih.2⟩

end Reduce

/-! ## The producer's loop in the program state -/

namespace Ops
open M
variable {T : Type} [GoNum T] [GoStore T]

/-- The turn the producer takes for an entry. -/
def turn (w : World T) (mask : Mask) (e : Nat × Nat × T) : Option T :=
  if mask.bit w e.1 e.2.1 then none else some e.2.2

theorem element_read {mask : Mask} {p : Ref} {w : World T} (hS : mask.Sound w) (hF : mask.Fits w p) (hn : mask ≠ .nil)
    {i j : Nat} (hi : i < (w.heap p).rows) (hj : j < (w.heap p).cols) : mask.element i j w = .ok (mask.bit w i j) w := by
  cases mask with
  | nil => exact absurd rfl hn
  | empty r c => rfl
  | given r c el =>
    obtain ⟨b, hb⟩ := hS i j (by rw [hF.1]; exact hi) (by rw [hF.2]; exact hj)
    simp only [Mask.element, Mask.bit, hb]
    rfl
  | ref q =>
    have h1 : i < (w.heap q).rows := by rw [hF.1]; exact hi
    have h2 : j < (w.heap q).cols := by rw [hF.2]; exact hj
    simp only [Mask.element]
    rw [withObj_same (a := GoNum.glt 0 ((w.heap q).val i j)) (Mat.Inv.element_ok hS h1 h2)]
    simp [Mask.bit]

theorem loopScript_go {w : World T} {p : Ref} {mask : Mask} (hS : mask.Sound w) (hF : mask.Fits w p) (hn : mask ≠ .nil)
    (hc : w.cancel = none) : ∀ (es : List (Nat × Nat × T)) (g : Nat) (it : Mat.Iter) (acc : List (Option T)),
    es.length ≤ g → (∀ e ∈ es, e.1 < (w.heap p).rows ∧ e.2.1 < (w.heap p).cols) →
    Yields Mat.Iter.hasNext (w.heap p).step it es →
    loopScript p mask g it acc w = .ok (some (acc ++ es.map (turn w mask))) w := by
  intro es
  induction es with
  | nil =>
    intro g it acc _ _ hy
    have hy : it.hasNext = false := hy
    cases g <;> · unfold loopScript; simp [hy]
  | cons e es ih =>
    intro g it acc hg hr hy
    obtain ⟨hh, it', h1, h2⟩ := hy
    cases g with
    | zero => simp at hg
    | succ g =>
      have hp : (poll : M T Bool) w = .ok false w := by unfold poll; rw [hc]
      unfold loopScript
      rw [if_pos hh, bind_ok hp]
      simp only [Bool.false_eq_true, if_false]
      rw [bind_ok (ofObj_ok h1)]
      obtain ⟨i, j, v⟩ := e
      dsimp only
      rw [bind_ok (element_read hS hF hn (hr _ List.mem_cons_self).1 (hr _ List.mem_cons_self).2)]
      rw [ih g it' _ (by simp at hg; omega) (fun e he => hr e (List.mem_cons_of_mem _ he)) h2]
      simp only [List.map_cons, List.append_assoc, List.singleton_append, turn]
      cases mask.bit w i j <;> rfl

/-- What the context looks like after `n` polls. -/
theorem loopScript_stop {p : Ref} {mask : Mask} (hn : mask ≠ .nil) :
    ∀ (es : List (Nat × Nat × T)) (k g : Nat) (it : Mat.Iter) (acc : List (Option T)) (w : World T),
    mask.Sound w → mask.Fits w p → w.cancel = some k → k < es.length →
    es.length ≤ g → (∀ e ∈ es, e.1 < (w.heap p).rows ∧ e.2.1 < (w.heap p).cols) →
    Yields Mat.Iter.hasNext (w.heap p).step it es →
    loopScript p mask g it acc w = .ok none { w with cancel := some 0 } := by
  intro es
  induction es with
  | nil => intro k g it acc w _ _ _ hk; simp at hk
  | cons e es ih =>
    intro k g it acc w hS hF hc hk hg hr hy
    obtain ⟨hh, it', h1, h2⟩ := hy
    cases g with
    | zero => simp at hg
    | succ g =>
      cases k with
      | zero =>
        have hp : (poll : M T Bool) w = .ok true w := by unfold poll; rw [hc]
        unfold loopScript
        rw [if_pos hh, bind_ok hp]
        simp only [if_true]
        show Res.ok none w = _
        congr 1
        obtain ⟨a, b, c, d, e⟩ := w
        simp only at hc
        rw [hc]
      | succ k =>
        have hp : (poll : M T Bool) w = .ok false { w with cancel := some k } := by unfold poll; rw [hc]
        have hS' : mask.Sound { w with cancel := some k } := by cases mask <;> exact hS
        have hF' : mask.Fits { w with cancel := some k } p := by cases mask <;> exact hF
        unfold loopScript
        rw [if_pos hh, bind_ok hp]
        simp only [Bool.false_eq_true, if_false]
        rw [bind_ok (ofObj_ok (w := { w with cancel := some k }) h1)]
        obtain ⟨i, j, v⟩ := e
        dsimp only
        rw [bind_ok (element_read (w := { w with cancel := some k }) hS' hF' hn (hr _ List.mem_cons_self).1
          (hr _ List.mem_cons_self).2)]
        rw [ih k g it' _ { w with cancel := some k } hS' hF' rfl (by simp at hk; omega) (by simp at hg; omega)
          (fun e he => hr e (List.mem_cons_of_mem _ he)) h2]

theorem loopScript_late {p : Ref} {mask : Mask} (hn : mask ≠ .nil) :
    ∀ (es : List (Nat × Nat × T)) (k g : Nat) (it : Mat.Iter) (acc : List (Option T)) (w : World T),
    mask.Sound w → mask.Fits w p → w.cancel = some k → es.length ≤ k →
    es.length ≤ g → (∀ e ∈ es, e.1 < (w.heap p).rows ∧ e.2.1 < (w.heap p).cols) →
    Yields Mat.Iter.hasNext (w.heap p).step it es →
    loopScript p mask g it acc w =
      .ok (some (acc ++ es.map (turn w mask))) { w with cancel := some (k - es.length) } := by
  intro es
  induction es with
  | nil =>
    intro k g it acc w _ _ hc _ _ _ hy
    have hy : it.hasNext = false := hy
    have e : ({ w with cancel := some (k - 0) } : World T) = w := by
      obtain ⟨a, b, c, d, e⟩ := w
      simp only at hc
      rw [hc]; rfl
    simp only [List.length_nil, e]
    cases g <;> · unfold loopScript; simp [hy]
  | cons e es ih =>
    intro k g it acc w hS hF hc hk hg hr hy
    obtain ⟨hh, it', h1, h2⟩ := hy
    cases g with
    | zero => simp at hg
    | succ g =>
      cases k with
      | zero => simp at hk
      | succ k =>
        have hp : (poll : M T Bool) w = .ok false { w with cancel := some k } := by unfold poll; rw [hc]
        have hS' : mask.Sound { w with cancel := some k } := by cases mask <;> exact hS
        have hF' : mask.Fits { w with cancel := some k } p := by cases mask <;> exact hF
        unfold loopScript
        rw [if_pos hh, bind_ok hp]
        simp only [Bool.false_eq_true, if_false]
        rw [bind_ok (ofObj_ok (w := { w with cancel := some k }) h1)]
        obtain ⟨i, j, v⟩ := e
        dsimp only
        rw [bind_ok (element_read (w := { w with cancel := some k }) hS' hF' hn (hr _ List.mem_cons_self).1
          (hr _ List.mem_cons_self).2)]
        rw [ih k g it' _ { w with cancel := some k } hS' hF' rfl (by simp at hk; omega) (by simp at hg; omega)
          (fun e he => hr e (List.mem_cons_of_mem _ he)) h2]
        have hb : mask.bit { w with cancel := some k } = mask.bit w := by cases mask <;> rfl
        have ht : turn { w with cancel := some k } mask = turn w mask := by funext e; simp only [turn, hb]
        have hl : k + 1 - (es.length + 1) = k - es.length := by omega
        simp only [List.map_cons, List.append_assoc, List.singleton_append, ht, hb, List.length_cons, hl]
        simp only [turn]
        cases mask.bit w i j <;> rfl

end Ops
end GB
