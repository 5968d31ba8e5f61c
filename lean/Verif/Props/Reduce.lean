import Verif.Lemmas.Reduce2
import Verif.Lemmas.History
import Verif.SpecMat
import Verif.KernelRfl

/-!
# The reductions: C30, C31, C32, C34, C51
-/

namespace GB

set_option linter.unusedSectionVars false

open Reduce

/-! ## C30 -/

section C30
variable {T : Type} [GoNum T]

/-- C30, safety. Whatever the interleaving, when the call has returned it has returned the left fold of
the operator over the values sent, from the unit; and no goroutine ever panics. -/
theorem C30_fold (m : MonoID T) (script : List (Option T)) {t : Sys T}
    (h : Steps m script true (Sys.init m false) t) :
    (∀ v, t.main = .returned v → v = (script.filterMap id).foldl m.op m.unit) ∧
    t.prod ≠ .crashed ∧ t.main ≠ .panicked := by
  have hi := (Inv.init m script).steps h
  obtain ⟨-, hi⟩ := hi
  rcases hi with ⟨h1, h2, -⟩ | ⟨h1, -, -, h2⟩ | ⟨h1, -, h2⟩
  · rw [h1, h2]; simp
  · rw [h1]
    refine ⟨by simp, ?_, by simp⟩
    rcases h2 with ⟨_, _, _, h, -⟩ | ⟨_, _, _, _, h, -⟩ | ⟨h, -⟩ | ⟨h, -⟩ <;> rw [h] <;> simp
  · rw [h1]
    refine ⟨fun v hv => ?_, by simp, ?_⟩
    · rw [hv] at h2; simp at h2; exact h2
    · rcases h2 with h2 | h2 | h2 <;> rw [h2] <;> simp

/-- C30, no deadlock. A state in which no goroutine can take a step is one in which the call has returned
the fold and all three goroutines have ended. -/
theorem C30_no_deadlock (m : MonoID T) (script : List (Option T)) {t : Sys T}
    (h : Steps m script true (Sys.init m false) t) (hs : ∀ u, ¬ Step m script true t u) :
    t.main = .returned ((script.filterMap id).foldl m.op m.unit) ∧ t.prod = .finished ∧ t.red = .finished := by
  rcases ((Inv.init m script).steps h).progress with ⟨u, hu⟩ | he
  · exact absurd hu (hs u)
  · exact he

/-- C30, termination. No schedule is longer than `2n + 10` steps, `n` the number of turns. -/
theorem C30_finite (m : MonoID T) (script : List (Option T)) (n : Nat) (f : Nat → Sys T) (h0 : f 0 = Sys.init m false)
    (hf : ∀ k, k < n → Step m script true (f k) (f (k + 1))) : n ≤ 2 * script.length + 10 := by
  have key : ∀ k, k ≤ n → Inv m script (f k) ∧ work script (f k) + k ≤ 2 * script.length + 10 := by
    intro k
    induction k with
    | zero => intro _; rw [h0]; exact ⟨Inv.init m script, by simp [work, Sys.init]⟩
    | succ k ih =>
      intro hk
      obtain ⟨h1, h2⟩ := ih (by omega)
      have h3 := hf k (by omega)
      have := h1.work_lt h3
      exact ⟨h1.step h3, by omega⟩
  have := (key n (Nat.le_refl n)).2
  omega

/-- C30: and the end is reached, from every state on the way. -/
theorem C30_returns (m : MonoID T) (script : List (Option T)) {t : Sys T}
    (h : Steps m script true (Sys.init m false) t) :
    ∃ u, Steps m script true t u ∧ u.main = .returned ((script.filterMap id).foldl m.op m.unit) ∧
      u.prod = .finished ∧ u.red = .finished :=
  ((Inv.init m script).steps h).reaches _ t (Nat.le_refl _)

/-- A run of the three goroutines over `1, (masked), 2` with addition, to the end. -/
example : Steps (MonoID.addition ℤ) [some 1, none, some 2] true (Sys.init (MonoID.addition ℤ) false)
    { cancelled := false, prod := .finished, red := .closing, main := .returned 3, doneClosed := true, sliceClosed := true } := by
  refine .tail (.tail (.tail (.tail (.tail (.tail (.tail (.tail (.tail (.tail (.tail .refl (.accept rfl rfl)) (.next rfl rfl))
    (.send rfl rfl rfl)) (.masked rfl rfl)) (.next rfl rfl)) (.send rfl rfl rfl)) (.loopEnd rfl)) (.signal rfl rfl rfl))
    (.deliver rfl rfl)) (.closeDone (v := 3) rfl)) (.closeSlice (v := 3) rfl)

end C30

/-! ## C34 (the reductions) -/

section C34
variable {T : Type} [GoNum T]

/-- C34 for the reductions: false. If the context is cancelled before the call and there is at least one entry to
look at, then under no schedule does the call ever return. -/
theorem C34_refuted_reduce (m : MonoID T) (e : Option T) (rest : List (Option T)) {t : Sys T}
    (h : StepsEnv m (e :: rest) true (Sys.init m true) t) : ∀ v, t.main ≠ .returned v := by
  have key : (t.main = .start ∧ t.cancelled = true ∧ t.doneClosed = false ∧ t.sliceClosed = false ∧ t.red = .run m.unit ∧
      t.prod = .idle) ∨ Doomed t := by
    induction h with
    | refl => exact Or.inl ⟨rfl, rfl, rfl, rfl, rfl, rfl⟩
    | step _ h2 ih =>
      rcases ih with ⟨g1, g2, g3, g4, g5, g6⟩ | hd
      · cases h2 with
        | accept h1 h2 => exact Or.inr ⟨g2, g3, g4, ⟨_, g5⟩, rfl, Or.inr ⟨_, _, rfl⟩⟩
        | reject h1 h2 => cases h2
        | pollStop h1 => rw [g6] at h1; cases h1
        | masked h1 => rw [g6] at h1; cases h1
        | next h1 => rw [g6] at h1; cases h1
        | loopEnd h1 => rw [g6] at h1; cases h1
        | send h1 => rw [g6] at h1; cases h1
        | sendClosed h1 => rw [g6] at h1; cases h1
        | signal h1 => rw [g6] at h1; cases h1
        | signalClosed h1 => rw [g6] at h1; cases h1
        | recvClosed h1 h2 => rw [g4] at h2; cases h2
        | doneClosed h1 h2 => rw [g3] at h2; cases h2
        | deliver h1 => rw [g5] at h1; cases h1
        | closeOut h1 => rw [g5] at h1; cases h1
        | closeDone h1 => rw [g1] at h1; cases h1
        | closeSlice h1 => rw [g1] at h1; cases h1
        | panicDone h1 => rw [g1] at h1; cases h1
        | panicSlice h1 => rw [g1] at h1; cases h1
      · exact Or.inr (hd.step h2)
    | env _ h2 ih =>
      cases h2
      rcases ih with ⟨g1, g2, g3, g4, g5, g6⟩ | hd
      · exact Or.inl ⟨g1, rfl, g3, g4, g5, g6⟩
      · exact Or.inr ⟨rfl, hd.2⟩
  intro v hv
  rcases key with ⟨g1, -⟩ | ⟨-, -, -, -, g1, -⟩ <;> · rw [hv] at g1; cases g1

/-- … it ends in a deadlock: the producer is gone, the reducer waits for values, the caller for the result. -/
theorem C34_reduce_deadlock (m : MonoID T) (e : Option T) (rest : List (Option T)) :
    ∃ t, Steps m (e :: rest) true (Sys.init m true) t ∧ (∀ u, ¬ Step m (e :: rest) true t u) ∧
      t.main = .waiting ∧ t.red = .run m.unit ∧ t.prod = .stopped := by
  refine ⟨_, .tail (.tail .refl (.accept rfl rfl)) (.pollStop rfl rfl), ?_, rfl, rfl, rfl⟩
  intro u hu
  cases hu <;> simp_all [Sys.init]

/-- … and the same in mid-flight: as soon as the producer has noticed the cancellation, at whatever turn, the call
never returns. -/
theorem C34_reduce_midflight (m : MonoID T) (script : List (Option T)) {s t : Sys T}
    (h : Steps m script true (Sys.init m false) s) {e : Option T} {rest : List (Option T)} (hp : s.prod = .loop (e :: rest))
    (h' : StepsEnv m script true { s with cancelled := true } t) : ∀ v, t.main ≠ .returned v := by
  have hi := ((Inv.init m script).steps h).2
  have hd : Doomed { s with cancelled := true } := by
    rcases hi with ⟨-, g, -⟩ | ⟨g1, g2, g3, g⟩ | ⟨g, -⟩
    · rw [hp] at g; cases g
    · rcases g with ⟨_, _, _, -, g⟩ | ⟨_, _, _, _, g, -⟩ | ⟨g, -⟩ | ⟨g, -⟩
      · exact ⟨rfl, g2, g3, ⟨_, g⟩, g1, Or.inr ⟨e, rest, hp⟩⟩
      all_goals (rw [hp] at g; cases g)
    · rw [hp] at g; cases g
  intro v hv
  have := (hd.stepsEnv h').2.2.2.2.1
  rw [hv] at this
  cases this

/-- C34 for the reductions, the part that holds: a cancellation that comes after the producer's last look at the
context (in particular any cancellation when there are no entries) does not stop the call from returning,
and it returns the whole fold. Missing: every earlier cancellation, where the call hangs. -/
theorem C34_reduce_partial (m : MonoID T) (script : List (Option T)) {s t : Sys T}
    (h : Steps m script true (Sys.init m false) s)
    (hp : (script = [] ∧ s.prod = .idle) ∨ s.prod = .loop [] ∨ (∃ v, s.prod = .sending v []) ∨ s.prod = .signal ∨
      s.prod = .finished)
    (h' : Steps m script true { s with cancelled := true } t) :
    ∃ u, Steps m script true t u ∧ u.main = .returned ((script.filterMap id).foldl m.op m.unit) ∧
      u.prod = .finished ∧ u.red = .finished := by
  have hl : Late script s.prod := by
    rcases hp with ⟨h1, h2⟩ | h | ⟨v, h⟩ | h | h
    · rw [h2]; exact h1
    all_goals rw [h]; trivial
  exact ((((Inv.init m script).steps h).cancel hl).steps h').reaches _ t (Nat.le_refl _)

end C34

/-! ## C51: nothing is left behind -/

section C51
variable {T : Type} [GoNum T]

/-- C51, the part that holds: when the mask has the right shape and nobody cancels, the two goroutines have ended or end
by themselves, without help, after the call has returned. Missing: calls that panic. -/
theorem C51_no_leak_partial (m : MonoID T) (script : List (Option T)) {t : Sys T} {v : T}
    (h : Steps m script true (Sys.init m false) t) (hr : t.main = .returned v) :
    t.prod = .finished ∧ (t.red = .finished ∨ Step m script true t { t with red := .finished }) := by
  obtain ⟨-, hi⟩ := (Inv.init m script).steps h
  rcases hi with ⟨h1, -⟩ | ⟨h1, -⟩ | ⟨h1, h2, -⟩
  · rw [hr] at h1; cases h1
  · rw [hr] at h1; cases h1
  · refine ⟨h1, ?_⟩
    rcases h2 with h2 | h2
    · exact Or.inr (.closeOut h2)
    · exact Or.inl h2

/-- C51 in full: false. When the mask is rejected the call panics, and the reducer goroutine it started never ends: it
blocks for ever delivering a result nobody receives (or reads the closed channel for ever). -/
theorem C51_refuted (m : MonoID T) (script : List (Option T)) (c : Bool) :
    (∀ t, StepsEnv m script false (Sys.init m c) t → t.red ≠ .finished) ∧
    ∃ t, Steps m script false (Sys.init m c) t ∧ t.main = .panicked ∧ t.red = .deliver m.unit ∧
      ∀ u, ¬ Step m script false t u := by
  constructor
  · intro t h
    have key : ((∃ a, t.red = .run a) ∨ ∃ a, t.red = .deliver a) ∧ t.prod = .idle ∧
        (t.main = .start ∨ t.main = .panicking ∨ t.main = .panicking2 ∨ t.main = .panicked) := by
      induction h with
      | refl => exact ⟨Or.inl ⟨_, rfl⟩, rfl, Or.inl rfl⟩
      | step _ h2 ih =>
        obtain ⟨g1, g2, g3⟩ := ih
        cases h2 with
        | accept h1 h2 => cases h2
        | reject h1 h2 => exact ⟨g1, g2, Or.inr (Or.inl rfl)⟩
        | pollStop h1 => rw [g2] at h1; cases h1
        | masked h1 => rw [g2] at h1; cases h1
        | next h1 => rw [g2] at h1; cases h1
        | loopEnd h1 => rw [g2] at h1; cases h1
        | send h1 => rw [g2] at h1; cases h1
        | sendClosed h1 => rw [g2] at h1; cases h1
        | signal h1 => rw [g2] at h1; cases h1
        | signalClosed h1 => rw [g2] at h1; cases h1
        | recvClosed h1 h2 => exact ⟨Or.inl ⟨_, rfl⟩, g2, g3⟩
        | doneClosed h1 h2 => exact ⟨Or.inr ⟨_, rfl⟩, g2, g3⟩
        | deliver h1 h2 => rw [h2] at g3; simp at g3
        | closeOut h1 => rw [h1] at g1; simp at g1
        | closeDone h1 => rw [h1] at g3; simp at g3
        | closeSlice h1 => rw [h1] at g3; simp at g3
        | panicDone h1 => exact ⟨g1, g2, Or.inr (Or.inr (Or.inl rfl))⟩
        | panicSlice h1 => exact ⟨g1, g2, Or.inr (Or.inr (Or.inr rfl))⟩
      | env _ h2 ih => cases h2; exact ih
    rcases key.1 with ⟨a, h⟩ | ⟨a, h⟩ <;> rw [h] <;> simp
  · refine ⟨_, .tail (.tail (.tail (.tail .refl (.reject rfl rfl)) (.panicDone rfl)) (.panicSlice rfl))
      (.doneClosed (acc := m.unit) rfl rfl), rfl, rfl, ?_⟩
    intro u hu
    cases hu <;> simp_all [Sys.init]

/-- C51, what the goroutine left behind may still do: after the call has panicked it may call the caller's operation, on
the result so far and zero, any number of times; and nothing else. -/
theorem C51_calls_on (m : MonoID T) (script : List (Option T)) (c : Bool) :
    (∀ k : Nat, ∃ t u, Steps m script false (Sys.init m c) t ∧ t.main = .panicked ∧ t.red = .run m.unit ∧
      Steps m script false t u ∧ u.main = .panicked ∧ u.red = .run ((fun a => m.op a 0)^[k] m.unit)) ∧
    ∀ t, Steps m script false (Sys.init m c) t →
      ∃ k : Nat, t.red = .run ((fun a => m.op a 0)^[k] m.unit) ∨ t.red = .deliver ((fun a => m.op a 0)^[k] m.unit) := by
  constructor
  · intro k
    let t : Sys T := { Sys.init m c with main := .panicked, doneClosed := true, sliceClosed := true }
    refine ⟨t, { t with red := .run ((fun a => m.op a 0)^[k] m.unit) },
      .tail (.tail (.tail .refl (.reject rfl rfl)) (.panicDone rfl)) (.panicSlice rfl), rfl, rfl, ?_, rfl, rfl⟩
    induction k with
    | zero => exact .refl
    | succ k ih =>
      rw [Function.iterate_succ_apply']
      exact .tail ih (.recvClosed rfl rfl)
  · intro t h
    have key : (∃ k : Nat, t.red = .run ((fun a => m.op a 0)^[k] m.unit) ∨
        t.red = .deliver ((fun a => m.op a 0)^[k] m.unit)) ∧ t.prod = .idle ∧
        (t.main = .start ∨ t.main = .panicking ∨ t.main = .panicking2 ∨ t.main = .panicked) := by
      induction h with
      | refl => exact ⟨⟨0, Or.inl rfl⟩, rfl, Or.inl rfl⟩
      | tail _ h2 ih =>
        obtain ⟨⟨k, g1⟩, g2, g3⟩ := ih
        cases h2 with
        | accept h1 h2 => cases h2
        | reject h1 h2 => exact ⟨⟨k, g1⟩, g2, Or.inr (Or.inl rfl)⟩
        | pollStop h1 => rw [g2] at h1; cases h1
        | masked h1 => rw [g2] at h1; cases h1
        | next h1 => rw [g2] at h1; cases h1
        | loopEnd h1 => rw [g2] at h1; cases h1
        | send h1 => rw [g2] at h1; cases h1
        | sendClosed h1 => rw [g2] at h1; cases h1
        | signal h1 => rw [g2] at h1; cases h1
        | signalClosed h1 => rw [g2] at h1; cases h1
        | recvClosed h1 h2 =>
          rw [h1] at g1
          refine ⟨⟨k + 1, Or.inl ?_⟩, g2, g3⟩
          rcases g1 with g1 | g1
          · injection g1 with g1
            rw [Function.iterate_succ_apply', ← g1]
          · cases g1
        | doneClosed h1 h2 =>
          rw [h1] at g1
          refine ⟨⟨k, Or.inr ?_⟩, g2, g3⟩
          rcases g1 with g1 | g1
          · injection g1 with g1
            rw [← g1]
          · cases g1
        | deliver h1 h2 => rw [h2] at g3; simp at g3
        | closeOut h1 => rw [h1] at g1; simp at g1
        | closeDone h1 => rw [h1] at g3; simp at g3
        | closeSlice h1 => rw [h1] at g3; simp at g3
        | panicDone h1 => exact ⟨⟨k, g1⟩, g2, Or.inr (Or.inr (Or.inl rfl))⟩
        | panicSlice h1 => exact ⟨⟨k, g1⟩, g2, Or.inr (Or.inr (Or.inr rfl))⟩
    exact key.1

end C51

/-! ## C31 -/

section C31
variable {T : Type}

/-- C31 in full: the sum of what `At` returns, over the cells the mask does not suppress. -/
def ReduceIsSum (T : Type) [GoRing T] : Prop := ∀ (w : World T) (s : Ref) (mask : Mask), Reach (w.heap s) →
  (w.heap s).nvalues ≤ w.gas → w.cancel = none → mask.Sound w → mask.Fits w s →
  Ops.reduceMatrixToScalar s mask w = .ok (∑ i ∈ Finset.range (w.heap s).rows, ∑ j ∈ Finset.range (w.heap s).cols,
    if mask.bit w i j then 0 else (w.heap s).val i j) w

/-- C31 with any monoid: the fold of the operator over the unmasked entries in the order `Enumerate` delivers them; the
entries are the cells of the matrix. The state is not changed. Under every schedule of the goroutines that is what
the caller receives. -/
theorem C31_fold_partial [GoNum T] [GoStore T] {w : World T} {s : Ref} {mask : Mask} (mo : MonoID T) (hs : (w.heap s).WF)
    (hg : (w.heap s).nvalues ≤ w.gas) (hc : w.cancel = none) (hS : mask.Sound w) (hF : mask.Fits w s) :
    ∃ es, Yields Mat.Iter.hasNext (w.heap s).step (w.heap s).iter es ∧
      Faithful (w.heap s).rows (w.heap s).cols (w.heap s).val es ∧
      Ops.reduceScalar s mo mask w =
        .ok (((es.filter (fun e => !mask.bit w e.1 e.2.1)).map (fun e => e.2.2)).foldl mo.op mo.unit) w ∧
      ∃ script, Ops.reduceScript s mask w = .ok (some script) w ∧
        ∀ t, Steps mo script true (Sys.init mo false) t → (∀ u, ¬ Step mo script true t u) →
          t.main = .returned (((es.filter (fun e => !mask.bit w e.1 e.2.1)).map (fun e => e.2.2)).foldl mo.op mo.unit) := by
  obtain ⟨es, h1, h2, h3, -⟩ := Mat.entries_ok hs
  refine ⟨es, h1.yields, h2, Ops.reduceScalar_ok mo h1.yields h2.range (by omega) hS hF hc, _,
    Ops.reduceScript_ok h1.yields h2.range (by omega) hS hF hc, fun t ht hu => ?_⟩
  have := (C30_no_deadlock mo _ ht hu).1
  rw [this, Ops.filterMap_turn]
  rfl

/-- C31, the part that holds: `ReduceMatrixToScalar(A, mask)` is the sum of `At(r,c)` over the cells that are not masked,
for every matrix format, every dense vector, and every sparse vector without a gap, under every mask.
Missing: sparse vectors holding an entry beyond the number of their entries, which `At` does not find. -/
theorem C31_sum_partial [GoRing T] [GoStore T] {w : World T} {s : Ref} {mask : Mask} (hs : (w.heap s).WF)
    (hg : (w.heap s).nvalues ≤ w.gas) (hc : w.cancel = none) (hS : mask.Sound w) (hF : mask.Fits w s) :
    Ops.reduceMatrixToScalar s mask w = .ok (∑ i ∈ Finset.range (w.heap s).rows, ∑ j ∈ Finset.range (w.heap s).cols,
      if mask.bit w i j then 0 else (w.heap s).val i j) w := by
  obtain ⟨es, -, h2, h3, -⟩ := C31_fold_partial (MonoID.addition T) hs hg hc hS hF
  unfold Ops.reduceMatrixToScalar
  rw [h3]
  congr 1
  refine (foldl_add _).trans ?_
  rw [h2.sum_eq (fun i j => !mask.bit w i j)]
  refine Finset.sum_congr rfl (fun i _ => Finset.sum_congr rfl (fun j _ => ?_))
  cases mask.bit w i j <;> rfl

/-- C31 for matrices: no condition beyond reachability. -/
theorem C31_matrix [GoRing T] [GoStore T] {w : World T} {s : Ref} {mask : Mask} (hs : Reach (w.heap s)) (hk : (w.heap s).kind ≠ .svec)
    (hg : (w.heap s).nvalues ≤ w.gas) (hc : w.cancel = none) (hS : mask.Sound w) (hF : mask.Fits w s) :
    Ops.reduceMatrixToScalar s mask w = .ok (∑ i ∈ Finset.range (w.heap s).rows, ∑ j ∈ Finset.range (w.heap s).cols,
      if mask.bit w i j then 0 else (w.heap s).val i j) w :=
  C31_sum_partial (hs.wf hk) hg hc hS hF

/-- C31 in full: false. A sparse vector of length 3 with 5 at position 2: the reduction finds 5, `At` only zeros. -/
theorem C31_refuted : ¬ ReduceIsSum ℤ := by
  intro h
  have h1 := h (World.of (T := ℤ) 10 [.svec { l := 3, values := [5], indices := [2] }]) 0 .nil
    (Reach.call (m := .svec (SVec.new 3 : SVec ℤ)) (.set 2 0 5) (Reach.newSVec 3) (by decide +kernel))
    (by decide +kernel) rfl trivial trivial
  have h2 : (Ops.reduceMatrixToScalar 0 .nil (World.of (T := ℤ) 10 [.svec { l := 3, values := [5], indices := [2] }])).val =
    some 5 := by decide +kernel
  rw [h1] at h2
  exact absurd h2 (by decide +kernel)

/-- The wrong shape of mask is rejected. -/
theorem C31_mask_shape [GoNum T] [GoStore T] {w : World T} {s : Ref} {mask : Mask} (mo : MonoID T) (hF : ¬ mask.Fits w s) :
    Ops.reduceScalar s mo mask w = .panic w := by
  unfold Ops.reduceScalar
  have : Ops.reduceScript s mask w = .panic w := by
    unfold Ops.reduceScript
    exact Mask.pre_panic hF _
  rw [M.bind_panic this]

/-- `C31_matrix` on a CSR matrix with a mask suppressing one of its cells: 1 + 2 + 4 - 1. -/
example : (Ops.reduceMatrixToScalar 0 (.ref 1) (World.of (T := ℤ) 10
    [.csr { r := 2, c := 2, values := [1, 2, 4], cols := [0, 1, 0], rowStart := [0, 2, 3] },
     .dense { r := 2, c := 2, data := [[1, 0], [0, 0]] }])).val = some 6 := by decide +kernel

/-- C34 at the level of the program state: with a context cancelled at the `k+1`-st poll, the reduction returns exactly
when it has no more than `k` entries. -/
theorem C34_reduce_exact [GoNum T] [GoStore T] {w : World T} {s : Ref} {mask : Mask} (mo : MonoID T) (hs : (w.heap s).WF)
    (hg : (w.heap s).nvalues ≤ w.gas) {k : Nat} (hc : w.cancel = some k) (hS : mask.Sound w) (hF : mask.Fits w s) :
    (k < (w.heap s).nvalues → (Ops.reduceScalar s mo mask w).isHang = true) ∧
    ((w.heap s).nvalues ≤ k → ∃ v w', Ops.reduceScalar s mo mask w = .ok v w' ∧ w'.heap = w.heap ∧
      (Ops.reduceScalar s mo mask { w with cancel := none }).val = some v) := by
  obtain ⟨es, h1, h2, h3, -⟩ := Mat.entries_ok hs
  constructor
  · intro hk
    unfold Ops.reduceScalar
    rw [M.bind_ok (Ops.reduceScript_stop h1.yields h2.range (by omega) hS hF hc (by omega))]
    rfl
  · intro hk
    refine ⟨((Ops.sent w mask es).foldl mo.op mo.unit), { w with cancel := some (k - es.length) }, ?_, rfl, ?_⟩
    · unfold Ops.reduceScalar
      rw [M.bind_ok (Ops.reduceScript_late h1.yields h2.range (by omega) hS hF hc (by omega))]
      dsimp only
      rw [Ops.filterMap_turn]
      rfl
    · have hS' : mask.Sound { w with cancel := none } := by cases mask <;> exact hS
      have hF' : mask.Fits { w with cancel := none } s := by cases mask <;> exact hF
      rw [Ops.reduceScalar_ok (w := { w with cancel := none }) mo h1.yields h2.range (by show es.length ≤ w.gas; omega) hS' hF' rfl]
      have : mask.bit { w with cancel := none } = mask.bit w := by cases mask <;> rfl
      simp only [Res.val, Ops.sent, this]

end C31

/-! ## C32 -/

section C32
variable {T : Type} [GoNum T]

/-- C32 in full: the result has one entry per column, the largest value of the column. -/
def ReduceIsColumnMax (T : Type) [GoNum T] [LinearOrder T] : Prop := ∀ (w : World T) (s : Ref), Reach (w.heap s) → s < w.next →
  (w.heap s).rows ≤ w.gas → w.cancel = none → 0 < (w.heap s).rows →
  ∃ p w' v, Ops.reduceMatrixToVector s w = .ok p w' ∧ w'.heap p = .dvec v ∧ v.l = (w.heap s).cols ∧
    ∀ c, c < (w.heap s).cols → (∀ i, i < (w.heap s).rows → (w.heap s).val i c ≤ v.cell c) ∧
      ∃ i, i < (w.heap s).rows ∧ v.cell c = (w.heap s).val i c

variable [GoStore T]

/-- C32: with any monoid and any mask of the shape of a column, the result is a new vector with one entry per column, the fold
over the unmasked cells of the column; nothing that existed is changed. -/
theorem C32_fold {w : World T} {s : Ref} {mask : Mask} (mo : MonoID T) (hs : (w.heap s).WF) (hlt : s < w.next)
    (hg : (w.heap s).rows ≤ w.gas) (hc : w.cancel = none) (hS : mask.Sound w) (hO : mask.Old w)
    (hF : mask = .nil ∨ (∀ p, mask = .ref p → (w.heap p).rows = (w.heap s).rows ∧ (w.heap p).cols = 1) ∧
      (∀ r c, mask = .empty r c → r = (w.heap s).rows ∧ c = 1) ∧
      ∀ r c el, mask = .given r c el → r = (w.heap s).rows ∧ c = 1) :
    ∃ w' v, Ops.reduceVector s mo mask w = .ok w.next w' ∧ (∀ q, q < w.next → w'.heap q = w.heap q) ∧
      w'.heap w.next = .dvec v ∧ v.l = (w.heap s).cols ∧
      ∀ c, c < (w.heap s).cols → ∃ es, Faithful (w.heap s).rows 1 (fun i _ => (w.heap s).val i c) es ∧
        v.cell c = ((es.filter (fun e => !mask.bit w e.1 e.2.1)).map (fun e => e.2.2)).foldl mo.op mo.unit := by
  obtain ⟨w', v, h1, -, h2, -, -, -, h3, -, h4, h5⟩ := Ops.reduceVector_ok mo hs hlt hg hc hS hO hF
  refine ⟨w', v, h1, h2, h3, h4, fun c hcc => ?_⟩
  obtain ⟨es, g1, -, g2⟩ := h5 c hcc
  exact ⟨es, g1, g2⟩

variable [LinearOrder T] [GoOrd T]

theorem foldl_max : ∀ (l : List T) (a : T),
    (∀ x ∈ l, x ≤ l.foldl OpPkg.maximum a) ∧ a ≤ l.foldl OpPkg.maximum a ∧
    (l.foldl OpPkg.maximum a = a ∨ l.foldl OpPkg.maximum a ∈ l) := by
  intro l
  induction l with
  | nil => intro a; exact ⟨by simp, le_refl a, Or.inl rfl⟩
  | cons y l ih =>
    intro a
    obtain ⟨h1, h2, h3⟩ := ih (OpPkg.maximum a y)
    have hm : OpPkg.maximum a y = max a y := by
      unfold OpPkg.maximum
      rcases lt_or_ge y a with h | h
      · rw [if_pos ((GoOrd.lt_iff y a).2 h), max_eq_left h.le]
      · rw [if_neg (fun h' => absurd ((GoOrd.lt_iff y a).1 h') (not_lt.2 h)), max_eq_right h]
    rw [List.foldl_cons]
    refine ⟨fun x hx => ?_, ?_, ?_⟩
    · rcases List.mem_cons.1 hx with rfl | hx
      · exact le_trans (by rw [hm]; exact le_max_right _ _) h2
      · exact h1 x hx
    · exact le_trans (by rw [hm]; exact le_max_left _ _) h2
    · rcases h3 with h3 | h3
      · rw [h3, hm]
        rcases max_choice a y with h | h
        · exact Or.inl h
        · exact Or.inr (by rw [h]; exact List.mem_cons_self)
      · exact Or.inr (List.mem_cons_of_mem _ h3)

/-- C32: what `ReduceMatrixToVector` computes: per column the largest of its values *and zero*. -/
theorem C32_max_with_zero {w : World T} {s : Ref} (hs : (w.heap s).WF) (hlt : s < w.next)
    (hg : (w.heap s).rows ≤ w.gas) (hc : w.cancel = none) :
    ∃ w' v, Ops.reduceMatrixToVector s w = .ok w.next w' ∧ (∀ q, q < w.next → w'.heap q = w.heap q) ∧
      w'.heap w.next = .dvec v ∧ v.l = (w.heap s).cols ∧
      ∀ c, c < (w.heap s).cols → (∀ i, i < (w.heap s).rows → (w.heap s).val i c ≤ v.cell c) ∧ 0 ≤ v.cell c ∧
        (v.cell c = 0 ∨ ∃ i, i < (w.heap s).rows ∧ v.cell c = (w.heap s).val i c) := by
  obtain ⟨w', v, h1, h2, h3, h4, h5⟩ := C32_fold (mask := .nil) (MonoID.maximum T) hs hlt hg hc trivial trivial (Or.inl rfl)
  refine ⟨w', v, h1, h2, h3, h4, fun c hcc => ?_⟩
  obtain ⟨es, hf, hv⟩ := h5 c hcc
  have hfil : es.filter (fun e => !Mask.nil.bit w e.1 e.2.1) = es := by
    rw [List.filter_eq_self]; intro e _; rfl
  rw [hfil] at hv
  obtain ⟨g1, g2, g3⟩ := foldl_max (es.map (fun e => e.2.2)) (0 : T)
  have e : v.cell c = (es.map (fun e => e.2.2)).foldl OpPkg.maximum 0 := hv
  rw [← e] at g1 g2 g3
  refine ⟨fun i hi => ?_, g2, ?_⟩
  · by_cases hz : (w.heap s).val i c = 0
    · rw [hz]; exact g2
    · exact g1 _ (List.mem_map.2 ⟨_, hf.complete i 0 hi (by omega) hz, rfl⟩)
  · rcases g3 with g3 | g3
    · exact Or.inl g3
    · obtain ⟨x, hx, hx'⟩ := List.mem_map.1 g3
      exact Or.inr ⟨x.1, (hf.range x hx).1, by rw [← hx', ← hf.value x hx]⟩

/-- C32, the part that holds: the column maximum, for columns with an entry that is not negative. Missing: columns all
of whose entries are negative, for which the result is 0. -/
theorem C32_max_partial {w : World T} {s : Ref} (hs : (w.heap s).WF) (hlt : s < w.next)
    (hg : (w.heap s).rows ≤ w.gas) (hc : w.cancel = none)
    (hn : ∀ c, c < (w.heap s).cols → ∃ i, i < (w.heap s).rows ∧ 0 ≤ (w.heap s).val i c) :
    ∃ w' v, Ops.reduceMatrixToVector s w = .ok w.next w' ∧ w'.heap w.next = .dvec v ∧ v.l = (w.heap s).cols ∧
      ∀ c, c < (w.heap s).cols → (∀ i, i < (w.heap s).rows → (w.heap s).val i c ≤ v.cell c) ∧
        ∃ i, i < (w.heap s).rows ∧ v.cell c = (w.heap s).val i c := by
  obtain ⟨w', v, h1, -, h3, h4, h5⟩ := C32_max_with_zero hs hlt hg hc
  refine ⟨w', v, h1, h3, h4, fun c hcc => ?_⟩
  obtain ⟨g1, g2, g3⟩ := h5 c hcc
  refine ⟨g1, ?_⟩
  rcases g3 with g3 | g3
  · obtain ⟨i, hi, h0⟩ := hn c hcc
    exact ⟨i, hi, le_antisymm (by rw [g3]; exact h0) (g1 i hi)⟩
  · exact g3

/-- C32 in full: false. The column maximum of `[-1]` comes out as 0. -/
theorem C32_refuted : ¬ ReduceIsColumnMax ℤ := by
  intro h
  obtain ⟨p, w', v, h1, h2, h3, h4⟩ := h (World.of (T := ℤ) 10 [.dense { r := 1, c := 1, data := [[-1]] }]) 0
    (Reach.arrDense (data := [[-1]]) (c := 1) (by intro row hr; simp at hr; subst hr; rfl) (by decide +kernel)) (by decide +kernel) (by decide +kernel) rfl
    (by decide +kernel)
  have e : (Ops.reduceMatrixToVector 0 (World.of (T := ℤ) 10 [.dense { r := 1, c := 1, data := [[-1]] }])).obj =
    some (.dvec { l := 1, values := [0] }) := by decide +kernel
  rw [h1] at e
  have e : w'.heap p = .dvec { l := 1, values := [0] } := Option.some.inj e
  rw [h2] at e
  injection e with e
  subst e
  obtain ⟨i, hi, hv⟩ := (h4 0 (by decide +kernel)).2
  have hi : i < 1 := hi
  obtain rfl : i = 0 := by omega
  exact absurd hv (by decide +kernel)

/-- `C32_max_partial` on a compressed matrix: columns (1,0), (0,-3), (4,2). -/
example : (Ops.reduceMatrixToVector 0 (World.of (T := ℤ) 10
    [.csr { r := 2, c := 3, values := [1, 4, -3, 2], cols := [0, 2, 1, 2], rowStart := [0, 2, 4] }])).obj =
    some (.dvec { l := 3, values := [1, 0, 4] }) := by decide +kernel

end C32
end GB
