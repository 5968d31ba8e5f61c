import Verif.SpecMutex
import Mathlib.Algebra.BigOperators.Fin
import Mathlib.Algebra.Order.BigOperators.Group.Finset
import Mathlib.Data.List.Basic

/-!
# The read-write lock
-/

namespace GB
namespace Mutex

set_option linter.unusedSectionVars false
set_option linter.unusedSimpArgs false

variable {n : Nat} {μ S R : Type} {mode : μ → Mode} {body : μ → Prog S R}

/-- Reading inside, as a number. -/
def rd (mode : μ → Mode) : Phase μ S R → Nat
  | .inside m _ => if mode m = .read then 1 else 0
  | _ => 0

/-- In or past `Lock`, as a number. -/
def wr (mode : μ → Mode) : Phase μ S R → Nat
  | .inside m _ => if mode m = .write then 1 else 0
  | .waiting _ => 1
  | _ => 0

theorem rd_inside (m : μ) (p : Prog S R) : rd mode (.inside m p) = if mode m = .read then 1 else 0 := rfl
theorem rd_waiting (m : μ) : rd mode (.waiting m : Phase μ S R) = 0 := rfl
theorem rd_idle : rd mode (.idle : Phase μ S R) = 0 := rfl
theorem wr_inside (m : μ) (p : Prog S R) : wr mode (.inside m p) = if mode m = .write then 1 else 0 := rfl
theorem wr_waiting (m : μ) : wr mode (.waiting m : Phase μ S R) = 1 := rfl
theorem wr_idle : wr mode (.idle : Phase μ S R) = 0 := rfl

theorem sum_upd (f : Phase μ S R → Nat) (t : Fin n → Thread μ S R) (i : Fin n) (x : Thread μ S R) :
    ∑ j, f (Function.update t i x j).phase + f (t i).phase = ∑ j, f (t j).phase + f x.phase := by
  have e : (fun j => f (Function.update t i x j).phase) = Function.update (fun j => f (t j).phase) i (f x.phase) := by
    funext j
    by_cases h : j = i
    · subst h; rw [Function.update_self, Function.update_self]
    · rw [Function.update_of_ne h, Function.update_of_ne h]
  rw [e, Finset.sum_update_of_mem (Finset.mem_univ i), Finset.sdiff_singleton_eq_erase,
    ← Finset.add_sum_erase _ _ (Finset.mem_univ i)]
  omega

theorem sum_pos {f : Phase μ S R → Nat} {t : Fin n → Thread μ S R} (i : Fin n) :
    f (t i).phase ≤ ∑ j, f (t j).phase :=
  Finset.single_le_sum (f := fun j => f (t j).phase) (fun _ _ => Nat.zero_le _) (Finset.mem_univ i)

theorem sum_two {f : Phase μ S R → Nat} {t : Fin n → Thread μ S R} {i j : Fin n} (h : i ≠ j) :
    f (t i).phase + f (t j).phase ≤ ∑ j, f (t j).phase := by
  rw [← Finset.add_sum_erase _ _ (Finset.mem_univ i)]
  exact Nat.add_le_add_left (Finset.single_le_sum (f := fun j => f (t j).phase) (fun _ _ => Nat.zero_le _)
    (Finset.mem_erase.2 ⟨h.symm, Finset.mem_univ j⟩)) _

/-- The lock agrees with where the goroutines are. -/
structure Locked (mode : μ → Mode) (c : Conf n μ S R) : Prop where
  readers : c.readers = ∑ i, rd mode (c.thr i).phase
  writers : (if c.pending then 1 else 0) = ∑ i, wr mode (c.thr i).phase
  excl : ∀ i m p, (c.thr i).phase = .inside m p → mode m = .write → c.readers = 0
  waits : ∀ i m, (c.thr i).phase = .waiting m → mode m = .write

theorem Locked.init (s : S) (calls : Fin n → List μ) : Locked mode (Conf.init s calls : Conf n μ S R) :=
  ⟨by simp [Conf.init, rd], by simp [Conf.init, wr], fun i m p h => by simp [Conf.init] at h,
    fun i m h => by simp [Conf.init] at h⟩

theorem Locked.step {c c' : Conf n μ S R} (h : Locked mode c) (hs : Step mode body c c') : Locked mode c' := by
  obtain ⟨h1, h2, h3, h4⟩ := h
  cases hs with
  | @announce i m rest res e hm hp =>
    have a1 := sum_upd (rd mode) c.thr i ⟨rest, .waiting m, res⟩
    have a2 := sum_upd (wr mode) c.thr i ⟨rest, .waiting m, res⟩
    rw [e] at a1 a2
    simp only [rd_inside, rd_waiting, rd_idle, wr_inside, wr_waiting, wr_idle, hp] at a1 a2 h2
    refine ⟨?_, ?_, fun j m' p hj hm' => ?_, fun j m' hj => ?_⟩
    · show c.readers = _; dsimp only [Conf.put]; omega
    · dsimp only [Conf.put]; simp at h2 ⊢; omega
    · dsimp only [Conf.put] at hj ⊢
      by_cases e' : j = i
      · subst e'; rw [Function.update_self] at hj; cases hj
      · rw [Function.update_of_ne e'] at hj; exact h3 j m' p hj hm'
    · dsimp only [Conf.put] at hj ⊢
      by_cases e' : j = i
      · subst e'; rw [Function.update_self] at hj; cases hj; exact hm
      · rw [Function.update_of_ne e'] at hj; exact h4 j m' hj
  | @lock i m rest res e hr =>
    have hm := h4 i m (by rw [e])
    have a1 := sum_upd (rd mode) c.thr i ⟨rest, .inside m (body m), res⟩
    have a2 := sum_upd (wr mode) c.thr i ⟨rest, .inside m (body m), res⟩
    rw [e] at a1 a2
    simp only [rd_inside, rd_waiting, rd_idle, wr_inside, wr_waiting, wr_idle, hm, if_true, reduceCtorEq, if_false] at a1 a2
    refine ⟨?_, ?_, fun j m' p hj hm' => hr, fun j m' hj => ?_⟩
    · show c.readers = _; dsimp only [Conf.put]; omega
    · show (if c.pending then 1 else 0) = _; dsimp only [Conf.put]; omega
    · dsimp only [Conf.put] at hj ⊢
      by_cases e' : j = i
      · subst e'; rw [Function.update_self] at hj; cases hj
      · rw [Function.update_of_ne e'] at hj; exact h4 j m' hj
  | @rlock i m rest res e hm hp =>
    have a1 := sum_upd (rd mode) c.thr i ⟨rest, .inside m (body m), res⟩
    have a2 := sum_upd (wr mode) c.thr i ⟨rest, .inside m (body m), res⟩
    rw [e] at a1 a2
    simp only [rd_inside, rd_waiting, rd_idle, wr_inside, wr_waiting, wr_idle, hm, if_true, reduceCtorEq, if_false] at a1 a2
    refine ⟨?_, ?_, fun j m' p hj hm' => ?_, fun j m' hj => ?_⟩
    · show c.readers + 1 = _; dsimp only [Conf.put]; omega
    · show (if c.pending then 1 else 0) = _; dsimp only [Conf.put]; omega
    · dsimp only [Conf.put] at hj ⊢
      by_cases e' : j = i
      · subst e'; rw [Function.update_self] at hj; cases hj; rw [hm] at hm'; cases hm'
      · rw [Function.update_of_ne e'] at hj
        have := sum_pos (f := wr mode) (t := c.thr) j
        rw [hj, ← h2, hp] at this
        simp [wr_inside, hm'] at this
    · dsimp only [Conf.put] at hj ⊢
      by_cases e' : j = i
      · subst e'; rw [Function.update_self] at hj; cases hj
      · rw [Function.update_of_ne e'] at hj; exact h4 j m' hj
  | @enter i m rest res e hm =>
    have a1 := sum_upd (rd mode) c.thr i ⟨rest, .inside m (body m), res⟩
    have a2 := sum_upd (wr mode) c.thr i ⟨rest, .inside m (body m), res⟩
    rw [e] at a1 a2
    simp only [rd_inside, rd_waiting, rd_idle, wr_inside, wr_waiting, wr_idle, hm, reduceCtorEq, if_false] at a1 a2
    refine ⟨?_, ?_, fun j m' p hj hm' => ?_, fun j m' hj => ?_⟩
    · show c.readers = _; dsimp only [Conf.put]; omega
    · show (if c.pending then 1 else 0) = _; dsimp only [Conf.put]; omega
    · dsimp only [Conf.put] at hj ⊢
      by_cases e' : j = i
      · subst e'; rw [Function.update_self] at hj; cases hj; rw [hm] at hm'; cases hm'
      · rw [Function.update_of_ne e'] at hj; exact h3 j m' p hj hm'
    · dsimp only [Conf.put] at hj ⊢
      by_cases e' : j = i
      · subst e'; rw [Function.update_self] at hj; cases hj
      · rw [Function.update_of_ne e'] at hj; exact h4 j m' hj
  | @act i m rest res f k e =>
    have a1 := sum_upd (rd mode) c.thr i ⟨rest, .inside m (k c.mat), res⟩
    have a2 := sum_upd (wr mode) c.thr i ⟨rest, .inside m (k c.mat), res⟩
    rw [e] at a1 a2
    simp only [rd_inside, rd_waiting, rd_idle, wr_inside, wr_waiting, wr_idle] at a1 a2
    refine ⟨?_, ?_, fun j m' p hj hm' => ?_, fun j m' hj => ?_⟩
    · show c.readers = _; dsimp only [Conf.put]; omega
    · show (if c.pending then 1 else 0) = _; dsimp only [Conf.put]; omega
    · dsimp only [Conf.put] at hj ⊢
      by_cases e' : j = i
      · subst e'; rw [Function.update_self] at hj; cases hj; exact h3 j m _ (by rw [e]) hm'
      · rw [Function.update_of_ne e'] at hj; exact h3 j m' p hj hm'
    · dsimp only [Conf.put] at hj ⊢
      by_cases e' : j = i
      · subst e'; rw [Function.update_self] at hj; cases hj
      · rw [Function.update_of_ne e'] at hj; exact h4 j m' hj
  | @leave i m rest res r e =>
    have a1 := sum_upd (rd mode) c.thr i ⟨rest, .idle, res ++ [(m, r)]⟩
    have a2 := sum_upd (wr mode) c.thr i ⟨rest, .idle, res ++ [(m, r)]⟩
    have b2 := sum_pos (f := wr mode) (t := c.thr) i
    rw [e] at a1 a2 b2
    have w4 : ∀ j m', ((Function.update c.thr i ⟨rest, .idle, res ++ [(m, r)]⟩ : Fin n → Thread μ S R) j).phase = .waiting m' →
        mode m' = .write := by
      intro j m' hj
      by_cases e' : j = i
      · subst e'; rw [Function.update_self] at hj; cases hj
      · rw [Function.update_of_ne e'] at hj; exact h4 j m' hj
    have w3 : ∀ j m' p, ((Function.update c.thr i ⟨rest, .idle, res ++ [(m, r)]⟩ : Fin n → Thread μ S R) j).phase = .inside m' p →
        mode m' = .write → c.readers = 0 := by
      intro j m' p hj hm'
      by_cases e' : j = i
      · subst e'; rw [Function.update_self] at hj; cases hj
      · rw [Function.update_of_ne e'] at hj; exact h3 j m' p hj hm'
    cases hm : mode m with
    | write =>
      simp only [rd_inside, rd_waiting, rd_idle, wr_inside, wr_waiting, wr_idle, hm, if_true, reduceCtorEq, if_false] at a1 a2 b2
      refine ⟨?_, ?_, w3, w4⟩
      · show c.readers = _; dsimp only [Conf.put, Conf.release]; omega
      · dsimp only [Conf.put, Conf.release]; split at h2 <;> simp at h2 ⊢ <;> omega
    | read =>
      simp only [rd_inside, rd_waiting, rd_idle, wr_inside, wr_waiting, wr_idle, hm, if_true, reduceCtorEq, if_false] at a1 a2 b2
      refine ⟨?_, ?_, fun j m' p hj hm' => ?_, w4⟩
      · show c.readers - 1 = _; dsimp only [Conf.put, Conf.release]; omega
      · show (if c.pending then 1 else 0) = _; dsimp only [Conf.put, Conf.release]; omega
      · show c.readers - 1 = 0
        rw [w3 j m' p hj hm']
    | free =>
      simp only [rd_inside, rd_waiting, rd_idle, wr_inside, wr_waiting, wr_idle, hm, reduceCtorEq, if_false] at a1 a2 b2
      refine ⟨?_, ?_, w3, w4⟩
      · show c.readers = _; dsimp only [Conf.put, Conf.release]; omega
      · show (if c.pending then 1 else 0) = _; dsimp only [Conf.put, Conf.release]; omega

theorem Locked.steps {c c' : Conf n μ S R} (hs : Steps mode body c c') (h : Locked mode c) : Locked mode c' := by
  induction hs with
  | refl => exact h
  | tail _ h2 ih => exact ih.step h2

/-- While a writer is inside, everyone else inside came without lock. -/
theorem Locked.alone {c : Conf n μ S R} (h : Locked mode c) {i j : Fin n} {m m' : μ} (hi : c.Inside i m)
    (hm : mode m = .write) (hj : c.Inside j m') (hne : j ≠ i) : mode m' = .free := by
  obtain ⟨p, hi⟩ := hi
  obtain ⟨q, hj⟩ := hj
  cases hm' : mode m' with
  | free => rfl
  | write =>
    have := sum_two (f := wr mode) (t := c.thr) hne
    rw [hi, hj, ← h.writers] at this
    simp only [wr_inside, hm, hm', if_true] at this
    split at this <;> omega
  | read =>
    have := sum_pos (f := rd mode) (t := c.thr) j
    rw [hj, ← h.readers, h.excl i m p hi hm] at this
    simp [rd_inside, hm'] at this

/-- As long as calls are left, someone can move. -/
theorem Locked.progress {c : Conf n μ S R} (h : Locked mode c) :
    c.Finished ∨ ∃ c', Step mode body c c' := by
  by_cases hin : ∃ i m p, (c.thr i).phase = .inside m p
  · obtain ⟨i, m, p, e⟩ := hin
    right
    rcases ht : c.thr i with ⟨rest, ph, res⟩
    rw [ht] at e
    dsimp only at e
    subst e
    cases p with
    | done r => exact ⟨_, .leave i ht⟩
    | act f k => exact ⟨_, .act i ht⟩
  · have hr : c.readers = 0 := by
      rw [h.readers]
      refine Finset.sum_eq_zero fun i _ => ?_
      cases e : (c.thr i).phase with
      | inside m p => exact absurd ⟨i, m, p, e⟩ hin
      | _ => rfl
    by_cases hw : ∃ i m, (c.thr i).phase = .waiting m
    · obtain ⟨i, m, e⟩ := hw
      right
      rcases ht : c.thr i with ⟨rest, ph, res⟩
      rw [ht] at e
      dsimp only at e
      subst e
      exact ⟨_, .lock i ht hr⟩
    · have hidle : ∀ i, (c.thr i).phase = .idle := by
        intro i
        cases e : (c.thr i).phase with
        | inside m p => exact absurd ⟨i, m, p, e⟩ hin
        | waiting m => exact absurd ⟨i, m, e⟩ hw
        | idle => rfl
      have hp : c.pending = false := by
        have := h.writers
        rw [Finset.sum_eq_zero (fun i _ => by rw [hidle i]; rfl)] at this
        revert this
        cases c.pending <;> simp
      by_cases hf : ∀ i, (c.thr i).todo = []
      · exact Or.inl fun i => ⟨hf i, hidle i⟩
      · push Not at hf
        obtain ⟨i, hi⟩ := hf
        right
        rcases ht : c.thr i with ⟨rest, ph, res⟩
        have e := hidle i
        rw [ht] at e hi
        dsimp only at e hi
        subst e
        cases rest with
        | nil => exact absurd rfl hi
        | cons m rest =>
          cases hm : mode m with
          | write => exact ⟨_, .announce i ht hm hp⟩
          | read => exact ⟨_, .rlock i ht hm hp⟩
          | free => exact ⟨_, .enter i ht hm⟩

end Mutex
end GB
