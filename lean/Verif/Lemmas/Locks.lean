import Verif.Model.Locks
import Mathlib.Algebra.BigOperators.Fin
import Mathlib.Algebra.BigOperators.Group.Finset.Piecewise
import Mathlib.Order.WellFounded
import Mathlib.Data.Fintype.Order
import Mathlib.Logic.Relation

/-!
# Invariants of several locks
-/

namespace GB
namespace Locks

variable {n k : Nat}

/-! ## Counting -/

/-- How often a goroutine holds `x` for reading. -/
def reads (x : Fin k) (t : Thread k) : Nat := (t.stack.filter (fun f => f.1 = false ∧ f.2.1 = x)).length

/-- How often a goroutine holds `x` for writing. -/
def writes (x : Fin k) (t : Thread k) : Nat := (t.stack.filter (fun f => f.1 = true ∧ f.2.1 = x)).length

/-- Whether it waits for `x`. -/
def waits (x : Fin k) (t : Thread k) : Nat :=
  match t.pos with
  | .waiting y _ _ => if y = x then 1 else 0
  | .ready _ => 0

/-- The counters are right. -/
structure Right (c : Conf n k) : Prop where
  readers : ∀ x, c.readers x = ∑ i, reads x (c.thr i)
  pending : ∀ x, (if c.pending x then 1 else 0) = ∑ i, (writes x (c.thr i) + waits x (c.thr i))
  excl : ∀ x, 0 < ∑ i, writes x (c.thr i) → c.readers x = 0

theorem sum_put (c : Conf n k) (i : Fin n) (t : Thread k) (g : Thread k → Nat) :
    (∑ j, g ((c.put i t).thr j)) + g (c.thr i) = (∑ j, g (c.thr j)) + g t := by
  have h1 := Finset.sum_erase_add (Finset.univ) (fun j => g ((c.put i t).thr j)) (Finset.mem_univ i)
  have h2 := Finset.sum_erase_add (Finset.univ) (fun j => g (c.thr j)) (Finset.mem_univ i)
  have h3 : ∑ j ∈ Finset.univ.erase i, g ((c.put i t).thr j) = ∑ j ∈ Finset.univ.erase i, g (c.thr j) :=
    Finset.sum_congr rfl (fun j hj => by
      show g (Function.update c.thr i t j) = _
      rw [Function.update_of_ne (Finset.ne_of_mem_erase hj)])
  have h4 : g ((c.put i t).thr i) = g t := by
    show g (Function.update c.thr i t i) = _
    rw [Function.update_self]
  rw [h4] at h1; omega

theorem Right.init (progs : Fin n → Prog k) : Right (Conf.init progs) where
  readers x := by simp [Conf.init, reads]
  pending x := by simp [Conf.init, writes, waits]
  excl x h := rfl

theorem Right.step {c c' : Conf n k} (hc : Right c) (h : Step c c') : Right c' := by
  cases h with
  | @rlock i x p r st ht hp =>
    have key : ∀ y, (∑ j, reads y ((c.put i ⟨.ready p, (false, x, r) :: st⟩).thr j)) =
        (∑ j, reads y (c.thr j)) + if y = x then 1 else 0 := by
      intro y
      have := sum_put c i ⟨.ready p, (false, x, r) :: st⟩ (reads y)
      rw [ht] at this
      by_cases e : y = x
      · subst e; simp [reads] at this ⊢; omega
      · have e' : ¬ x = y := fun h => e h.symm
        simp [reads, e, e'] at this ⊢; omega
    have keyw : ∀ y, (∑ j, writes y ((c.put i ⟨.ready p, (false, x, r) :: st⟩).thr j)) = ∑ j, writes y (c.thr j) := by
      intro y
      have := sum_put c i ⟨.ready p, (false, x, r) :: st⟩ (writes y)
      rw [ht] at this
      simp [writes] at this ⊢; omega
    have keyp : ∀ y, (∑ j, (writes y ((c.put i ⟨.ready p, (false, x, r) :: st⟩).thr j) +
        waits y ((c.put i ⟨.ready p, (false, x, r) :: st⟩).thr j))) = ∑ j, (writes y (c.thr j) + waits y (c.thr j)) := by
      intro y
      have := sum_put c i ⟨.ready p, (false, x, r) :: st⟩ (fun t => writes y t + waits y t)
      rw [ht] at this
      simp [writes, waits] at this ⊢; omega
    refine ⟨fun y => ?_, fun y => ?_, fun y hy => ?_⟩
    · show Function.update c.readers x _ y = ∑ j, reads y ((c.put i _).thr j)
      rw [key, ← hc.readers]
      by_cases e : y = x
      · subst e; simp
      · simp [e, Function.update_of_ne]
    · exact (hc.pending y).trans (keyp y).symm
    · have hy' : 0 < ∑ j, writes y (c.thr j) := by rw [← keyw]; exact hy
      show Function.update c.readers x _ y = 0
      by_cases e : y = x
      · subst e
        have := hc.pending y
        rw [hp, Finset.sum_add_distrib] at this
        simp only [Bool.false_eq_true, if_false] at this; omega
      · rw [Function.update_of_ne e]; exact hc.excl y hy'
  | @announce i x p r st ht hp =>
    have key : ∀ y, (∑ j, reads y ((c.put i ⟨.waiting x p r, st⟩).thr j)) = (∑ j, reads y (c.thr j)) := by
      intro y
      have := sum_put c i ⟨.waiting x p r, st⟩ (reads y)
      rw [ht] at this
      simp [reads] at this ⊢; omega
    have keyw : ∀ y, (∑ j, writes y ((c.put i ⟨.waiting x p r, st⟩).thr j)) = ∑ j, writes y (c.thr j) := by
      intro y
      have := sum_put c i ⟨.waiting x p r, st⟩ (writes y)
      rw [ht] at this
      simp [writes] at this ⊢; omega
    have keyp : ∀ y, (∑ j, (writes y ((c.put i ⟨.waiting x p r, st⟩).thr j) +
        waits y ((c.put i ⟨.waiting x p r, st⟩).thr j))) =
        (∑ j, (writes y (c.thr j) + waits y (c.thr j))) + if y = x then 1 else 0 := by
      intro y
      have := sum_put c i ⟨.waiting x p r, st⟩ (fun t => writes y t + waits y t)
      rw [ht] at this
      by_cases e : y = x
      · subst e; simp [writes, waits] at this ⊢; omega
      · have e' : ¬ x = y := fun h => e h.symm
        simp [writes, waits, e, e'] at this ⊢; omega
    refine ⟨fun y => (hc.readers y).trans (key y).symm, fun y => ?_, fun y hy => ?_⟩
    · show (if Function.update c.pending x true y then 1 else 0) = ∑ j, (writes y ((c.put i _).thr j) + waits y ((c.put i _).thr j))
      rw [keyp, ← hc.pending]
      by_cases e : y = x
      · subst e; simp [hp]
      · simp [e, Function.update_of_ne]
    · exact hc.excl y (by rw [← keyw]; exact hy)
  | @lock i x p r st ht hp =>
    have key : ∀ y, (∑ j, reads y ((c.put i ⟨.ready p, (true, x, r) :: st⟩).thr j)) = (∑ j, reads y (c.thr j)) := by
      intro y
      have := sum_put c i ⟨.ready p, (true, x, r) :: st⟩ (reads y)
      rw [ht] at this
      simp [reads] at this ⊢; omega
    have keyw : ∀ y, y ≠ x → (∑ j, writes y ((c.put i ⟨.ready p, (true, x, r) :: st⟩).thr j)) = ∑ j, writes y (c.thr j) := by
      intro y e
      have := sum_put c i ⟨.ready p, (true, x, r) :: st⟩ (writes y)
      rw [ht] at this
      have e' : ¬ x = y := fun h => e h.symm
      simp [writes, e'] at this ⊢; omega
    have keyp : ∀ y, (∑ j, (writes y ((c.put i ⟨.ready p, (true, x, r) :: st⟩).thr j) +
        waits y ((c.put i ⟨.ready p, (true, x, r) :: st⟩).thr j))) =
        (∑ j, (writes y (c.thr j) + waits y (c.thr j))) := by
      intro y
      have := sum_put c i ⟨.ready p, (true, x, r) :: st⟩ (fun t => writes y t + waits y t)
      rw [ht] at this
      by_cases e : y = x
      · subst e; simp [writes, waits] at this ⊢; omega
      · have e' : ¬ x = y := fun h => e h.symm
        simp [writes, waits, e'] at this ⊢; omega
    refine ⟨fun y => (hc.readers y).trans (key y).symm, fun y => (hc.pending y).trans (keyp y).symm, fun y hy => ?_⟩
    by_cases e : y = x
    · subst e; exact hp
    · exact hc.excl y (by rw [← keyw y e]; exact hy)
  | @runlock i x r st ht =>
    have key : ∀ y, (∑ j, reads y ((c.put i ⟨.ready r, st⟩).thr j)) + (if y = x then 1 else 0) =
        (∑ j, reads y (c.thr j)) := by
      intro y
      have := sum_put c i ⟨.ready r, st⟩ (reads y)
      rw [ht] at this
      by_cases e : y = x
      · subst e; simp [reads] at this ⊢; omega
      · have e' : ¬ x = y := fun h => e h.symm
        simp [reads, e, e'] at this ⊢; omega
    have keyw : ∀ y, (∑ j, writes y ((c.put i ⟨.ready r, st⟩).thr j)) = ∑ j, writes y (c.thr j) := by
      intro y
      have := sum_put c i ⟨.ready r, st⟩ (writes y)
      rw [ht] at this
      simp [writes] at this ⊢; omega
    have keyp : ∀ y, (∑ j, (writes y ((c.put i ⟨.ready r, st⟩).thr j) +
        waits y ((c.put i ⟨.ready r, st⟩).thr j))) = ∑ j, (writes y (c.thr j) + waits y (c.thr j)) := by
      intro y
      have := sum_put c i ⟨.ready r, st⟩ (fun t => writes y t + waits y t)
      rw [ht] at this
      simp [writes, waits] at this ⊢; omega
    refine ⟨fun y => ?_, fun y => (hc.pending y).trans (keyp y).symm, fun y hy => ?_⟩
    · show Function.update c.readers x _ y = ∑ j, reads y ((c.put i _).thr j)
      have h1 := key y
      rw [← hc.readers] at h1
      by_cases e : y = x
      · subst e; simp at h1 ⊢; omega
      · simp [e, Function.update_of_ne] at h1 ⊢; omega
    · have hy' := hc.excl y (by rw [← keyw]; exact hy)
      show Function.update c.readers x _ y = 0
      by_cases e : y = x
      · subst e; simp [hy']
      · rw [Function.update_of_ne e]; exact hy'
  | @unlock i x r st ht =>
    have key : ∀ y, (∑ j, reads y ((c.put i ⟨.ready r, st⟩).thr j)) = (∑ j, reads y (c.thr j)) := by
      intro y
      have := sum_put c i ⟨.ready r, st⟩ (reads y)
      rw [ht] at this
      simp [reads] at this ⊢; omega
    have keyw : ∀ y, (∑ j, writes y ((c.put i ⟨.ready r, st⟩).thr j)) ≤ ∑ j, writes y (c.thr j) := by
      intro y
      have := sum_put c i ⟨.ready r, st⟩ (writes y)
      rw [ht] at this
      by_cases e : y = x
      · subst e; simp [writes] at this ⊢; omega
      · have e' : ¬ x = y := fun h => e h.symm
        simp [writes, e'] at this ⊢; omega
    have keyp : ∀ y, (∑ j, (writes y ((c.put i ⟨.ready r, st⟩).thr j) +
        waits y ((c.put i ⟨.ready r, st⟩).thr j))) + (if y = x then 1 else 0) =
        ∑ j, (writes y (c.thr j) + waits y (c.thr j)) := by
      intro y
      have := sum_put c i ⟨.ready r, st⟩ (fun t => writes y t + waits y t)
      rw [ht] at this
      by_cases e : y = x
      · subst e; simp [writes, waits] at this ⊢; omega
      · have e' : ¬ x = y := fun h => e h.symm
        simp [writes, waits, e, e'] at this ⊢; omega
    refine ⟨fun y => (hc.readers y).trans (key y).symm, fun y => ?_, fun y hy => hc.excl y (hy.trans_le (keyw y))⟩
    show (if Function.update c.pending x false y then 1 else 0) = ∑ j, (writes y ((c.put i _).thr j) + waits y ((c.put i _).thr j))
    have h1 := keyp y
    rw [← hc.pending] at h1
    by_cases e : y = x
    · subst e
      have : (if c.pending y = true then 1 else 0) ≤ 1 := by split <;> omega
      simp at h1 ⊢; omega
    · simp [e, Function.update_of_ne] at h1 ⊢; omega

theorem Right.steps {c c' : Conf n k} (hc : Right c) (h : Steps c c') : Right c' := by
  induction h with
  | refl => exact hc
  | tail _ hs ih => exact ih.step hs

end Locks
end GB
