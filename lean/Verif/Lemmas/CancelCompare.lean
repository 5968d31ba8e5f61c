import Verif.Lemmas.Replay
import Verif.Lemmas.Rune
import Verif.Lemmas.EWise
import Verif.Lemmas.Meth

/-!
# The loops of `Equal` and `String` under a context that may be cancelled
-/

namespace GB

set_option linter.unusedSectionVars false
set_option linter.unusedSimpArgs false

open M Ops

variable {T : Type} [GoNum T] [GoStore T]

/-- The looks that are left after `n` of them. -/
def looksAfter (n : Nat) : Option Nat → Option Nat
  | none => none
  | some k => some (k - n)

/-- There are `n` looks before the context is found cancelled. -/
def enough (n : Nat) : Option Nat → Bool
  | none => true
  | some k => decide (n ≤ k)

theorem looksAfter_tick (n : Nat) (c : Option Nat) : looksAfter n (tick c) = looksAfter (n + 1) c := by
  rcases c with _ | _ | k <;> simp [looksAfter, tick]

theorem enough_tick (n : Nat) {c : Option Nat} (h : c ≠ some 0) : enough n (tick c) = enough (n + 1) c := by
  rcases c with _ | _ | k
  · rfl
  · exact absurd rfl h
  · simp [enough, tick]

/-- The loop of `Equal`: it comes to its end exactly if all cells agree and the context lasts. -/
theorem equalLoop_ok {over source : Ref} : ∀ (es : List (Nat × Nat × T)) (g : Nat) (it : Mat.Iter) (w : World T),
    Yields Mat.Iter.hasNext (w.heap over).step it es → es.length ≤ g → (w.heap source).Inv →
    (∀ e ∈ es, e.1 < (w.heap source).rows ∧ e.2.1 < (w.heap source).cols) →
    ∃ c, loopIter over (some false) (fun r c sV => do
          let mV ← at' source r c
          if !GoNum.geq sV mV then pure (some false) else pure none) g it w =
      .ok (if (es.all fun e => GoNum.geq e.2.2 ((w.heap source).val e.1 e.2.1)) && enough es.length w.cancel then none
        else some false) { w with cancel := c } ∧ (w.cancel = none → c = none) ∧
      ((es.all fun e => GoNum.geq e.2.2 ((w.heap source).val e.1 e.2.1)) = true → c = looksAfter es.length w.cancel) := by
  intro es
  induction es with
  | nil =>
    intro g it w hy _ _ _
    have hn : it.hasNext = false := hy
    have he : enough 0 w.cancel = true := by cases w.cancel <;> simp [enough]
    refine ⟨w.cancel, ?_, id, fun _ => by cases w.cancel <;> simp [looksAfter]⟩
    cases g <;> · unfold loopIter; simp [hn, he]
  | cons e es ih =>
    intro g it w hy hg hI hr
    obtain ⟨hn, it', h1, h2⟩ := hy
    cases g with
    | zero => simp at hg
    | succ g =>
      by_cases hc : w.cancel = some 0
      · refine ⟨w.cancel, ?_, id, fun _ => by simp [looksAfter, hc]⟩
        have : enough (e :: es).length w.cancel = false := by rw [hc]; simp [enough]
        rw [this, Bool.and_false]
        simp only [Bool.false_eq_true, if_false]
        unfold loopIter
        rw [if_pos hn, bind_ok (poll_stop hc)]
        rfl
      · have hr0 := hr e List.mem_cons_self
        have hat : at' source e.1 e.2.1 { w with cancel := tick w.cancel } = _ :=
          M.at_ok (w := { w with cancel := tick w.cancel }) hI hr0.1 hr0.2
        have hst : ofObj over (fun m => m.step it) { w with cancel := tick w.cancel } =
              .ok (it', e) { w with cancel := tick w.cancel } := ofObj_ok h1
        cases hq : GoNum.geq e.2.2 ((w.heap source).val e.1 e.2.1) with
        | false =>
          refine ⟨tick w.cancel, ?_, fun h => by simp [h, tick], fun h => by simp [hq] at h⟩
          simp only [List.all_cons, hq, Bool.false_and, Bool.false_eq_true, if_false]
          unfold loopIter
          rw [if_pos hn, bind_ok (poll_go hc)]
          simp only [Bool.false_eq_true, if_false]
          rw [bind_ok hst]
          simp only [bind_apply, hat, hq, Bool.not_false, if_true]
          rfl
        | true =>
          obtain ⟨c, e1, e2, e3⟩ := ih g it' { w with cancel := tick w.cancel } h2 (by simpa using hg) hI
            (fun e he => hr e (List.mem_cons_of_mem _ he))
          refine ⟨c, ?_, fun h => e2 (by simp [h, tick]), fun h => ?_⟩
          · simp only [List.all_cons, hq, Bool.true_and, List.length_cons]
            rw [← enough_tick _ hc]
            refine Eq.trans ?_ e1
            conv => lhs; unfold loopIter
            rw [if_pos hn, bind_ok (poll_go hc)]
            simp only [Bool.false_eq_true, if_false]
            rw [bind_ok hst]
            simp only [bind_apply, hat, hq, Bool.not_true, Bool.false_eq_true, if_false]
            rfl
          · simp only [List.all_cons, hq, Bool.true_and] at h
            rw [e3 h, looksAfter_tick, List.length_cons]

/-- What `Equal` answers under a context that is never cancelled. -/
def Same? (w : World T) (s m : Ref) : Bool :=
  decide ((w.heap s).cols = (w.heap m).cols) && decide ((w.heap s).rows = (w.heap m).rows) &&
  !(((decide ((w.heap s).typeName ∈ w.reg) && decide ((w.heap m).typeName ∈ w.reg)) ||
        (!decide ((w.heap s).typeName ∈ w.reg) && !decide ((w.heap m).typeName ∈ w.reg))) &&
        ((w.heap s).nvalues != (w.heap m).nvalues)) &&
  (w.heap (addOver w s m)).entries.all
    fun e => GoNum.geq e.2.2 ((w.heap (addSource w s m)).val e.1 e.2.1)

theorem equal_cancel {w : World T} {s m : Ref} (hs : (w.heap s).Inv) (hm : (w.heap m).Inv)
    (hgs : (w.heap s).nvalues ≤ w.gas) (hgm : (w.heap m).nvalues ≤ w.gas) :
    ∃ c, Ops.equal s m w = .ok (Same? w s m && enough (w.heap (addOver w s m)).nvalues w.cancel) { w with cancel := c } ∧
      (w.cancel = none → c = none) ∧
      (Same? w s m = true → c = looksAfter (w.heap (addOver w s m)).nvalues w.cancel) := by
  unfold Ops.equal Same?
  simp only [bind_apply, colsOf_apply, rowsOf_apply]
  by_cases h1 : (w.heap s).cols = (w.heap m).cols
  swap
  · exact ⟨w.cancel, by simp [h1], id, by simp [h1]⟩
  by_cases h2 : (w.heap s).rows = (w.heap m).rows
  swap
  · exact ⟨w.cancel, by simp [h1, h2, bind_apply], id, by simp [h2]⟩
  simp only [h1, h2, ne_eq, not_true, if_false, bind_apply, rowsOf_apply, isSparse_apply, valuesOf_apply, decide_true,
    Bool.true_and]
  split
  · rename_i h; rw [h]; exact ⟨w.cancel, by simp, id, by simp⟩
  · rename_i h
    rw [Bool.not_eq_true] at h
    rw [h]
    have hpair : (if decide ((w.heap s).typeName ∈ w.reg) = true then (s, m) else (m, s)) =
        (addOver w s m, addSource w s m) := by
      unfold addOver addSource
      by_cases hsp : (w.heap s).typeName ∈ w.reg <;> simp [hsp]
    rw [hpair]
    have hO : (w.heap (addOver w s m)).Inv ∧ (w.heap (addOver w s m)).nvalues ≤ w.gas ∧
        (w.heap (addSource w s m)).Inv ∧ (w.heap (addOver w s m)).rows = (w.heap (addSource w s m)).rows ∧
        (w.heap (addOver w s m)).cols = (w.heap (addSource w s m)).cols := by
      unfold addOver addSource; split
      · exact ⟨hs, hgs, hm, h2, h1⟩
      · exact ⟨hm, hgm, hs, h2.symm, h1.symm⟩
    obtain ⟨hO, hg, hS, hr, hcl⟩ := hO
    obtain ⟨c, e1, e2, e3⟩ := equalLoop_ok (source := addSource w s m) _ w.gas _ w hO.delivers
      (by rw [hO.entries_length]; exact hg) hS (fun e he => by
        obtain ⟨a, b⟩ := hO.entries_in he
        exact ⟨hr ▸ a, hcl ▸ b⟩)
    rw [hO.entries_length] at e1 e3
    refine ⟨c, ?_, e2, fun h => e3 (by simpa using h)⟩
    simp only [forEach_eq, bind_apply, Bool.not_false, Bool.true_and]
    erw [e1]
    simp only
    split
    · rename_i h
      rw [h]; rfl
    · rename_i h
      rw [Bool.not_eq_true] at h
      rw [h]; rfl

namespace Runes

/-- The loop of `String` exactly. -/
theorem stringLoop_cancel {p : Ref} : ∀ (es : List (Nat × Nat × Rune)) (g : Nat) (it : Mat.Iter) (b : List Nat)
    (w : World Rune) (k : Nat), w.cancel = some k →
    Yields Mat.Iter.hasNext (w.heap p).step it es → es.length ≤ g →
    stringLoop p g it b w = .ok (b ++ (es.take k).flatMap (fun e => e.2.2.bytes)) { w with cancel := some (k - es.length) } := by
  intro es
  induction es with
  | nil =>
    intro g it b w k hk hy _
    have hn : it.hasNext = false := hy
    have : ({ w with cancel := some (k - ([] : List (Nat × Nat × Rune)).length) } : World Rune) = w := by
      simp [← hk]
    rw [this]
    cases g <;> · unfold stringLoop; simp [hn]
  | cons e es ih =>
    intro g it b w k hk hy hg
    obtain ⟨hn, it', h1, h2⟩ := hy
    cases g with
    | zero => simp at hg
    | succ g =>
      cases k with
      | zero =>
        have : ({ w with cancel := some (0 - (e :: es).length) } : World Rune) = w := by simp [← hk]
        rw [this]
        unfold stringLoop
        rw [if_pos hn, bind_ok (poll_stop hk)]
        simp
      | succ k =>
        have hc : w.cancel ≠ some 0 := by rw [hk]; simp
        have ht : tick w.cancel = some k := by rw [hk]; rfl
        have := ih g it' (b ++ e.2.2.bytes) { w with cancel := some k } k rfl h2 (by simpa using hg)
        unfold stringLoop
        rw [if_pos hn, bind_ok (poll_go hc), ht]
        have hst : ofObj p (fun m => m.step it) { w with cancel := some k } =
              .ok (it', e) { w with cancel := some k } := ofObj_ok h1
        simp only [Bool.false_eq_true, if_false]
        rw [bind_ok hst]
        refine this.trans ?_
        simp

end Runes
end GB
