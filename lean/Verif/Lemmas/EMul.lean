import Verif.Lemmas.Frame

/-!
# Element-wise multiplication, all aliasing patterns
-/

namespace GB
namespace Ops

set_option linter.unusedSectionVars false

variable {T : Type} [GoNum T] [GoStore T]

open M

/-- What `elementWiseMultiply` leaves in a cell. -/
noncomputable def eMulNew (w : World T) (s m : Ref) (mask : Mask) (out : Ref) (i j : Nat) : T := by
  classical
  exact
    if mask.bit w i j = true then (w.heap out).val i j
    else if m = out ∨ s = out then
      let over := if m = out then s else m
      if (w.heap over).Visits i j then
        (w.heap out).keep (if GoNum.geq ((w.heap over).val i j) ((w.heap out).val i j) then
          (w.heap out).val i j else 0)
      else (w.heap out).val i j
    else if (w.heap (addOver w s m)).Visits i j ∧
        GoNum.geq ((w.heap (addOver w s m)).val i j) ((w.heap (addSource w s m)).val i j) = true then
      (w.heap out).keep ((w.heap (addOver w s m)).val i j)
    else (w.heap out).val i j

theorem eMul_writes {w : World T} {s m out : Ref} {mask : Mask}
    (hs : (w.heap s).WF) (hm : (w.heap m).WF) (hout : (w.heap out).WF) (hk : (w.heap out).kind ≠ .svec)
    (h1 : SameShape (w.heap s) (w.heap out)) (h2 : SameShape (w.heap m) (w.heap out))
    (hF : mask.Fits w out) (hS : mask.Sound w)
    (hgs : (w.heap s).nvalues ≤ w.gas) (hgm : (w.heap m).nvalues ≤ w.gas)
    (hrefl : s = out → m = out → ∀ i j, i < (w.heap out).rows → j < (w.heap out).cols →
      GoNum.geq ((w.heap out).val i j) ((w.heap out).val i j) = true) :
    Writes w out (eMulNew w s m mask out) (elementWiseMultiply s m mask out w) := by
  have hrun := Mask.pre_ok (mask := mask) (out := out) (w := w) hF (fun mask => (do
    let run := fun (over : Ref) (target : Nat → Nat → T → M T Unit) => do
      let _ ← forEach over (some ()) (fun r c v => do target r c v; pure none)
      pure ()
    if m = out then run s (eMulSetSource m mask)
    else if s = out then run m (eMulSetSource s mask)
    else do
      let sp ← isSparse s
      if sp then run s (eMulTarget m out mask)
      else run m (eMulTarget s out mask) : M T Unit))
  have hrun' : elementWiseMultiply s m mask out w = _ := hrun
  rw [hrun']
  by_cases hmo : m = out
  · subst hmo
    have := eMul_inplace hs hm hk h1 hF hS hgs (fun h i j hi hj => hrefl h rfl i j hi hj)
    simp only [if_true]
    refine this.congr ?_
    intro i j hi hj
    unfold eMulNew
    by_cases hb : mask.bit w i j = true <;> by_cases hv : (w.heap s).Visits i j <;> simp [hb, hv]
  · by_cases hso : s = out
    · subst hso
      have := eMul_inplace hm hs hk h2 hF hS hgm (fun h => absurd h hmo)
      simp only [if_neg hmo, if_true]
      refine this.congr ?_
      intro i j hi hj
      unfold eMulNew
      by_cases hb : mask.bit w i j = true <;> by_cases hv : (w.heap m).Visits i j <;> simp [hb, hv, hmo]
    · simp only [if_neg hmo, if_neg hso]
      by_cases hreg : (w.heap s).typeName ∈ w.reg
      · have e1 : addOver w s m = s := if_pos hreg
        have e2 : addSource w s m = m := if_pos hreg
        have := eMul_separate (over := s) (source := m) hs hm.inv hout hk h1 h2 hF hS hgs hso
        have hsp : isSparse s w = .ok true w := by unfold isSparse; rw [decide_eq_true hreg]
        rw [bind_ok hsp]
        simp only [if_true]
        refine this.congr ?_
        intro i j hi hj
        unfold eMulNew
        rw [e1, e2]
        by_cases hb : mask.bit w i j = true <;> by_cases hv : (w.heap s).Visits i j <;> simp [hb, hv, hmo, hso]
      · have e1 : addOver w s m = m := if_neg hreg
        have e2 : addSource w s m = s := if_neg hreg
        have := eMul_separate (over := m) (source := s) hm hs.inv hout hk h2 h1 hF hS hgm hmo
        have hsp : isSparse s w = .ok false w := by unfold isSparse; rw [decide_eq_false hreg]
        rw [bind_ok hsp]
        simp only [Bool.false_eq_true, if_false]
        refine this.congr ?_
        intro i j hi hj
        unfold eMulNew
        rw [e1, e2]
        by_cases hb : mask.bit w i j = true <;> by_cases hv : (w.heap m).Visits i j <;> simp [hb, hv, hmo, hso]

end Ops
end GB
