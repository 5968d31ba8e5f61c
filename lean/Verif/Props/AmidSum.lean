import Verif.Lemmas.AmidSum

/-!
# The element-wise sum under a mask that is changed while it runs (C101)
-/

namespace GB

set_option linter.unusedSectionVars false

variable {T : Type} [GoRing T] [GoLawful T] {q out : Ref} {μ : Nat → Mat T} {w : World T}

/-- C101 for the element-wise sum into a third object, which asks about a cell up to twice: the call returns, changes
nothing but its output, and for each cell of that there are two moments of the call, one not after the other: the right
operand's value is written if the mask allows it at the second, the left one's if it allows it at the first. -/
theorem C101_sum {call : OpCall T} {s m : Ref} (hcall : call = .eAddMatrix s m ∨ call = .eAddVector s m) (hμ : Shared μ)
    (hq : s ≠ q ∧ m ≠ q ∧ out ≠ q) (ho : s ≠ out ∧ m ≠ out)
    (hs : (w.heap s).WF) (hm : (w.heap m).WF) (hout : (w.heap out).WF) (hk : (w.heap out).kind ≠ .svec)
    (hsh : call.Shapes w (.ref q) out)
    (hF : (μ 0).rows = (w.heap out).rows ∧ (μ 0).cols = (w.heap out).cols)
    (hgs : (w.heap s).nvalues ≤ w.gas) (hgm : (w.heap m).nvalues ≤ w.gas) (hc : w.cancel = none) :
    ∃ m', ((call.steps w.gas (.ref q) out).amid q μ 0 w).1 = .ok () (w.upd out m' none) ∧ m'.WF ∧
      Mat.Same m' (w.heap out) ∧ ∀ i j, i < (w.heap out).rows → j < (w.heap out).cols → ∃ t1 t2, t1 ≤ t2 ∧
        t2 ≤ ((call.steps w.gas (.ref q) out).amid q μ 0 w).2 ∧ ∃ e1 e2,
        (μ t1).element i j = .ok (e1, μ t1) ∧ (μ t2).element i j = .ok (e2, μ t2) ∧
        (e2 = false → (w.heap m).val i j ≠ 0 → m'.val i j = (w.heap m).val i j) ∧
        (e2 = true ∨ (w.heap m).val i j = 0 → e1 = false → (w.heap s).val i j ≠ 0 → m'.val i j = (w.heap s).val i j) ∧
        (e2 = true ∨ (w.heap m).val i j = 0 → e1 = true ∨ (w.heap s).val i j = 0 →
          m'.val i j = (w.heap out).val i j) := by
  have hshape : ∃ g0 : Prog T Unit → Prog T Unit, call.steps w.gas (.ref q) out = g0 (Prog.elementWiseAdd w.gas s m (.ref q) out) ∧
      (∀ x, (g0 x).amid q μ 0 w = x.amid q μ 2 w) ∧ SameShape (w.heap s) (w.heap out) ∧ SameShape (w.heap m) (w.heap out) := by
    rcases hcall with rfl | rfl
    · obtain ⟨h1, h2, h3⟩ := hsh
      exact ⟨Prog.guardMatrix s m, rfl, fun x => Prog.amid_guardMatrix hq.1 hq.2.1 h3 x 0, h1, h2⟩
    · obtain ⟨h1, h2⟩ := hsh
      exact ⟨Prog.guardVector s m, rfl, fun x => Prog.amid_guardVector hq.1 hq.2.1 (by rw [h1.1, h2.1]) x 0, h1, h2⟩
  obtain ⟨g0, e0, hg0, h1, h2⟩ := hshape
  obtain ⟨m1, t1, a1, a2, a3, a4, a5⟩ := Ops.eAddPass (w := w) (out := out) hμ hq.1 hq.2.2 ho.1 hs hout hk h1 hF hgs hc 6
  have hm1 : (w.upd out m1 none).heap m = w.heap m := Function.update_of_ne ho.2 _ _
  have ho1 : (w.upd out m1 none).heap out = m1 := Function.update_self _ _ _
  obtain ⟨m2, t2, b1, b2, b3, b4, b5⟩ := Ops.eAddPass (w := w.upd out m1 none) (out := out) hμ hq.2.1 hq.2.2 ho.2
    (by rw [hm1]; exact hm) (by rw [ho1]; exact a3) (by rw [ho1, a4.1]; exact hk)
    (by rw [hm1, ho1]; exact ⟨h2.1.trans a4.2.1.symm, h2.2.trans a4.2.2.symm⟩)
    (by rw [ho1, a4.2.1, a4.2.2]; exact hF) (by rw [hm1]; exact hgm) rfl t1
  have hrun : (call.steps w.gas (.ref q) out).amid q μ 0 w = (.ok () (w.upd out m2 none), t2) := by
    rw [e0, hg0]
    unfold Prog.elementWiseAdd
    show (Prog.check (.ref q) out >>= _).amid q μ 2 w = _
    rw [Prog.amid_bind, Prog.amid_check hq.2.2 (by rw [(hμ.shape _).1]; exact hF.1) (by rw [(hμ.shape _).2]; exact hF.2)]
    simp only [ho.1, ho.2, ne_eq, not_false_iff, if_true]
    rw [Prog.amid_bind, a1]
    simp only
    rw [Prog.amid_bind]
    have b1' : (Prog.eAddLoop w.gas m (.ref q) out).amid q μ t1 (w.upd out m1 none) = _ := b1
    rw [b1']
    show ((Res.ok () _ : Res T Unit), t2) = _
    simp only [World.upd, Function.update_idem]
  rw [hrun]
  refine ⟨m2, rfl, b3, ?_, fun i j hi hj => ?_⟩
  · rw [ho1] at b4
    exact ⟨b4.1.trans a4.1, b4.2.1.trans a4.2.1, b4.2.2.trans a4.2.2⟩
  · obtain ⟨u1, k1, k2, k3⟩ := a5 i j hi hj
    obtain ⟨u2, l1, l2, l3⟩ := b5 i j (by rw [ho1, a4.2.1]; exact hi) (by rw [ho1, a4.2.2]; exact hj)
    rw [hm1, ho1] at l3
    have hmw : ∀ t, (μ t).WF := fun t => (hμ.reach t).wf (by rcases hμ.matrix t with e | e | e <;> simp [e])
    have hel : ∀ t, (μ t).element i j = .ok (GoNum.glt 0 ((μ t).val i j), μ t) := fun t =>
      Mat.element_ok (hmw t) (by rw [(hμ.shape t).1, hF.1]; exact hi) (by rw [(hμ.shape t).2, hF.2]; exact hj)
    have hz : ∀ v : T, isZero v = false ↔ v ≠ 0 := fun v => by
      rw [Bool.eq_false_iff, ne_eq, isZero_iff]
    simp only [Mat.keep_lawful] at k3 l3
    refine ⟨u1, u2, le_trans k2 l1, l2, _, _, hel u1, hel u2, ?_, ?_, ?_⟩
    · intro e1 e2
      rw [l3, if_pos ⟨e1, (hz _).2 e2⟩]
    · intro e1 e2 e3
      rw [l3, if_neg (by rintro ⟨h, h'⟩; rcases e1 with e | e <;> simp_all), k3, if_pos ⟨e2, (hz _).2 e3⟩]
    · intro e1 e2
      rw [l3, if_neg (by rintro ⟨h, h'⟩; rcases e1 with e | e <;> simp_all), k3,
        if_neg (by rintro ⟨h, h'⟩; rcases e2 with e | e <;> simp_all)]

namespace Amid

/-- The hypotheses of `C101_sum` hold in the scene of `C101_refuted`, where the two answers differ: the left operand's 3
is written, the right operand's 5 is not. -/
example : Shared (turning 12) ∧ ((0 : Ref) ≠ 3 ∧ (1 : Ref) ≠ 3 ∧ (2 : Ref) ≠ 3) ∧ ((0 : Ref) ≠ 2 ∧ (1 : Ref) ≠ 2) ∧
    (scene.heap 0).WF ∧ (scene.heap 1).WF ∧ (scene.heap 2).WF ∧ (OpCall.eAddMatrix 0 1).Shapes scene (.ref 3) 2 ∧
    (((OpCall.eAddMatrix 0 1).steps scene.gas (.ref 3) 2).amid 3 (turning 12) 0 scene).1.world.heap 2 = one 3 := by
  refine ⟨turning_shared 12, by decide, by decide, ?_, ?_, ?_, ⟨⟨rfl, rfl⟩, ⟨rfl, rfl⟩, rfl⟩, by decide +kernel⟩
  · exact (one_reach 3).wf (by simp [one, Mat.kind])
  · exact (one_reach 5).wf (by simp [one, Mat.kind])
  · exact (one_reach 0).wf (by simp [one, Mat.kind])

end Amid
end GB
