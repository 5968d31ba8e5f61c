import Verif.Props.Amid
import Verif.Lemmas.EWise

/-!
# The two passes of the element-wise sum under a changing mask
-/

namespace GB

set_option linter.unusedSectionVars false

section general

variable {T : Type} [GoNum T] [GoStore T] {q out : Ref} {μ : Nat → Mat T} {w : World T}

/-- One pass: a fixed mask, each cell of which the mask held between the beginning and the end of the pass. -/
theorem Prog.Does.fixed {α : Type} {x : Prog T α} {P : Nat → Nat → Prop} {I : α → World T → Prop} {t : Nat}
    (hμ : Shared μ) (h : Prog.Does q μ P I x t w) :
    t ≤ (x.amid q μ t w).2 ∧
    ∃ m : Mat T, Reach m ∧ m.kind = .dense ∧ m.rows = (μ 0).rows ∧ m.cols = (μ 0).cols ∧
      (∀ i j : Nat, i < (μ 0).rows → j < (μ 0).cols → ∃ t', t ≤ t' ∧ t' ≤ (x.amid q μ t w).2 ∧
        m.val i j = (μ t').val i j) ∧
      x.run (w.with q m) = (x.amid q μ t w).1.with q m := by
  classical
  obtain ⟨L, h2, h3, h3', h4, -⟩ := h
  let at' : Nat → Nat → Nat := fun i j => if h : ∃ e ∈ L, e.1 = i ∧ e.2.1 = j then h.choose.2.2 else t
  have hat : ∀ e ∈ L, at' e.1 e.2.1 = e.2.2 := by
    intro e he
    have hx : ∃ e' ∈ L, e'.1 = e.1 ∧ e'.2.1 = e.2.1 := ⟨e, he, rfl, rfl⟩
    have hs := hx.choose_spec
    have : hx.choose = e := List.inj_on_of_nodup_map h2 hs.1 he (by simp [Prog.cell, hs.2])
    simp only [at', dif_pos hx, this]
  have hle : ∀ i j, t ≤ at' i j ∧ at' i j ≤ (x.amid q μ t w).2 := by
    intro i j
    by_cases hx : ∃ e ∈ L, e.1 = i ∧ e.2.1 = j
    · simp only [at', dif_pos hx]
      exact ⟨(h3 _ hx.choose_spec.1).2.1, (h3 _ hx.choose_spec.1).2.2.le⟩
    · simp only [at', dif_neg hx]
      exact ⟨le_refl _, h3'⟩
  obtain ⟨m, k1, k2, k3, k4, k5⟩ := exists_dense (μ 0).rows (μ 0).cols (fun i j => (μ (at' i j)).val i j)
  refine ⟨h3', m, k1, k2, k3, k4, fun i j hi hj => ⟨at' i j, (hle i j).1, (hle i j).2, k5 i j hi hj⟩, ?_⟩
  refine h4 m k3 k4 (fun e he => ?_)
  unfold Prog.Agree
  rcases Mat.element_cases k1 (.inr (.inr k2)) e.1 e.2.1 with ⟨a1, a2, a3⟩ | ⟨a1, a2⟩ <;>
    rcases Mat.element_cases (hμ.reach e.2.2) (hμ.matrix e.2.2) e.1 e.2.1 with ⟨b1, b2, b3⟩ | ⟨b1, b2⟩
  · rw [k5 _ _ (k3 ▸ a1) (k4 ▸ a2), hat e he] at a3
    exact .inl ⟨_, _, a3, b3⟩
  · rw [k3, k4, ← (hμ.shape e.2.2).1, ← (hμ.shape e.2.2).2] at *
    exact absurd ⟨a1, a2⟩ b1
  · rw [k3, k4, ← (hμ.shape e.2.2).1, ← (hμ.shape e.2.2).2] at a1
    exact absurd ⟨b1, b2⟩ a1
  · exact .inr ⟨a2, b2⟩

namespace Prog

theorem amid_rowsOf {p : Ref} (hp : p ≠ q) (t : Nat) : (rowsOf p).amid q μ t w = (.ok (w.heap p).rows w, t + 1) := by
  simp only [rowsOf, ofObj, amid, hp, if_false, M.withObj]
  show (Res.ok _ { w with heap := Function.update w.heap p (w.heap p) }, t + 1) = _
  rw [Function.update_eq_self]

theorem amid_colsOf {p : Ref} (hp : p ≠ q) (t : Nat) : (colsOf p).amid q μ t w = (.ok (w.heap p).cols w, t + 1) := by
  simp only [colsOf, ofObj, amid, hp, if_false, M.withObj]
  show (Res.ok _ { w with heap := Function.update w.heap p (w.heap p) }, t + 1) = _
  rw [Function.update_eq_self]

theorem amid_maskRows (t : Nat) : (rowsOf q).amid q μ t w = (.ok (μ t).rows w, t + 1) := by
  simp only [rowsOf, ofObj, amid, if_true]
  rfl

theorem amid_maskCols (t : Nat) : (colsOf q).amid q μ t w = (.ok (μ t).cols w, t + 1) := by
  simp only [colsOf, ofObj, amid, if_true]
  rfl

theorem amid_guardMatrix {s m : Ref} (hs : s ≠ q) (hm : m ≠ q) (he : (w.heap m).rows = (w.heap s).cols) (x : Prog T Unit)
    (t : Nat) : (guardMatrix s m x).amid q μ t w = x.amid q μ (t + 2) w := by
  unfold guardMatrix
  rw [amid_bind, amid_rowsOf hm]
  simp only
  rw [amid_bind, amid_colsOf hs]
  simp only [he, ne_eq, not_true, if_false]

theorem amid_guardVector {s m : Ref} (hs : s ≠ q) (hm : m ≠ q) (he : (w.heap m).rows = (w.heap s).rows) (x : Prog T Unit)
    (t : Nat) : (guardVector s m x).amid q μ t w = x.amid q μ (t + 2) w := by
  unfold guardVector
  rw [amid_bind, amid_rowsOf hm]
  simp only
  rw [amid_bind, amid_rowsOf hs]
  simp only [he, ne_eq, not_true, if_false]

theorem amid_check (ho : out ≠ q) {t : Nat} (h1 : (μ t).rows = (w.heap out).rows) (h2 : (μ (t + 2)).cols = (w.heap out).cols) :
    (check (.ref q) out).amid q μ t w = (.ok () w, t + 4) := by
  unfold check maskRows maskCols
  rw [amid_bind, amid_maskRows]
  simp only
  rw [amid_bind, amid_rowsOf ho]
  simp only [h1, ne_eq, not_true, if_false]
  show (colsOf q >>= _).amid q μ (t + 2) w = _
  rw [amid_bind, amid_maskCols]
  simp only
  rw [amid_bind, amid_colsOf ho]
  simp only [h2, not_true, if_false]
  rfl

end Prog

/-- An outcome that changes the output only, with and without another object in the place of the mask. -/
theorem Res.of_with {α : Type} {m m' : Mat T} {res : Res T α} {a : α} {c : Option Nat} (ho : out ≠ q)
    (hheap : res.world.heap q = w.heap q) (h : res.with q m = .ok a ((w.with q m).upd out m' c)) :
    res = .ok a (w.upd out m' c) := by
  cases res with
  | ok b w1 =>
    simp only [Res.with, Res.ok.injEq] at h
    obtain ⟨h0, b1⟩ := h
    congr 1
    obtain ⟨h', n', c', r', g'⟩ := w1
    simp only [World.with, World.upd, World.mk.injEq] at b1 ⊢
    obtain ⟨e1, e2, e3, e4, e5⟩ := b1
    refine ⟨?_, e2, e3, e4, e5⟩
    funext p
    by_cases hp : p = q
    · rw [hp, Function.update_of_ne ho.symm]
      exact hheap
    · have := congrFun e1 p
      rw [Function.update_of_ne hp] at this
      rw [this]
      by_cases hpo : p = out
      · rw [hpo, Function.update_self, Function.update_self]
      · rw [Function.update_of_ne hpo, Function.update_of_ne hpo, Function.update_of_ne hp]
  | panic w1 => simp [Res.with] at h
  | hang w1 => simp [Res.with] at h

/-- One pass of the element-wise sum: about each cell the mask is asked at one moment of the pass. -/
theorem Ops.eAddPass (hμ : Shared μ) {src : Ref} (hsq : src ≠ q) (hoq : out ≠ q) (hso : src ≠ out)
    (hs : (w.heap src).WF) (hout : (w.heap out).WF) (hk : (w.heap out).kind ≠ .svec)
    (h1 : SameShape (w.heap src) (w.heap out)) (hF : (μ 0).rows = (w.heap out).rows ∧ (μ 0).cols = (w.heap out).cols)
    (hg : (w.heap src).nvalues ≤ w.gas) (hc : w.cancel = none) (t : Nat) :
    ∃ m' t', (Prog.eAddLoop w.gas src (.ref q) out).amid q μ t w = (.ok none (w.upd out m' none), t') ∧ t ≤ t' ∧ m'.WF ∧
      Mat.Same m' (w.heap out) ∧ ∀ i j, i < (w.heap out).rows → j < (w.heap out).cols → ∃ t1, t ≤ t1 ∧ t1 ≤ t' ∧
        m'.val i j = if GoNum.glt 0 ((μ t1).val i j) = false ∧ isZero ((w.heap src).val i j) = false then
          (w.heap out).keep ((w.heap src).val i j) else (w.heap out).val i j := by
  obtain ⟨hle, m, a1, a0, a2, a3, a4, a5⟩ :=
    (Prog.Does.eAddLoop (q := q) (μ := μ) (w := w) (w0 := w) (t := t) hμ.shape w.gas hsq hoq hso hs (fun p _ => rfl)).fixed hμ
  have hhs : (w.with q m).heap src = w.heap src := Function.update_of_ne hsq _ _
  have hho : (w.with q m).heap out = w.heap out := Function.update_of_ne hoq _ _
  have hhq : (w.with q m).heap q = m := Function.update_self _ _ _
  obtain ⟨x, m', c, b1, b2, b3, b4, b5, -⟩ := Ops.eAddLoop_ok (w := w.with q m) (src := src) (out := out) (mask := .ref q)
    (mask' := .ref q) (by rw [hhs]; exact hs) (by rw [hho]; exact hout) (by rw [hho]; exact hk) (by rw [hhs, hho]; exact h1)
    (by show _ ∧ _; rw [hhq, hho, a2, a3]; exact hF) (by show Mat.Inv _; rw [hhq]; exact a1.inv) (by rw [hhs]; exact hg) hso rfl
  obtain ⟨rfl, rfl⟩ := b4 hc
  have hsim : (Prog.eAddLoop w.gas src (.ref q) out).run (w.with q m) = Ops.eAddLoop src (.ref q) out (w.with q m) :=
    Prog.Sim.eAddLoop (g := w.gas) src (.ref q) out (w.with q m) rfl
  have hres := Res.of_with hoq (Prog.amid_heap _ _ _) (a5.symm.trans (hsim.trans b1))
  refine ⟨m', _, Prod.ext hres rfl, hle, b2, by rw [hho] at b3; exact b3, fun i j hi hj => ?_⟩
  obtain ⟨t1, k1, k2, k3⟩ := a4 i j (hF.1 ▸ hi) (hF.2 ▸ hj)
  refine ⟨t1, k1, k2, ?_⟩
  have := b5 rfl i j (by rw [hho]; exact hi) (by rw [hho]; exact hj)
  rw [this, hho, hhs]
  simp only [Mask.bit, hhq, k3]

end general
end GB
