import Verif.Lemmas.Amid
import Verif.Props.Exact
import Verif.Props.Canonical
import Verif.Lemmas.MutexTable
import Verif.Lemmas.Count

/-!
# Masks that are changed while an operator runs (C101)
-/

namespace GB

set_option linter.unusedSectionVars false

section general

variable {T : Type} [GoNum T] [GoStore T] {q out : Ref} {μ : Nat → Mat T} {w : World T}

/-- The output and the operands of the call that the operator asks its mask about each cell once: it goes through no
object twice and through none it changes. The element-wise sum goes through two operands, unless the output is one of
them. Negative, and Apply in place, must not make zeros in a compressed output. -/
def OpCall.Once (w : World T) (out : Ref) : OpCall T → Prop
  | .mxm _ _ | .mxv _ _ | .vxm _ _ => True
  | .add s m => s ≠ out ∧ m ≠ out
  | .subtract s _ => s ≠ out
  | .eMulMatrix s m | .eMulVector s m => ¬ (s = out ∧ m = out)
  | .eAddMatrix s m | .eAddVector s m => s = out ∨ m = out
  | .apply s u => s = out → ∀ v : T, Mat.Storable (w.heap out).kind v → Mat.Storable (w.heap out).kind (u v)
  | .negative _ => ∀ v : T, Mat.Storable (w.heap out).kind v → Mat.Storable (w.heap out).kind (-v)
  | .transpose s => s ≠ out

/-- The mask in the course of time: a matrix in a reachable state at every moment, always of one shape. -/
structure Shared (μ : Nat → Mat T) : Prop where
  reach : ∀ t, Reach (μ t)
  matrix : ∀ t, (μ t).kind = .csr ∨ (μ t).kind = .csc ∨ (μ t).kind = .dense
  shape : ∀ t, (μ t).rows = (μ 0).rows ∧ (μ t).cols = (μ 0).cols

open Prog in
theorem OpCall.does (call : OpCall T) (hμ : Shared μ) (hq : ∀ p, p ∈ call.operands ∨ p = out → p ≠ q)
    (hw : ∀ p, p ∈ call.operands ∨ p = out → (w.heap p).WF) (h1 : call.Once w out) (g t : Nat) :
    Does q μ (fun _ _ => True) Any (call.steps g (.ref q) out) t w := by
  obtain ⟨w0, hw0⟩ : ∃ w0, w0 = w := ⟨w, rfl⟩
  have ho := hq out (.inr rfl)
  have hwo := hw out (.inr rfl)
  have hgm : ∀ {s m : Ref} {x : Prog T Unit}, s ≠ q → m ≠ q →
      (∀ w' t, w'.heap = w.heap → Does q μ (fun _ _ => True) Any x t w') →
      Does q μ (fun _ _ => True) Any (Prog.guardMatrix s m x) t w := by
    intro s m x hs hm hx
    refine Does.seq (Does.rowsOf (K := fun w' => w'.heap = w0.heap) hm (by rw [hw0])) (fun _ w t h => ?_)
    refine Does.seq (Does.colsOf (K := fun w' => w'.heap = w0.heap) hs h) (fun _ w t h => ?_)
    exact Does.guard (fun _ => hx w t (h.trans (by rw [hw0])))
  have hgv : ∀ {s m : Ref} {x : Prog T Unit}, s ≠ q → m ≠ q →
      (∀ w' t, w'.heap = w.heap → Does q μ (fun _ _ => True) Any x t w') →
      Does q μ (fun _ _ => True) Any (Prog.guardVector s m x) t w := by
    intro s m x hs hm hx
    refine Does.seq (Does.rowsOf (K := fun w' => w'.heap = w0.heap) hm (by rw [hw0])) (fun _ w t h => ?_)
    refine Does.seq (Does.rowsOf (K := fun w' => w'.heap = w0.heap) hs h) (fun _ w t h => ?_)
    exact Does.guard (fun _ => hx w t (h.trans (by rw [hw0])))
  cases call with
  | mxm s m =>
    exact Does.multiply hμ.shape (hq s (by simp [OpCall.operands])) (hq m (by simp [OpCall.operands])) ho
  | mxv s m =>
    exact Does.multiply hμ.shape (hq s (by simp [OpCall.operands])) (hq m (by simp [OpCall.operands])) ho
  | vxm s m =>
    exact Does.multiply hμ.shape (hq m (by simp [OpCall.operands])) (hq s (by simp [OpCall.operands])) ho
  | add s m =>
    exact Does.add hμ.shape g (hq s (by simp [OpCall.operands])) (hq m (by simp [OpCall.operands])) ho h1.1 h1.2
      (hw s (by simp [OpCall.operands])) (hw m (by simp [OpCall.operands]))
  | subtract s m =>
    exact Does.subtract hμ.shape g (hq s (by simp [OpCall.operands])) (hq m (by simp [OpCall.operands])) ho h1
      (hw s (by simp [OpCall.operands]))
  | eMulMatrix s m =>
    refine hgm (hq s (by simp [OpCall.operands])) (hq m (by simp [OpCall.operands])) (fun w' t e => ?_)
    exact Does.elementWiseMultiply hμ.shape g (hq s (by simp [OpCall.operands])) (hq m (by simp [OpCall.operands])) ho h1
      (by rw [e]; exact hw s (by simp [OpCall.operands])) (by rw [e]; exact hw m (by simp [OpCall.operands]))
  | eMulVector s m =>
    refine hgv (hq s (by simp [OpCall.operands])) (hq m (by simp [OpCall.operands])) (fun w' t e => ?_)
    exact Does.elementWiseMultiply hμ.shape g (hq s (by simp [OpCall.operands])) (hq m (by simp [OpCall.operands])) ho h1
      (by rw [e]; exact hw s (by simp [OpCall.operands])) (by rw [e]; exact hw m (by simp [OpCall.operands]))
  | eAddMatrix s m =>
    refine hgm (hq s (by simp [OpCall.operands])) (hq m (by simp [OpCall.operands])) (fun w' t e => ?_)
    exact Does.elementWiseAdd hμ.shape g (hq s (by simp [OpCall.operands])) (hq m (by simp [OpCall.operands])) ho h1
      (by rw [e]; exact hw s (by simp [OpCall.operands])) (by rw [e]; exact hw m (by simp [OpCall.operands]))
  | eAddVector s m =>
    refine hgv (hq s (by simp [OpCall.operands])) (hq m (by simp [OpCall.operands])) (fun w' t e => ?_)
    exact Does.elementWiseAdd hμ.shape g (hq s (by simp [OpCall.operands])) (hq m (by simp [OpCall.operands])) ho h1
      (by rw [e]; exact hw s (by simp [OpCall.operands])) (by rw [e]; exact hw m (by simp [OpCall.operands]))
  | apply s u =>
    exact Does.apply hμ.shape g u (hq s (by simp [OpCall.operands])) ho (hw s (by simp [OpCall.operands])) h1
  | negative s => exact Does.negative hμ.shape g ho hwo h1
  | transpose s =>
    exact Does.transpose hμ.shape g (hq s (by simp [OpCall.operands])) ho h1 (hw s (by simp [OpCall.operands]))

theorem Reach.run {m m' : Mat T} (h : Reach m) : ∀ ops, m.run ops = .ok m' → Reach m' := by
  intro ops
  induction ops generalizing m with
  | nil => intro e; cases e; exact h
  | cons o os ih =>
    intro e
    unfold Mat.run at e
    cases ho : o.apply m with
    | ok m1 => rw [ho] at e; exact ih (.call o h ho) e
    | panic => rw [ho] at e; simp at e
    | hang => rw [ho] at e; simp at e

/-- There is a dense matrix for every table. -/
theorem exists_dense (r c : Nat) (f : Nat → Nat → T) : ∃ m : Mat T, Reach m ∧ m.kind = .dense ∧ m.rows = r ∧ m.cols = c ∧
    ∀ i j : Nat, i < r → j < c → m.val i j = f i j := by
  have h0 : Reach (Mat.dense (Dense.new r c : Dense T)) := .newDense r c
  have hw := h0.wf (by simp [Mat.kind])
  let es : List (Nat × Nat × T) := (cells r c).map (fun p => (p.1, p.2, f p.1 p.2))
  have hr : ∀ e ∈ es, e.1 < r ∧ e.2.1 < c := by
    intro e he
    obtain ⟨p, hp, rfl⟩ := List.mem_map.1 he
    exact mem_cells.1 hp
  have hd : Apart es := by
    refine List.pairwise_map.2 ((cells_nodup r c).imp ?_)
    rintro a b hne ⟨e1, e2⟩
    exact hne (Prod.ext e1 e2)
  obtain ⟨m, a1, a2, a3, a4⟩ := Mat.run_ok (setAll es) hw (by simp [Mat.kind]) (setAll_inRange hr) (fun i j _ _ => rfl)
  refine ⟨m, ?_, a3.1, a3.2.1, a3.2.2, fun i j hi hj => ?_⟩
  · exact h0.run _ a1
  · rw [a4 i j hi hj]
    exact specRun_setAll_hit _ hd _ (e := (i, j, f i j)) (List.mem_map.2 ⟨(i, j), mem_cells.2 ⟨hi, hj⟩, rfl⟩)

theorem Mat.element_cases {m : Mat T} (h : Reach m) (hk : m.kind = .csr ∨ m.kind = .csc ∨ m.kind = .dense) (i j : Nat) :
    (i < m.rows ∧ j < m.cols ∧ m.element i j = .ok (GoNum.glt 0 (m.val i j), m)) ∨
    (¬ (i < m.rows ∧ j < m.cols) ∧ m.element i j = .panic) := by
  have hw := h.wf (by rcases hk with e | e | e <;> simp [e])
  by_cases hij : i < m.rows ∧ j < m.cols
  · exact .inl ⟨hij.1, hij.2, Mat.element_ok hw hij.1 hij.2⟩
  · refine .inr ⟨hij, Mutex.element_panic hk ?_⟩
    rintro ⟨-, h1, -, h2⟩
    exact hij ⟨by exact_mod_cast h1, by exact_mod_cast h2⟩

theorem Prog.amid_heap {α : Type} (x : Prog T α) (t : Nat) (w : World T) :
    (x.amid q μ t w).1.world.heap q = w.heap q := by
  induction x generalizing t w with
  | ret a => rfl
  | fail => rfl
  | hang => rfl
  | poll k ih =>
    obtain ⟨b, c, h1, -⟩ := Prog.poll_with (q := q) w
    simp only [amid, h1]
    exact ih b _ _
  | names k ih => exact ih _ _ _
  | call p f k ih =>
    simp only [amid]
    by_cases hp : p = q
    · simp only [hp, if_true]
      cases f (μ t) with
      | ok b => exact ih _ _ _
      | panic => rfl
      | hang => rfl
    · simp only [hp, if_false, M.withObj]
      cases f (w.heap p) with
      | ok b =>
        refine (ih _ _ _).trans ?_
        exact Function.update_of_ne (Ne.symm hp) _ _
      | panic => rfl
      | hang => rfl

/-- The model is the ordinary one when nobody changes the mask. -/
theorem C101_quiet (call : OpCall T) (hμ : Shared μ) (hc : ∀ t, μ t = w.heap q)
    (hq : ∀ p, p ∈ call.operands ∨ p = out → p ≠ q)
    (hw : ∀ p, p ∈ call.operands ∨ p = out → (w.heap p).WF) (h1 : call.Once w out) (t : Nat) :
    ((call.steps w.gas (.ref q) out).amid q μ t w).1 = call.run (.ref q) out w := by
  obtain ⟨L, -, -, -, h4, -⟩ := call.does hμ hq hw h1 w.gas t
  have hag : ∀ e ∈ L, Prog.Agree μ (w.heap q) e := by
    intro e _
    have hr := hc e.2.2 ▸ hμ.reach e.2.2
    have hk := hc e.2.2 ▸ hμ.matrix e.2.2
    unfold Prog.Agree
    rw [hc]
    rcases Mat.element_cases hr hk e.1 e.2.1 with ⟨-, -, h⟩ | ⟨-, h⟩
    · exact .inl ⟨_, _, h, h⟩
    · exact .inr ⟨h, h⟩
  have key := h4 (w.heap q) (by rw [hc]) (by rw [hc]) hag
  have e1 : w.with q (w.heap q) = w := by simp [World.with]
  have e2 : ∀ res : Res T Unit, res.world.heap q = w.heap q → res.with q (w.heap q) = res := by
    intro res h
    cases res <;> simp only [Res.world] at h <;> simp [Res.with, World.with, ← h]
  rw [e1, e2 _ (Prog.amid_heap _ _ _), OpCall.steps_run] at key
  exact key.symm

/-- C101. While the operator runs others may change the cells of its mask in any way. The operator does what it would do
with a fixed mask, each cell of which the mask held at some moment of the call. -/
theorem C101_fixed_partial (call : OpCall T) (hμ : Shared μ) (hq : ∀ p, p ∈ call.operands ∨ p = out → p ≠ q)
    (hw : ∀ p, p ∈ call.operands ∨ p = out → (w.heap p).WF) (h1 : call.Once w out) :
    ∃ m : Mat T, Reach m ∧ m.kind = .dense ∧ m.rows = (μ 0).rows ∧ m.cols = (μ 0).cols ∧
      (∀ i j : Nat, i < (μ 0).rows → j < (μ 0).cols → ∃ t ≤ ((call.steps w.gas (.ref q) out).amid q μ 0 w).2,
        ∃ v, m.at' i j = .ok (v, m) ∧ (μ t).at' i j = .ok (v, μ t)) ∧
      call.run (.ref q) out (w.with q m) = ((call.steps w.gas (.ref q) out).amid q μ 0 w).1.with q m := by
  classical
  obtain ⟨L, h2, h3, -, h4, -⟩ := call.does hμ hq hw h1 w.gas 0
  let at' : Nat → Nat → Nat := fun i j => if h : ∃ e ∈ L, e.1 = i ∧ e.2.1 = j then h.choose.2.2 else 0
  have hat : ∀ e ∈ L, at' e.1 e.2.1 = e.2.2 := by
    intro e he
    have hx : ∃ e' ∈ L, e'.1 = e.1 ∧ e'.2.1 = e.2.1 := ⟨e, he, rfl, rfl⟩
    have hs := hx.choose_spec
    have : hx.choose = e := List.inj_on_of_nodup_map h2 hs.1 he (by simp [Prog.cell, hs.2])
    simp only [at', dif_pos hx, this]
  have hle : ∀ i j, at' i j ≤ ((call.steps w.gas (.ref q) out).amid q μ 0 w).2 := by
    intro i j
    by_cases hx : ∃ e ∈ L, e.1 = i ∧ e.2.1 = j
    · simp only [at', dif_pos hx]
      exact (h3 _ hx.choose_spec.1).2.2.le
    · simp only [at', dif_neg hx]
      exact Nat.zero_le _
  obtain ⟨m, k1, k2, k3, k4, k5⟩ := exists_dense (μ 0).rows (μ 0).cols (fun i j => (μ (at' i j)).val i j)
  have hwf := k1.wf (by simp [k2])
  have hmw : ∀ t, (μ t).WF := fun t => (hμ.reach t).wf (by rcases hμ.matrix t with e | e | e <;> simp [e])
  refine ⟨m, k1, k2, k3, k4, fun i j hi hj => ⟨at' i j, hle i j, m.val i j, Mat.at_ok hwf (k3 ▸ hi) (k4 ▸ hj), ?_⟩, ?_⟩
  · rw [k5 i j hi hj]
    exact Mat.at_ok (hmw _) ((hμ.shape _).1 ▸ hi) ((hμ.shape _).2 ▸ hj)
  · rw [← h4 m k3 k4, ← OpCall.steps_run]
    · rfl
    · intro e he
      unfold Prog.Agree
      rcases Mat.element_cases k1 (.inr (.inr k2)) e.1 e.2.1 with ⟨a1, a2, a3⟩ | ⟨a1, a2⟩ <;>
        rcases Mat.element_cases (hμ.reach e.2.2) (hμ.matrix e.2.2) e.1 e.2.1 with ⟨b1, b2, b3⟩ | ⟨b1, b2⟩
      · rw [k5 _ _ (k3 ▸ a1) (k4 ▸ a2), hat e he] at a3
        exact .inl ⟨_, _, a3, b3⟩
      · rw [k3, k4, ← (hμ.shape e.2.2).1, ← (hμ.shape e.2.2).2] at *
        exact absurd ⟨a1, a2⟩ b1
      · rw [k3, k4, ← (hμ.shape e.2.2).1, ← (hμ.shape e.2.2).2] at a1
        exact absurd ⟨b1, b2⟩ a1
      · exact .inr ⟨a2, b2⟩

end general

section ring
variable {T : Type} [GoRing T] [GoLawful T] {q out : Ref} {μ : Nat → Mat T} {w : World T}

/-- In a ring the negative of a value that is not zero is not zero. -/
theorem OpCall.Once.negative (s : Ref) : (OpCall.negative s).Once w out := by
  intro v this
  unfold Mat.Storable at this ⊢
  split at this
  · trivial
  · trivial
  · rw [Bool.eq_false_iff] at this ⊢
    intro h; exact this ((isZero_iff _).2 (neg_eq_zero.1 ((isZero_iff _).1 h)))

/-- The cell of the mask that decides about `(i, j)` of the output. -/
def OpCall.maskCell : OpCall T → Nat → Nat → Nat × Nat
  | .apply _ _ | .transpose _ => fun i j => (j, i)
  | _ => fun i j => (i, j)

/-- C101, cell by cell: the call returns, changes nothing but its output, and each cell of that has kept its value or has
the value the operator computes for it; the first if the mask excluded the cell all the time, the second if it never
did. -/
theorem C101_cells (call : OpCall T) (hμ : Shared μ) (hq : ∀ p, p ∈ call.operands ∨ p = out → p ≠ q)
    (hw : ∀ p, p ∈ call.operands ∨ p = out → (w.heap p).WF) (h1 : call.Once w out)
    (hk : (w.heap out).kind ≠ .svec) (hsh : call.Shapes w (.ref q) out) (hap : call.Apart out)
    (hF : (μ 0).rows = (w.heap out).rows ∧ (μ 0).cols = (w.heap out).cols)
    (hg : ∀ p, p ∈ call.operands ∨ p = out → (w.heap p).nvalues ≤ w.gas) (hc : w.cancel = none) :
    ∃ m', ((call.steps w.gas (.ref q) out).amid q μ 0 w).1 = .ok () (w.upd out m' none) ∧ m'.WF ∧
      Mat.Same m' (w.heap out) ∧ ∀ i j, i < (w.heap out).rows → j < (w.heap out).cols →
        (m'.val i j = (w.heap out).val i j ∨ m'.val i j = call.cell w out i j) ∧
        ((∀ t ≤ ((call.steps w.gas (.ref q) out).amid q μ 0 w).2,
            (μ t).element (call.maskCell i j).1 (call.maskCell i j).2 = .ok (true, μ t)) →
          m'.val i j = (w.heap out).val i j) ∧
        ((∀ t ≤ ((call.steps w.gas (.ref q) out).amid q μ 0 w).2,
            (μ t).element (call.maskCell i j).1 (call.maskCell i j).2 = .ok (false, μ t)) →
          m'.val i j = call.cell w out i j) := by
  obtain ⟨m, a1, a0, a2, a3, a4, a5⟩ := C101_fixed_partial (w := w) call hμ hq hw h1
  have hh : ∀ p, p ∈ call.operands ∨ p = out → (w.with q m).heap p = w.heap p :=
    fun p hp => Function.update_of_ne (hq p hp) _ _
  have hho := hh out (.inr rfl)
  have hhq : (w.with q m).heap q = m := Function.update_self _ _ _
  have hsh' : call.Shapes (w.with q m) (.ref q) out := by
    cases call <;> simp only [OpCall.Shapes, OpCall.Shapes.Crossed, OpCall.operands, List.mem_cons, List.not_mem_nil, or_false] at hsh hh ⊢ <;>
      (try rw [hho]) <;> first
        | exact hsh
        | (rw [hh _ (.inl rfl)]; exact hsh)
        | (rw [hh _ (.inl (.inl rfl)), hh _ (.inl (.inr rfl))]; exact hsh)
  have hlead : ∀ s m', s ∈ call.operands → m' ∈ call.operands → lead (w.with q m) s m' = lead w s m' := by
    intro s m' hs hm'
    unfold lead
    rw [hh s (.inl hs), hh m' (.inl hm')]
    rfl
  have hcell : call.cell (w.with q m) out = call.cell w out := by
    classical
    cases call <;> simp only [OpCall.operands, List.mem_cons, List.not_mem_nil, or_false] at hh hlead <;>
      funext i j <;> simp only [OpCall.cell, hho]
    all_goals first
      | rfl
      | (simp only [hh _ (Or.inl (Or.inl rfl)), hh _ (Or.inl (Or.inr rfl))]; done)
      | (simp only [hh _ (Or.inl (Or.inl rfl)), hh _ (Or.inl (Or.inr rfl))]
         exact if_congr (by rw [hlead _ _ (Or.inl rfl) (Or.inr rfl)]) rfl rfl)
      | (simp only [hh _ (Or.inl (Or.inl rfl)), hh _ (Or.inl (Or.inr rfl))]
         exact if_congr (by rw [hh _ (Or.inl (Or.inl rfl))]) rfl rfl)
      | (simp only [hh _ (Or.inl (Or.inl rfl)), hh _ (Or.inl (Or.inr rfl))]
         exact if_congr (by rw [hlead _ _ (Or.inl rfl) (Or.inr rfl), hh _ (Or.inl (Or.inl rfl)), hh _ (Or.inl (Or.inr rfl))])
           rfl rfl)
      | (simp only [hh _ (Or.inl (Or.inl rfl)), hh _ (Or.inl (Or.inr rfl))]
         exact if_congr (by rw [hh _ (Or.inl (Or.inr rfl))]) rfl (if_congr (by rw [hh _ (Or.inl (Or.inl rfl))]) rfl rfl))
      | (have e1 := hh _ (Or.inl rfl)
         simp only [e1])
  obtain ⟨m', b1, b2, b3, b4⟩ := C54_exact (w := w.with q m) (mask := .ref q) call
    (fun p hp => by rw [hh p (.inl hp)]; exact hw p (.inl hp)) (by rw [hho]; exact hw out (.inr rfl)) (by rw [hho]; exact hk)
    hsh' hap (by show _ ∧ _; rw [hhq, hho, a2, a3]; exact hF) (by show Mat.Inv _; rw [hhq]; exact a1.inv)
    (fun e => hq out (.inr rfl) (Mask.ref.inj e).symm)
    (fun p hp => by rw [hh p (.inl hp)]; exact hg p (.inl hp)) (by rw [hho]; exact hg out (.inr rfl)) hc
  have hheap := Prog.amid_heap (q := q) (μ := μ) (call.steps w.gas (.ref q) out) 0 w
  rw [a5] at b1
  refine ⟨m', ?_, b2, by rw [hho] at b3; exact b3, fun i j hi hj => ?_⟩
  · generalize ((call.steps w.gas (.ref q) out).amid q μ 0 w).1 = res at b1 hheap ⊢
    cases res with
    | ok a w1 =>
      simp only [Res.with, Res.ok.injEq] at b1
      obtain ⟨-, b1⟩ := b1
      congr 1
      obtain ⟨h', n', c', r', g'⟩ := w1
      simp only [World.with, World.upd, World.mk.injEq] at b1 ⊢
      obtain ⟨e1, e2, e3, e4, e5⟩ := b1
      refine ⟨?_, e2, e3, e4, e5⟩
      funext p
      by_cases hp : p = q
      · rw [hp, Function.update_of_ne (hq out (.inr rfl)).symm]
        exact hheap
      · have := congrFun e1 p
        rw [Function.update_of_ne hp] at this
        rw [this]
        by_cases hpo : p = out
        · rw [hpo, Function.update_self, Function.update_self]
        · rw [Function.update_of_ne hpo, Function.update_of_ne hpo, Function.update_of_ne hp]
    | panic w1 => simp [Res.with] at b1
    | hang w1 => simp [Res.with] at b1
  · have hv := b4 i j (by rw [hho]; exact hi) (by rw [hho]; exact hj)
    rw [hho, hcell] at hv
    have hbit : call.asks (w.with q m) (.ref q) i j = GoNum.glt 0 (m.val (call.maskCell i j).1 (call.maskCell i j).2) := by
      cases call <;> simp only [OpCall.asks, OpCall.maskCell, Mask.bit, hhq]
    rw [hbit] at hv
    have hin : (call.maskCell i j).1 < (μ 0).rows ∧ (call.maskCell i j).2 < (μ 0).cols := by
      rw [hF.1, hF.2]
      cases call <;> simp only [OpCall.maskCell, OpCall.Shapes, OpCall.Shapes.Crossed, OpCall.Apart, OpCall.operands] at hsh hap ⊢ <;>
        first
        | exact ⟨hi, hj⟩
        | (rcases hsh with e | e
           · exact absurd e (hap _ (by simp))
           · have := e.2.2.resolve_left (fun h => h.elim)
             omega)
        | (have := hsh.2.2.resolve_left (fun h => h.elim)
           omega)
    obtain ⟨t, ht, v, k1, k2⟩ := a4 _ _ hin.1 hin.2
    have hmw : (μ t).WF := (hμ.reach t).wf (by rcases hμ.matrix t with e | e | e <;> simp [e])
    have hr1 : (call.maskCell i j).1 < (μ t).rows := by rw [(hμ.shape t).1]; exact hin.1
    have hr2 : (call.maskCell i j).2 < (μ t).cols := by rw [(hμ.shape t).2]; exact hin.2
    have hmm : m.val (call.maskCell i j).1 (call.maskCell i j).2 = (μ t).val (call.maskCell i j).1 (call.maskCell i j).2 := by
      rw [Mat.at_ok hmw hr1 hr2] at k2
      cases k2
      rw [Mat.at_ok (a1.wf (by simp [a0])) (by rw [a2]; exact hin.1) (by rw [a3]; exact hin.2)] at k1
      injection k1 with k1
      exact (Prod.mk.inj k1).1
    have hel := Mat.element_ok hmw hr1 hr2
    rw [← hmm] at hel
    refine ⟨?_, fun h => ?_, fun h => ?_⟩
    · rw [hv]; split
      · exact .inl rfl
      · exact .inr rfl
    · rw [h t ht] at hel
      simp only [Out.ok.injEq, Prod.mk.injEq] at hel
      rw [hv, ← hel.1, if_pos rfl]
    · rw [h t ht] at hel
      simp only [Out.ok.injEq, Prod.mk.injEq] at hel
      rw [hv, ← hel.1]
      simp

end ring

/-! ## Examples and the refutation -/

namespace Amid

/-- A 1×1 dense matrix. -/
def one (v : ℤ) : Mat ℤ := .dense { r := 1, c := 1, data := [[v]] }

/-- A mask of which others set the only cell from 0 to 1 before the moment `k`. -/
def turning (k t : Nat) : Mat ℤ := if t < k then one 0 else one 1

theorem one_reach (v : ℤ) : Reach (one v) :=
  .arrDense (data := [[v]]) (c := 1) (by simp [Rect]) rfl

theorem turning_shared (k : Nat) : Shared (turning k) := by
  have : ∀ t, turning k t = one 0 ∨ turning k t = one 1 := fun t => by unfold turning; split <;> simp
  refine ⟨fun t => ?_, fun t => ?_, fun t => ?_⟩
  · rcases this t with e | e <;> rw [e] <;> exact one_reach _
  · rcases this t with e | e <;> rw [e] <;> simp [one, Mat.kind]
  · rcases this t with e | e <;> rcases this 0 with e' | e' <;> rw [e, e'] <;> exact ⟨rfl, rfl⟩

/-- Operands `[3]` and `[5]`, output `[0]`, mask. -/
def scene : World ℤ := World.of 5 [one 3, one 5, one 0, one 0]

/-- Both outcomes happen: `Add` finds the mask as it is at the moment of the question. -/
example : (((OpCall.add 0 1).steps 5 (.ref 3) 2).amid 3 (turning 100) 0 scene).1.world.heap 2 = one 8 ∧
    (((OpCall.add 0 1).steps 5 (.ref 3) 2).amid 3 (turning 5) 0 scene).1.world.heap 2 = one 0 := by
  constructor <;> decide +kernel

/-- The hypotheses of `C101_fixed_partial` and `C101_cells` hold here. -/
example (k : Nat) : Shared (turning k) ∧ (∀ p, p ∈ (OpCall.add 0 1 : OpCall ℤ).operands ∨ p = 2 → p ≠ 3) ∧
    (∀ p, p ∈ (OpCall.add 0 1 : OpCall ℤ).operands ∨ p = 2 → (scene.heap p).WF) ∧ (OpCall.add 0 1).Once scene 2 ∧
    (OpCall.add 0 1).Shapes scene (.ref 3) 2 := by
  refine ⟨turning_shared k, ?_, ?_, by simp [OpCall.Once], ⟨rfl, rfl⟩, rfl, rfl⟩
  · simp only [OpCall.operands, List.mem_cons, List.not_mem_nil, or_false]
    rintro p ((rfl | rfl) | rfl) <;> decide
  · simp only [OpCall.operands, List.mem_cons, List.not_mem_nil, or_false]
    rintro p ((rfl | rfl) | rfl)
    · exact (one_reach 3).wf (by simp [one, Mat.kind])
    · exact (one_reach 5).wf (by simp [one, Mat.kind])
    · exact (one_reach 0).wf (by simp [one, Mat.kind])

theorem one_val (v : ℤ) : (one v).val 0 0 = v := by
  have h := Mat.at_ok ((one_reach v).wf (by simp [one, Mat.kind])) (i := 0) (j := 0) Nat.one_pos Nat.one_pos
  have h' : (one v).at' ((0 : Nat) : Int) ((0 : Nat) : Int) = .ok (v, one v) := rfl
  rw [h'] at h
  injection h with h
  exact (Prod.mk.inj h).1.symm

/-- C101, full statement: false of the element-wise sum, which goes through both operands and asks about a cell twice.
Here the mask excludes the only cell between the two questions, and the left operand's 3 is left in the output. A fixed
mask gives 5 or leaves 0. -/
theorem C101_refuted : ¬ ∃ m : Mat ℤ, Reach m ∧ m.rows = 1 ∧ m.cols = 1 ∧
    (OpCall.eAddMatrix 0 1).run (.ref 3) 2 (scene.with 3 m) =
      (((OpCall.eAddMatrix 0 1).steps scene.gas (.ref 3) 2).amid 3 (turning 12) 0 scene).1.with 3 m := by
  rintro ⟨m, h1, h2, h3, h4⟩
  have hw : ∀ v, (one v).WF := fun v => (one_reach v).wf (by simp [one, Mat.kind])
  have e0 : (scene.with 3 m).heap 0 = one 3 := rfl
  have e1 : (scene.with 3 m).heap 1 = one 5 := rfl
  have e2 : (scene.with 3 m).heap 2 = one 0 := rfl
  have e3 : (scene.with 3 m).heap 3 = m := rfl
  obtain ⟨m', b1, -, -, b4⟩ := C54_exact (w := scene.with 3 m) (out := 2) (mask := .ref 3) (.eAddMatrix 0 1)
    (by
      intro p hp
      simp only [OpCall.operands, List.mem_cons, List.not_mem_nil, or_false] at hp
      rcases hp with rfl | rfl
      · exact hw 3
      · exact hw 5) (hw 0) (by simp [e2, one, Mat.kind]) ⟨⟨rfl, rfl⟩, ⟨rfl, rfl⟩, rfl⟩
    (by
      intro p hp
      simp only [OpCall.operands, List.mem_cons, List.not_mem_nil, or_false] at hp
      rcases hp with rfl | rfl <;> decide) ⟨h2, h3⟩ h1.inv (by simp)
    (by
      intro p hp
      simp only [OpCall.operands, List.mem_cons, List.not_mem_nil, or_false] at hp
      rcases hp with rfl | rfl
      · exact (by decide : (one 3).nvalues ≤ 5)
      · exact (by decide : (one 5).nvalues ≤ 5)) (by exact (by decide : (one 0).nvalues ≤ 5)) rfl
  have hres : (((OpCall.eAddMatrix 0 1).steps scene.gas (.ref 3) 2).amid 3 (turning 12) 0 scene).1.world.heap 2 = one 3 := by
    decide +kernel
  have hm : m' = one 3 := by
    rw [h4] at b1
    generalize (((OpCall.eAddMatrix 0 1).steps scene.gas (.ref 3) 2).amid 3 (turning 12) 0 scene).1 = res at b1 hres
    cases res with
    | ok a w1 =>
      simp only [Res.with, Res.ok.injEq] at b1
      have := congrFun (congrArg World.heap b1.2) 2
      simp only [World.with, World.upd, Function.update_self] at this
      rw [Function.update_of_ne (by decide)] at this
      rw [← this]
      exact hres
    | panic w1 => simp [Res.with] at b1
    | hang w1 => simp [Res.with] at b1
  have := b4 0 0 Nat.one_pos Nat.one_pos
  rw [hm, one_val] at this
  simp only [OpCall.cell, e0, e1, e2, one_val] at this
  split at this <;> simp at this

end Amid
end GB
