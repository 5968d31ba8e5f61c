import Verif.Lemmas.Rel
import Verif.Props.Masks
import Verif.Props.Exact

/-!
# C56, C57. What the outcome of an operator depends on
-/

namespace GB

set_option linter.unusedSectionVars false

section masks
variable {T : Type} [GoNum T] [GoStore T] {w : World T} {out : Ref} {k1 k2 : Mask}

/-- The objects that serve as masks. -/
private def maskObjs (k1 k2 : Mask) (p : Ref) : Prop := k1 = .ref p ∨ k2 = .ref p

private theorem masks_check (hd : k1.shape w out = k2.shape w out) (h1 : k1 ≠ .nil) (h2 : k2 ≠ .nil)
    (hI : ∀ p, maskObjs k1 k2 p → (w.heap p).Inv) :
    Rel (Held w (maskObjs k1 k2)) (k1.check out : M T Unit) (k2.check out) := by
  have rc : ∀ {k k' : Mask} {u : World T}, Held w (maskObjs k1 k2) u u → (k = k1 ∨ k = k2) → k ≠ .nil →
      (k.rows : M T Nat) u = .ok (k.shape w out).1 u ∧ (k.cols : M T Nat) u = .ok (k.shape w out).2 u := by
    intro k k' u hu hk hn
    cases k with
    | nil => exact absurd rfl hn
    | empty r c => exact ⟨rfl, rfl⟩
    | given r c el => exact ⟨rfl, rfl⟩
    | ref p =>
      have := hu.2 p (by rcases hk with rfl | rfl; exacts [.inl rfl, .inr rfl])
      simp [Mask.rows, Mask.cols, Mask.shape, this]
  rintro u v ⟨rfl, hu⟩
  obtain ⟨r1, c1⟩ := rc (k' := .nil) ⟨rfl, hu⟩ (.inl rfl) h1
  obtain ⟨r2, c2⟩ := rc (k' := .nil) ⟨rfl, hu⟩ (.inr rfl) h2
  have e : (k1.check out : M T Unit) u = k2.check out u := by
    unfold Mask.check
    rw [M.bind_ok r1, M.bind_ok r2, hd, M.bind_ok (M.rowsOf_apply out u), M.bind_ok (M.rowsOf_apply out u)]
    split
    · rfl
    · show (k1.cols >>= _) u = (k2.cols >>= _) u
      rw [M.bind_ok c1, M.bind_ok c2, hd]
  rw [← e]
  exact Held.of_frames hI (.check k1 out) u u ⟨rfl, hu⟩

private theorem masks_element (hs : ∀ r c, k1.says w r c = k2.says w r c) (h1 : k1 ≠ .nil) (h2 : k2 ≠ .nil)
    (hI : ∀ p, maskObjs k1 k2 p → (w.heap p).Inv) (r c : Nat) :
    Rel (Held w (maskObjs k1 k2)) (k1.element r c : M T Bool) (k2.element r c) := by
  have rc : ∀ {k : Mask} {u : World T}, (∀ p, maskObjs k1 k2 p → u.heap p = w.heap p) → (k = k1 ∨ k = k2) → k ≠ .nil →
      (k.element r c : M T Bool) u = M.lift (k.says w r c) u := by
    intro k u hu hk hn
    cases k with
    | nil => exact absurd rfl hn
    | empty r c => rfl
    | given _ _ el =>
      simp only [Mask.element, Mask.says]
      cases el r c <;> rfl
    | ref p =>
      have hp : maskObjs k1 k2 p := by rcases hk with rfl | rfl; exacts [.inl rfl, .inr rfl]
      have := hu p hp
      simp only [Mask.element, Mask.says, M.withObj, M.lift, this]
      cases he : (w.heap p).element r c with
      | ok a =>
        obtain ⟨a, m⟩ := a
        obtain rfl := ((hI p hp).reads_preserve r c).2 _ _ he
        simp [← this]
      | panic => rfl
      | hang => rfl
  rintro u v ⟨rfl, hu⟩
  rw [rc hu (.inl rfl) h1, rc hu (.inr rfl) h2, hs]
  exact Rel.lift _ u u ⟨rfl, hu⟩

private theorem answers_some (call : OpCall T) (n1 : k1 ≠ .nil) (n2 : k2 ≠ .nil)
    (hd : k1.shape w out = k2.shape w out) (hs : ∀ r c, k1.says w r c = k2.says w r c)
    (h1 : k1.Sound w) (h2 : k2.Sound w) (o1 : k1 ≠ .ref out) (o2 : k2 ≠ .ref out) :
    call.run k1 out w = call.run k2 out w := by
  have hI : ∀ p, maskObjs k1 k2 p → (w.heap p).Inv := by
    rintro p (rfl | rfl)
    exacts [h1, h2]
  have ho : ¬ maskObjs k1 k2 out := by rintro (h | h); exacts [o1 h, o2 h]
  have key := Rel.run (Held.prims hI ho) call (fun _ _ => trivial) rfl
    ⟨n1, n2, masks_check hd n1 n2 hI, masks_element hs n1 n2 hI⟩ w w ⟨rfl, fun _ _ => rfl⟩
  have hid : call.rename id = call := by cases call <;> rfl
  rw [hid] at key
  generalize call.run k1 out w = x at key ⊢
  change x.Alike _ (call.run k2 out w) at key
  generalize call.run k2 out w = y at key ⊢
  cases key with
  | ok h => rw [h.1]
  | panic h => rw [h.1]
  | hang h => rw [h.1]

/-- C56. A mask is its shape and its answers: for every operator, in every state — operands among each
other and with the output in any aliasing, context cancelled at any moment, any element type — two masks of
the same shape that answer `Element` alike (the format they are stored in and the positive values
they hold may differ) make the call do exactly the same, panics included. The masks are not the output. -/
theorem C56_answers (call : OpCall T) (hd : k1.shape w out = k2.shape w out)
    (hs : ∀ r c, k1.says w r c = k2.says w r c)
    (h1 : k1.Sound w) (h2 : k2.Sound w) (o1 : k1 ≠ .ref out) (o2 : k2 ≠ .ref out) :
    call.run k1 out w = call.run k2 out w := by
  have nil : ∀ k : Mask, k.Sound w → k ≠ .ref out → ∃ k', k' ≠ .nil ∧ call.run k out w = call.run k' out w ∧
      k'.shape w out = k.shape w out ∧ (∀ r c, k'.says w r c = k.says w r c) ∧ k'.Sound w ∧ k' ≠ .ref out := by
    intro k hS ho
    cases k with
    | nil => exact ⟨.empty _ _, Mask.noConfusion, C22_nil_is_false_everywhere w out call, rfl, fun _ _ => rfl, trivial,
        Mask.noConfusion⟩
    | empty r c => exact ⟨.empty r c, Mask.noConfusion, rfl, rfl, fun _ _ => rfl, trivial, Mask.noConfusion⟩
    | ref p => exact ⟨.ref p, Mask.noConfusion, rfl, rfl, fun _ _ => rfl, hS, ho⟩
    | given r c el => exact ⟨.given r c el, Mask.noConfusion, rfl, rfl, fun _ _ => rfl, hS, Mask.noConfusion⟩
  obtain ⟨a, an, ae, ad, as, aS, ao⟩ := nil k1 h1 o1
  obtain ⟨b, bn, be, bd, bs, bS, bo⟩ := nil k2 h2 o2
  rw [ae, be]
  exact answers_some call an bn (by rw [ad, bd, hd]) (fun r c => by rw [as, bs, hs]) aS bS ao bo

theorem Mat.element_out {m : Mat T} (hk : m.kind = .csr ∨ m.kind = .csc ∨ m.kind = .dense) {r c : Nat}
    (hv : ¬ (r < m.rows ∧ c < m.cols)) : m.element r c = .panic := by
  have hn : ¬ (inRange (r : Int) m.rows = true ∧ inRange (c : Int) m.cols = true) := by
    rw [inRange_iff, inRange_iff]
    rintro ⟨⟨a, b⟩, d, e⟩
    exact hv ⟨by omega, by omega⟩
  cases m <;> simp [Mat.kind] at hk
  · simp [Mat.element, CSR.element, CSR.updateWith_panic _ _ _ _ hn]
  · simp [Mat.element, CSC.element, CSC.updateWith_panic _ _ _ _ hn]
  · simp [Mat.element, Dense.element, Dense.at_panic _ _ _ hn]

/-- C56 for two matrices as masks: equal shape and positive at the same cells, whatever the formats. -/
theorem C56_matrices (call : OpCall T) {p q : Ref} (hp : (w.heap p).WF) (hq : (w.heap q).WF)
    (kp : (w.heap p).kind = .csr ∨ (w.heap p).kind = .csc ∨ (w.heap p).kind = .dense)
    (kq : (w.heap q).kind = .csr ∨ (w.heap q).kind = .csc ∨ (w.heap q).kind = .dense)
    (hd : SameShape (w.heap p) (w.heap q))
    (hs : ∀ i j, i < (w.heap p).rows → j < (w.heap p).cols →
      GoNum.glt 0 ((w.heap p).val i j) = GoNum.glt 0 ((w.heap q).val i j))
    (op : p ≠ out) (oq : q ≠ out) : call.run (.ref p) out w = call.run (.ref q) out w := by
  refine C56_answers call (Prod.ext hd.1 hd.2) ?_ hp.inv hq.inv (fun h => op (Mask.ref.inj h)) (fun h => oq (Mask.ref.inj h))
  intro r c
  by_cases hv : r < (w.heap p).rows ∧ c < (w.heap p).cols
  · simp only [Mask.says]
    rw [hp.inv.element_ok hv.1 hv.2, hq.inv.element_ok (hd.1 ▸ hv.1) (hd.2 ▸ hv.2)]
    simp [hs r c hv.1 hv.2]
  · simp only [Mask.says]
    rw [Mat.element_out kp hv, Mat.element_out kq (by rw [← hd.1, ← hd.2]; exact hv)]

end masks

section ring
variable {T : Type} [GoRing T] [GoLawful T] {w : World T} {out : Ref} {k1 k2 : Mask}

private theorem asks_congr (call : OpCall T) (s1 : call.Shapes w k1 out) (s2 : call.Shapes w k2 out)
    (hs : ∀ i j, i < (w.heap out).rows → j < (w.heap out).cols → k1.bit w i j = k2.bit w i j) {i j : Nat}
    (hi : i < (w.heap out).rows) (hj : j < (w.heap out).cols) (ha : call.Apart out) :
    call.asks w k1 i j = call.asks w k2 i j := by
  have cross : ∀ s, OpCall.Shapes.Crossed w k1 s out → OpCall.Shapes.Crossed w k2 s out →
      k1.bit w j i = k2.bit w j i := by
    rintro s ⟨a1, a2, a3⟩ ⟨b1, b2, b3⟩
    have sq : (w.heap s).rows = (w.heap s).cols → k1.bit w j i = k2.bit w j i := fun h =>
      hs j i (by rw [a1, ← h, ← a2]; exact hj) (by rw [a2, h, ← a1]; exact hi)
    rcases a3 with a3 | a3
    · rcases b3 with b3 | b3
      · cases k1 with
        | ref p => exact a3.elim
        | given r c el => exact a3.elim
        | nil => cases k2 with
          | ref p => exact b3.elim
          | given r c el => exact b3.elim
          | nil => rfl
          | empty r c => rfl
        | empty r c => cases k2 with
          | ref p => exact b3.elim
          | given r c el => exact b3.elim
          | nil => rfl
          | empty r c => rfl
      · exact sq b3
    · exact sq a3
  cases call with
  | apply s u =>
    have hne : s ≠ out := ha s (by simp [OpCall.operands])
    exact cross s (s1.resolve_left hne) (s2.resolve_left hne)
  | transpose s => exact cross s s1 s2
  | _ => exact hs i j hi hj

/-- C56, by the cells of the output alone: with operands whose shapes fit, an output apart from them and an
open context, any two masks (none at all included) that are positive at the same cells lead to the
same final state. -/
theorem C56_cells (call : OpCall T) (hops : ∀ p ∈ call.operands, (w.heap p).WF)
    (hout : (w.heap out).WF) (hk : (w.heap out).kind ≠ .svec)
    (s1 : call.Shapes w k1 out) (s2 : call.Shapes w k2 out) (hap : call.Apart out)
    (f1 : k1.Fits w out) (f2 : k2.Fits w out) (h1 : k1.Sound w) (h2 : k2.Sound w)
    (o1 : k1 ≠ .ref out) (o2 : k2 ≠ .ref out)
    (hg : ∀ p ∈ call.operands, (w.heap p).nvalues ≤ w.gas) (hgo : (w.heap out).nvalues ≤ w.gas)
    (hc : w.cancel = none)
    (hs : ∀ i j, i < (w.heap out).rows → j < (w.heap out).cols → k1.bit w i j = k2.bit w i j) :
    ∃ w', call.run k1 out w = .ok () w' ∧ call.run k2 out w = .ok () w' := by
  obtain ⟨a, ea, wa, sa, va⟩ := C54_exact call hops hout hk s1 hap f1 h1 o1 hg hgo hc
  obtain ⟨b, eb, wb, sb, vb⟩ := C54_exact call hops hout hk s2 hap f2 h2 o2 hg hgo hc
  have : a = b := Mat.ext' wa wb (sa.trans ⟨sb.1.symm, sb.2.1.symm, sb.2.2.symm⟩) (fun i j hi hj => by
    rw [sa.2.1] at hi
    rw [sa.2.2] at hj
    rw [va i j hi hj, vb i j hi hj, asks_congr call s1 s2 hs hi hj hap])
  exact ⟨_, ea, by rw [eb, this]⟩

end ring

section local'
variable {T : Type} [GoNum T] [GoStore T]

/-- The objects of a call. -/
def OpCall.objects (call : OpCall T) (mask : Mask) (out p : Ref) : Prop :=
  p ∈ call.operands ∨ p = out ∨ mask = .ref p

/-- C57. The outcome of an operator depends on nothing but the contents of its operands, output and mask,
which of them are the same object, the context and the registry: run the same call in two programs,
whose heaps may hold anything else, under whatever names (`σ`) and with any number of
objects allocated: both calls return, or panic, or keep running, with the same contents in corresponding
objects and the context polled the same number of times. Objects need not be in reachable states. -/
theorem C57_local (call : OpCall T) (mask : Mask) (out : Ref) {σ : Ref → Ref} {w1 w2 : World T}
    (hσ : ∀ p q, call.objects mask out p → call.objects mask out q → σ p = σ q → p = q)
    (h : AgreeOn (call.objects mask out) σ w1 w2) :
    (call.run mask out w1).Alike (AgreeOn (call.objects mask out) σ)
      ((call.rename σ).run (mask.rename σ) (σ out) w2) := by
  have hR := AgreeOn.prims (T := T) hσ
  have ho : call.objects mask out out := .inr (.inl rfl)
  cases mask with
  | nil =>
    have e : w2.heap (σ out) = w1.heap out := h.1 out ho
    rw [C22_nil_is_false_everywhere, Mask.rename, C22_nil_is_false_everywhere, e]
    refine Rel.run hR call (fun p hp => .inl hp) ho ⟨Mask.noConfusion, Mask.noConfusion, ?_, fun r c => Rel.pure _⟩ w1 w2 h
    unfold Mask.check Mask.rows Mask.cols
    repeat' rel_step
  | empty r c =>
    refine Rel.run hR call (fun p hp => .inl hp) ho ⟨Mask.noConfusion, Mask.noConfusion, ?_, fun r c => Rel.pure _⟩ w1 w2 h
    unfold Mask.check Mask.rename Mask.rows Mask.cols
    repeat' rel_step
  | given r c el =>
    refine Rel.run hR call (fun p hp => .inl hp) ho (k1 := .given r c el) (k2 := .given r c el)
      ⟨Mask.noConfusion, Mask.noConfusion, ?_, fun r c => ?_⟩ w1 w2 h
    · unfold Mask.check Mask.rows Mask.cols
      repeat' rel_step
    · cases h : el r c with
      | none => simp only [Mask.element, h]; exact Rel.fail
      | some b => simp only [Mask.element, h]; exact Rel.pure _
  | ref p =>
    have hp : call.objects (.ref p) out p := .inr (.inr rfl)
    refine Rel.run hR call (fun p hp => .inl hp) ho (k1 := .ref p) (k2 := .ref (σ p))
      ⟨Mask.noConfusion, Mask.noConfusion, ?_, fun r c => by
        simp only [Mask.element]
        exact hR.write p hp _⟩ w1 w2 h
    unfold Mask.check Mask.rows Mask.cols
    repeat' rel_step

/-- C57 for `Equal`. -/
theorem C57_equal {s m : Ref} {σ : Ref → Ref} {w1 w2 : World T}
    (hσ : σ s = σ m → s = m) (h : AgreeOn (fun p => p = s ∨ p = m) σ w1 w2) :
    (Ops.equal s m w1).Alike (AgreeOn (fun p => p = s ∨ p = m) σ) (Ops.equal (σ s) (σ m) w2) := by
  refine Rel.equal (AgreeOn.prims (T := T) ?_) (.inl rfl) (.inr rfl) w1 w2 h
  rintro p q (rfl | rfl) (rfl | rfl) e
  exacts [rfl, hσ e, (hσ e.symm).symm, rfl]

end local'

/-! ## Concrete cases -/

/-- Two operands, an output, and the same mask as a CSR matrix holding 9 and as a dense one holding 1 and a
negative value. -/
def maskWorld : World ℤ := World.of 9 [.dense ⟨1, 2, [[1, 2]]⟩, .dense ⟨1, 2, [[10, 20]]⟩, .dense ⟨1, 2, [[0, 0]]⟩,
  .csr { r := 1, c := 2, values := [9], cols := [1], rowStart := [0, 1] }, .dense ⟨1, 2, [[-4, 1]]⟩]

theorem maskWorld_csr : (maskWorld.heap 3).WF := by
  have : Reach (maskWorld.heap 3) := Reach.call (.set 0 1 9) (Reach.newCSR 1 2) (by decide)
  exact this.wf (by decide)

theorem maskWorld_dense : (maskWorld.heap 4).WF := by
  have : Reach (maskWorld.heap 4) := Reach.call (.set 0 1 1) (Reach.call (.set 0 0 (-4)) (Reach.newDense 1 2) rfl) rfl
  exact this.wf (by decide)

example : OpCall.run (.ref 3) 2 (.add 0 1) maskWorld = OpCall.run (.ref 4) 2 (.add 0 1) maskWorld :=
  C56_matrices _ maskWorld_csr maskWorld_dense (.inl rfl) (.inr (.inr rfl)) ⟨rfl, rfl⟩ (by
    intro i j hi hj
    replace hi : i < 1 := hi
    replace hj : j < 2 := hj
    obtain rfl : i = 0 := by omega
    rcases (by omega : j = 0 ∨ j = 1) with rfl | rfl <;> decide +kernel) (by decide) (by decide)

/-- …and what it leaves. -/
example : (OpCall.run (.ref 4) 2 (.add 0 1) maskWorld).left 2 = some (.dense ⟨1, 2, [[11, 0]]⟩) := by kernel_rfl

/-- The sum of objects 0 and 1 into 2 of one program, and of objects 7 and 5 into 4 of another. -/
example : (OpCall.run .nil 2 (.add 0 1) maskWorld).Alike
    (AgreeOn (OpCall.objects (.add 0 1 : OpCall ℤ) .nil 2) (fun p => if p = 0 then 7 else if p = 1 then 5 else 4))
    (OpCall.run .nil 4 (.add 7 5) { World.of (T := ℤ) 9 [] with
      heap := fun p => if p = 7 then .dense ⟨1, 2, [[1, 2]]⟩ else if p = 5 then .dense ⟨1, 2, [[10, 20]]⟩
        else .dense ⟨1, 2, [[0, 0]]⟩, next := 30 }) := by
  have objs : ∀ p, OpCall.objects (.add 0 1 : OpCall ℤ) .nil 2 p → p = 0 ∨ p = 1 ∨ p = 2 := by
    rintro p (h | rfl | h)
    · simp [OpCall.operands] at h; tauto
    · tauto
    · cases h
  refine C57_local (.add 0 1) .nil 2 (fun p q hp hq => ?_) ⟨fun p hp => ?_, rfl, rfl, rfl⟩
  · rcases objs p hp with rfl | rfl | rfl <;> rcases objs q hq with rfl | rfl | rfl <;> decide
  · rcases objs p hp with rfl | rfl | rfl <;> rfl

end GB
