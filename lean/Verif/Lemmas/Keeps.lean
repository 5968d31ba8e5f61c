import Verif.Lemmas.Frame
import Verif.Lemmas.InPlace

/-!
# A write that asks the mask first leaves the protected cells alone

`Keeps P w0 out x`: however `x` ends, started in a state that differs from `w0` in nothing but the output, which has the
property `P`, it leaves such a state. The property is one that writes into unprotected cells keep. Nothing is asked about
aliasing.
-/

namespace GB

set_option linter.unusedSectionVars false

variable {T : Type} [GoNum T] [GoStore T]

/-- What is asked of the state before the call, for the property `P` of the output that is to be kept. -/
structure KeepsFrom (P : Mat T → Prop) (w0 : World T) (out : Ref) (mask : Mask) : Prop where
  inv : ∀ q, q ≠ out → (w0.heap q).Inv
  good : P (w0.heap out)
  reach : ∀ m, P m → m.Inv
  same : ∀ m, P m → Mat.Same m (w0.heap out)
  /-- the output as its own mask still protects what it protected -/
  asks : mask = .ref out → ∀ m, P m → ∀ r c, r < (w0.heap out).rows → c < (w0.heap out).cols → mask.bit w0 r c = true →
    GoNum.glt 0 (m.val r c) = true
  set : ∀ m r c v m', P m → r < m.rows → c < m.cols →
    ¬ (r < (w0.heap out).rows ∧ c < (w0.heap out).cols ∧ mask.bit w0 r c = true) → m.set r c v = .ok m' → P m'
  update : ∀ m r c f m', P m → r < m.rows → c < m.cols →
    ¬ (r < (w0.heap out).rows ∧ c < (w0.heap out).cols ∧ mask.bit w0 r c = true) → m.update r c f = .ok m' → P m'
  fits : mask.Fits w0 out

/-- `w` differs from `w0` in nothing but the output, which has the property `P`, the context and the registry. -/
structure CellsKept (P : Mat T → Prop) (w0 : World T) (out : Ref) (w : World T) : Prop where
  others : ∀ q, q ≠ out → w.heap q = w0.heap q
  good : P (w.heap out)

theorem KeepsFrom.kept {P : Mat T → Prop} {w0 : World T} {out : Ref} {mask : Mask} (h : KeepsFrom P w0 out mask) :
    CellsKept P w0 out w0 := ⟨fun _ _ => rfl, h.good⟩

def Keeps {α : Type} (P : Mat T → Prop) (w0 : World T) (out : Ref) (x : M T α) : Prop :=
  ∀ w, CellsKept P w0 out w → CellsKept P w0 out (x w).world

namespace Keeps
open M

variable {α β : Type} {P : Mat T → Prop} {w0 : World T} {out : Ref} {mask : Mask}

theorem of_same {x : M T α} (h : ∀ w, (x w).world.heap = w.heap) : Keeps P w0 out x := by
  intro w hw
  exact ⟨fun q hq => by rw [h]; exact hw.others q hq, by rw [h]; exact hw.good⟩

theorem pure (a : α) : Keeps P w0 out (Pure.pure a : M T α) := of_same (fun _ => rfl)

theorem bind {x : M T α} {f : α → M T β} (hx : Keeps P w0 out x) (hf : ∀ a, Keeps P w0 out (f a)) :
    Keeps P w0 out (x >>= f) := by
  intro w hw
  have h := hx w hw
  rw [bind_apply]
  cases hxw : x w with
  | ok a w' => rw [hxw] at h; exact hf a w' h
  | panic w' => rw [hxw] at h; exact h
  | hang w' => rw [hxw] at h; exact h

theorem fail : Keeps P w0 out (M.fail : M T α) := of_same (fun _ => rfl)
theorem hang : Keeps P w0 out (fun w => .hang w : M T α) := of_same (fun _ => rfl)
theorem rowsOf (p : Ref) : Keeps P w0 out (M.rowsOf p : M T Nat) := of_same (fun _ => rfl)
theorem colsOf (p : Ref) : Keeps P w0 out (M.colsOf p : M T Nat) := of_same (fun _ => rfl)
theorem isSparse (p : Ref) : Keeps P w0 out (M.isSparse p : M T Bool) := of_same (fun _ => rfl)
theorem iterOf (p : Ref) : Keeps P w0 out (M.iterOf p : M T Mat.Iter) := of_same (fun _ => rfl)
theorem lift (x : Out α) : Keeps P w0 out (M.lift x : M T α) := of_same (fun _ => by
  unfold M.lift; cases x <;> rfl)
theorem ofObj (p : Ref) (f : Mat T → Out α) : Keeps P w0 out (M.ofObj p f) := of_same (fun w => by
  unfold M.ofObj; cases f (w.heap p) <;> rfl)
theorem poll : Keeps P w0 out (M.poll : M T Bool) := of_same (fun w => by
  unfold M.poll; rcases w.cancel with _ | _ | _ <;> rfl)

theorem ite {c : Prop} [Decidable c] {x y : M T α} (hx : Keeps P w0 out x) (hy : Keeps P w0 out y) :
    Keeps P w0 out (if c then x else y) := by split <;> assumption

theorem _root_.GB.CellsKept.inv {w : World T} (h : CellsKept P w0 out w) (h0 : KeepsFrom P w0 out mask) (q : Ref) : (w.heap q).Inv := by
  by_cases hq : q = out
  · subst hq; exact h0.reach _ h.good
  · rw [h.others q hq]; exact h0.inv q hq

/-- Calling a method that leaves objects in reachable states as they are. -/
theorem withObj_read (h0 : KeepsFrom P w0 out mask) {p : Ref} {f : Mat T → Out (α × Mat T)}
    (hf : ∀ m : Mat T, m.Inv → ∀ a m', f m = .ok (a, m') → m' = m) : Keeps P w0 out (M.withObj p f) := by
  intro w hw
  unfold M.withObj
  cases h : f (w.heap p) with
  | ok a =>
    obtain ⟨a, m⟩ := a
    obtain rfl := hf _ (hw.inv h0 p) a m h
    simp only [Res.world, Function.update_eq_self]
    exact hw
  | panic => exact hw
  | hang => exact hw

theorem at' (h0 : KeepsFrom P w0 out mask) (p : Ref) (r c : Nat) : Keeps P w0 out (M.at' p r c : M T T) :=
  withObj_read h0 (fun _ h _ _ e => (h.reads_preserve _ _).1 _ _ e)

theorem element (h0 : KeepsFrom P w0 out mask) (k : Mask) (r c : Nat) : Keeps P w0 out (k.element r c : M T Bool) := by
  cases k with
  | nil => exact fail
  | empty r c => exact pure _
  | ref p => exact withObj_read h0 (fun _ h _ _ e => (h.reads_preserve _ _).2 _ _ e)
  | given _ _ el =>
    cases h : el r c with
    | none => simp only [Mask.element, h]; exact fail
    | some b => simp only [Mask.element, h]; exact pure _

/-- The mask still answers true about a protected cell, also if it is the output. -/
theorem _root_.GB.CellsKept.element {w : World T} (h : CellsKept P w0 out w) (h0 : KeepsFrom P w0 out mask) {r c : Nat}
    (hr : r < (w0.heap out).rows) (hc : c < (w0.heap out).cols) (hb : mask.bit w0 r c = true) :
    (mask.resolve w0 out).element r c w = .ok true w := by
  cases mask with
  | nil => cases hb
  | empty r c => cases hb
  | given r' c' el =>
    cases hel : el r c with
    | none => simp [Mask.bit, hel] at hb
    | some b =>
      simp only [Mask.bit, hel, Option.getD_some] at hb
      simp only [Mask.resolve, Mask.element, hel, hb]
      rfl
  | ref p =>
    obtain ⟨h1, h2⟩ := h0.fits
    simp only [Mask.resolve, Mask.element]
    by_cases hp : p = out
    · subst hp
      refine withObj_same ?_
      have hs := h0.same _ h.good
      rw [(h0.reach _ h.good).element_ok (by rw [hs.2.1]; exact hr) (by rw [hs.2.2]; exact hc)]
      exact congrArg (fun b => Out.ok (b, w.heap p)) (h0.asks rfl _ h.good r c hr hc hb)
    · refine withObj_same ?_
      rw [h.others p hp, Mat.Inv.element_ok (h0.inv p hp) (by rw [h1]; exact hr) (by rw [h2]; exact hc)]
      exact congrArg (fun b => Out.ok (b, w0.heap p)) hb

/-- Ask first: where the answer is no, the cell is not a protected one. -/
theorem guard (h0 : KeepsFrom P w0 out mask) {r c : Nat} {f : Bool → M T α} (ht : Keeps P w0 out (f true))
    (hf : ¬ (r < (w0.heap out).rows ∧ c < (w0.heap out).cols ∧ mask.bit w0 r c = true) → Keeps P w0 out (f false)) :
    Keeps P w0 out ((mask.resolve w0 out).element r c >>= f) := by
  by_cases hp : r < (w0.heap out).rows ∧ c < (w0.heap out).cols ∧ mask.bit w0 r c = true
  · intro w hw
    rw [bind_ok (hw.element h0 hp.1 hp.2.1 hp.2.2)]
    exact ht w hw
  · exact bind (element h0 _ _ _) (fun e => by cases e; exacts [hf hp, ht])

theorem wrote {r c : Nat} (h0 : KeepsFrom P w0 out mask) {f : Mat T → Out (Mat T)}
    (hin : ∀ m m', P m → r < m.rows → c < m.cols → f m = .ok m' → P m')
    (hout : ∀ m : Mat T, ¬ (r < m.rows ∧ c < m.cols) → f m = .panic) :
    Keeps P w0 out (M.withObj out (fun m => do let m' ← f m; .ok ((), m'))) := by
  intro w hw
  cases e : f (w.heap out) with
  | ok m' =>
    have hr : r < (w.heap out).rows ∧ c < (w.heap out).cols := by
      by_contra hr
      rw [hout _ hr] at e
      cases e
    rw [withObj_ok (a := ()) (m := m') (f := fun m => do let m' ← f m; .ok ((), m')) (by simp only [e]; rfl)]
    refine ⟨fun q hq => ?_, ?_⟩
    · simpa [Res.world, hq] using hw.others q hq
    · simpa [Res.world] using hin _ _ hw.good hr.1 hr.2 e
  | panic =>
    have : (M.withObj out (fun m => do let m' ← f m; .ok ((), m'))) w = .panic w := by
      unfold M.withObj; simp only [e]; rfl
    rw [this]; exact hw
  | hang =>
    have : (M.withObj out (fun m => do let m' ← f m; .ok ((), m'))) w = .hang w := by
      unfold M.withObj; simp only [e]; rfl
    rw [this]; exact hw

theorem set (h0 : KeepsFrom P w0 out mask) {r c : Nat}
    (hn : ¬ (r < (w0.heap out).rows ∧ c < (w0.heap out).cols ∧ mask.bit w0 r c = true)) (v : T) :
    Keeps P w0 out (M.set out r c v) :=
  wrote h0 (fun m m' hm hr hc e => h0.set m r c v m' hm hr hc hn e) (fun m h => Mat.set_outside m v h)

theorem _root_.GB.Mat.update_outside (m : Mat T) {i j : Nat} (f : T → T) (h : ¬ (i < m.rows ∧ j < m.cols)) :
    m.update i j f = .panic := by
  have h : ¬ (inRange (i : Int) m.rows = true ∧ inRange (j : Int) m.cols = true) := by
    rw [inRange_iff, inRange_iff]; omega
  cases m with
  | csr s => simp [Mat.update, CSR.update_panic _ _ _ _ h]
  | csc s => simp [Mat.update, CSC.update_panic _ _ _ _ h]
  | dense s =>
    by_cases h1 : inRange (i : Int) (Mat.dense s).rows = true
    · have h2 : inRange (j : Int) (Mat.dense s).cols = false := by simpa using fun h2 => h ⟨h1, h2⟩
      simp only [Mat.rows, Mat.cols] at h1 h2
      simp [Mat.update, Dense.update, Dense.updateWith, h1, h2]
    · simp only [Mat.rows] at h1
      simp [Mat.update, Dense.update, Dense.updateWith, h1]
  | dvec s =>
    by_cases h1 : inRange (i : Int) (Mat.dvec s).rows = true
    · have h2 : inRange (j : Int) (Mat.dvec s).cols = false := by simpa using fun h2 => h ⟨h1, h2⟩
      simp only [Mat.rows, Mat.cols] at h1 h2
      simp [Mat.update, DVec.update, DVec.updateWith, h1, h2]
    · simp only [Mat.rows] at h1
      simp [Mat.update, DVec.update, DVec.updateWith, h1]
  | svec s =>
    by_cases h1 : inRange (i : Int) (Mat.svec s).rows = true
    · have h2 : inRange (j : Int) (Mat.svec s).cols = false := by simpa using fun h2 => h ⟨h1, h2⟩
      simp only [Mat.rows, Mat.cols] at h1 h2
      simp [Mat.update, SVec.update, SVec.updateWith, h1, h2]
    · simp only [Mat.rows] at h1
      simp [Mat.update, SVec.update, SVec.updateWith, h1]

theorem update (h0 : KeepsFrom P w0 out mask) {r c : Nat}
    (hn : ¬ (r < (w0.heap out).rows ∧ c < (w0.heap out).cols ∧ mask.bit w0 r c = true)) (f : T → T) :
    Keeps P w0 out (M.update out r c f) :=
  wrote h0 (fun m m' hm hr hc e => h0.update m r c f m' hm hr hc hn e) (fun m h => Mat.update_outside m f h)

theorem loopIter {p : Ref} {oc : Option β} {body : Nat → Nat → T → M T (Option β)}
    (hb : ∀ r c v, Keeps P w0 out (body r c v)) :
    ∀ (g : Nat) (it : Mat.Iter), Keeps P w0 out (M.loopIter p oc body g it) := by
  intro g
  induction g with
  | zero => intro it; unfold M.loopIter; by_cases h : it.hasNext <;> simp only [h]; exacts [hang, pure _]
  | succ g ih =>
    intro it
    unfold M.loopIter
    split
    · refine bind poll (fun stop => ?_)
      split
      · cases oc with
        | some b => exact pure _
        | none => exact ih it
      · refine bind (ofObj _ _) (fun ⟨it', r, c, v⟩ => bind (hb r c v) (fun x => ?_))
        cases x with
        | some b => exact pure _
        | none => exact ih it'
    · exact pure _

theorem forEach {p : Ref} {oc : Option β} {body : Nat → Nat → T → M T (Option β)}
    (hb : ∀ r c v, Keeps P w0 out (body r c v)) : Keeps P w0 out (M.forEach p oc body) :=
  bind (iterOf p) (fun it => fun w => loopIter hb w.gas it w)

theorem forN {body : Nat → M T (Option β)} (hb : ∀ i, Keeps P w0 out (body i)) :
    ∀ k i0, Keeps P w0 out (M.forN k i0 body) := by
  intro k
  induction k with
  | zero => intro i0; exact pure _
  | succ k ih =>
    intro i0
    refine bind (hb i0) (fun x => ?_)
    cases x with
    | some b => exact pure _
    | none => exact ih _

theorem dot (rows column : Vec T) : ∀ k l sum, Keeps P w0 out (Ops.dot rows column k l sum) := by
  intro k
  induction k with
  | zero => intro l sum; exact pure _
  | succ k ih =>
    intro l sum
    unfold Ops.dot
    exact bind poll fun stop => ite (pure _) (bind (lift _) fun _ => bind (lift _) fun _ => ih _ _)

/-- Behind a check that may panic. -/
theorem checked {c : Prop} [Decidable c] {k : PUnit → M T α} (hk : Keeps P w0 out (k ⟨⟩)) :
    Keeps P w0 out (if c then M.fail >>= k else k ⟨⟩) :=
  ite (bind fail fun _ => hk) hk

/-- The program of an operator behind its checks of the mask. -/
theorem pre (h0 : KeepsFrom P w0 out mask) {k : Mask → M T α} (hk : Keeps P w0 out (k (mask.resolve w0 out))) :
    Keeps P w0 out (do let mask ← mask.orEmpty out; mask.check out; k mask) := by
  intro w hw
  have hd : (w.heap out).rows = (w0.heap out).rows ∧ (w.heap out).cols = (w0.heap out).cols :=
    (h0.same _ hw.good).2
  have hF : mask.Fits w out := by
    have := h0.fits
    cases mask with
    | nil => trivial
    | empty r c => rw [Mask.Fits, hd.1, hd.2]; exact this
    | given r c el => rw [Mask.Fits, hd.1, hd.2]; exact this
    | ref p =>
      by_cases hp : p = out
      · subst hp; exact ⟨rfl, rfl⟩
      · rw [Mask.Fits, hd.1, hd.2, hw.others p hp]; exact this
  have hR : mask.resolve w out = mask.resolve w0 out := by cases mask <;> simp [Mask.resolve, hd.1, hd.2]
  rw [Mask.pre_ok hF, hR]
  exact hk w hw

theorem multiply (h0 : KeepsFrom P w0 out mask) (s m : Ref) : Keeps P w0 out (Ops.multiply s m mask out) := by
  unfold Ops.multiply
  refine bind (rowsOf _) fun mr => bind (colsOf _) fun sc => ?_
  refine checked (pre h0 (bind (rowsOf _) fun sr => bind (forN (fun r => bind (ofObj _ _) fun rows => bind (colsOf _) fun mc =>
    forN (fun c => bind (ofObj _ _) fun column => bind (dot _ _ _ _ _) fun x => ?_) _ _) _ _) fun _ => pure _))
  cases x with
  | none => exact pure _
  | some sum => exact guard h0 (pure _) fun hn => bind (set h0 hn _) fun _ => pure _

theorem add (h0 : KeepsFrom P w0 out mask) (s m : Ref) : Keeps P w0 out (Ops.add s m mask out) := by
  unfold Ops.add
  refine bind (colsOf _) fun sc => bind (colsOf _) fun mc => checked (bind (rowsOf _) fun sr => bind (rowsOf _) fun mr =>
    checked (pre h0 (bind (isSparse _) fun sp => ?_)))
  exact bind (forEach fun r c v => bind (at' h0 _ _ _) fun value =>
    guard h0 (pure _) fun hn => bind (set h0 hn _) fun _ => pure _) fun _ => pure _

theorem subtract (h0 : KeepsFrom P w0 out mask) (s m : Ref) : Keeps P w0 out (Ops.subtract s m mask out) := by
  unfold Ops.subtract
  refine bind (colsOf _) fun sc => bind (colsOf _) fun mc => checked (bind (rowsOf _) fun sr => bind (rowsOf _) fun mr =>
    checked (pre h0 (bind (forEach fun r c v => ?_) fun _ => pure _)))
  exact guard h0 (pure _) fun hn => bind (update h0 hn _) fun _ => pure _

theorem eAddLoop (h0 : KeepsFrom P w0 out mask) (src : Ref) :
    Keeps P w0 out (Ops.eAddLoop src (mask.resolve w0 out) out : M T (Option Unit)) := by
  unfold Ops.eAddLoop
  refine forEach fun r c v => ?_
  by_cases hv : isZero v = true
  · simp only [hv, Bool.not_true, Bool.false_eq_true, if_false]; exact pure _
  · simp only [hv, Bool.not_false, if_true]
    exact guard h0 (pure _) fun hn => bind (set h0 hn _) fun _ => pure _

theorem elementWiseAdd (h0 : KeepsFrom P w0 out mask) (s m : Ref) : Keeps P w0 out (Ops.elementWiseAdd s m mask out) := by
  unfold Ops.elementWiseAdd
  refine pre h0 ?_
  extract_lets jp
  have hj : ∀ stop, Keeps P w0 out (jp stop) := by
    intro stop
    cases stop with
    | some _ => exact pure _
    | none => exact ite (bind (eAddLoop h0 _) fun _ => pure _) (pure _)
  exact ite (bind (eAddLoop h0 _) hj) (bind (pure _) hj)

theorem elementWiseMultiply (h0 : KeepsFrom P w0 out mask) (s m : Ref) :
    Keeps P w0 out (Ops.elementWiseMultiply s m mask out) := by
  have src : ∀ p r c v, p = out → Keeps P w0 out (Ops.eMulSetSource p (mask.resolve w0 out) r c v : M T Unit) := by
    rintro p r c v rfl
    unfold Ops.eMulSetSource
    exact guard h0 (pure _) fun hn => update h0 hn _
  have tgt : ∀ p r c v, Keeps P w0 out (Ops.eMulTarget p out (mask.resolve w0 out) r c v : M T Unit) := by
    intro p r c v
    unfold Ops.eMulTarget
    exact bind (at' h0 _ _ _) fun x => ite (guard h0 (pure _) fun hn => set h0 hn _) (pure _)
  unfold Ops.elementWiseMultiply
  refine pre h0 ?_
  dsimp only
  split
  · rename_i h; exact bind (forEach fun r c v => bind (src _ _ _ _ h) fun _ => pure _) fun _ => pure _
  · split
    · rename_i h; exact bind (forEach fun r c v => bind (src _ _ _ _ h) fun _ => pure _) fun _ => pure _
    · exact bind (isSparse _) fun sp => ite (bind (forEach fun r c v => bind (tgt _ _ _ _) fun _ => pure _) fun _ => pure _)
        (bind (forEach fun r c v => bind (tgt _ _ _ _) fun _ => pure _) fun _ => pure _)

theorem elementWiseMatrixAdd (h0 : KeepsFrom P w0 out mask) (s m : Ref) :
    Keeps P w0 out (Ops.elementWiseMatrixAdd s m mask out) := by
  unfold Ops.elementWiseMatrixAdd
  exact bind (rowsOf _) fun _ => bind (colsOf _) fun _ => checked (elementWiseAdd h0 s m)

theorem elementWiseVectorAdd (h0 : KeepsFrom P w0 out mask) (s m : Ref) :
    Keeps P w0 out (Ops.elementWiseVectorAdd s m mask out) := by
  unfold Ops.elementWiseVectorAdd
  exact bind (rowsOf _) fun _ => bind (rowsOf _) fun _ => checked (elementWiseAdd h0 s m)

theorem elementWiseMatrixMultiply (h0 : KeepsFrom P w0 out mask) (s m : Ref) :
    Keeps P w0 out (Ops.elementWiseMatrixMultiply s m mask out) := by
  unfold Ops.elementWiseMatrixMultiply
  exact bind (rowsOf _) fun _ => bind (colsOf _) fun _ => checked (elementWiseMultiply h0 s m)

theorem elementWiseVectorMultiply (h0 : KeepsFrom P w0 out mask) (s m : Ref) :
    Keeps P w0 out (Ops.elementWiseVectorMultiply s m mask out) := by
  unfold Ops.elementWiseVectorMultiply
  exact bind (rowsOf _) fun _ => bind (rowsOf _) fun _ => checked (elementWiseMultiply h0 s m)

end Keeps
end GB
