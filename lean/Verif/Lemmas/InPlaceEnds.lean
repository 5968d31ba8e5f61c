import Verif.Lemmas.RowEnd
import Verif.Lemmas.LateIter

/-!
# `Add`, `Subtract`, `Apply` over the matrix they enumerate
-/

namespace GB

set_option linter.unusedSectionVars false
set_option linter.unusedSimpArgs false

variable {T : Type} [GoNum T] [GoStore T]

open M

namespace Ops

/-! ## The operators as loops -/

theorem add_run {w : World T} {s m out : Ref} {mask : Mask} (h1 : SameShape (w.heap s) (w.heap m))
    (hF : mask.Fits w out) :
    Ops.add s m mask out w = (forEach (addOver w s m) (some ()) (fun r c v => do
      let value ← at' (addSource w s m) r c
      let e ← (mask.resolve w out).element r c
      if !e then M.set out r c (value + v)
      pure none) >>= fun _ => pure ()) w := by
  unfold Ops.add
  simp only [bind_apply, colsOf_apply, rowsOf_apply, h1.1, h1.2, ne_eq, not_true, if_false, pure_apply,
    Mask.orEmpty_apply, Mask.check_ok hF, isSparse_apply]
  by_cases hsp : (w.heap s).typeName ∈ w.reg <;> simp [addOver, addSource, hsp, bind_apply]

theorem add_bodyOk {w : World T} {s m out : Ref} {mask : Mask}
    (hs : (w.heap s).WF) (hm : (w.heap m).WF) (hk : (w.heap out).kind ≠ .svec)
    (h1 : SameShape (w.heap s) (w.heap m)) (ho : addOver w s m = out) (hF : mask.Fits w out) (hS : mask.Sound w) :
    BodyOk w out (mask.bit w) (fun i j => (w.heap (addSource w s m)).val i j + (w.heap out).val i j)
      (fun r c v => do
        let value ← at' (addSource w s m) r c
        let e ← (mask.resolve w out).element r c
        if !e then M.set out r c (value + v)
        pure none) := by
  have h2 : SameShape (w.heap s) (w.heap out) := by
    rw [← ho]; unfold addOver; split
    · exact ⟨rfl, rfl⟩
    · exact h1
  have hR : (w.heap (addSource w s m)).WF ∧ SameShape (w.heap (addSource w s m)) (w.heap out) := by
    unfold addSource; split
    · exact ⟨hm, h1.1.symm.trans h2.1, h1.2.symm.trans h2.2⟩
    · exact ⟨hs, h2⟩
  intro i j hi hj m' c g1 g2 g3
  have e1 := at_upd (p := addSource w s m) (out := out) (c := c) hR.1.inv g1 g2 (i := i) (j := j)
    (by rw [hR.2.1]; exact hi) (by rw [hR.2.2]; exact hj) g3
  have e2 := Mask.element_upd hS hF hi hj (c := c) g1 g2 g3
  dsimp only
  rw [bind_ok e1, bind_ok e2]
  cases hb : mask.bit w i j with
  | true => exact ⟨m', rfl, rfl⟩
  | false =>
    obtain ⟨m'', g4, g5⟩ := set_upd (c := c) g1 g2 hk hi hj
      ((w.heap (addSource w s m)).val i j + (w.heap out).val i j)
    refine ⟨m'', ?_, by simpa using g5⟩
    simp only [Bool.not_false, if_true]
    rw [bind_ok g4]; rfl

theorem subtract_run {w : World T} {s m out : Ref} {mask : Mask} (h1 : SameShape (w.heap s) (w.heap m))
    (hF : mask.Fits w out) :
    Ops.subtract s m mask out w = (forEach s (some ()) (fun r c value => do
      let e ← (mask.resolve w out).element r c
      if !e then M.update out r c (fun v => value - v)
      pure none) >>= fun _ => pure ()) w := by
  unfold Ops.subtract
  simp only [bind_apply, colsOf_apply, rowsOf_apply, h1.1, h1.2, ne_eq, not_true, if_false, pure_apply,
    Mask.orEmpty_apply, Mask.check_ok hF]

theorem subtract_bodyOk {w : World T} {out : Ref} {mask : Mask}
    (hk : (w.heap out).kind ≠ .svec) (hF : mask.Fits w out) (hS : mask.Sound w) :
    BodyOk w out (mask.bit w) (fun i j => (w.heap out).val i j - (w.heap out).val i j)
      (fun r c value => do
        let e ← (mask.resolve w out).element r c
        if !e then M.update out r c (fun v => value - v)
        pure none) := by
  intro i j hi hj m' c g1 g2 g3
  have e2 := Mask.element_upd hS hF hi hj (c := c) g1 g2 g3
  dsimp only
  rw [bind_ok e2]
  cases hb : mask.bit w i j with
  | true => exact ⟨m', rfl, rfl⟩
  | false =>
    obtain ⟨m'', g4, g5⟩ := update_upd (c := c) g1 g2 hk hi hj g3 (fun v => (w.heap out).val i j - v)
    refine ⟨m'', ?_, by simpa using g5⟩
    simp only [Bool.not_false, if_true]
    rw [bind_ok g4]; rfl

/-! ## Zeros only at line ends -/

theorem storable_or_end {k : Kind} (hk : k = .csr ∨ k = .csc) {v : T} {P : Prop}
    (h : isZero v = false ∨ P) : Mat.Storable k v ∨ P := by
  rcases h with h | h
  · left; rcases hk with rfl | rfl <;> exact h
  · exact Or.inr h

open Classical in
theorem bodyOk_ends {w : World T} {out : Ref} {skip : Nat → Nat → Bool} {F : Nat → Nat → T}
    {body : Nat → Nat → T → M T (Option Unit)} (hb : BodyOk w out skip F body)
    (hout : (w.heap out).WF) (hgas : (w.heap out).nvalues ≤ w.gas)
    (halias : ∀ i j, i < (w.heap out).rows → j < (w.heap out).cols →
      (w.heap out).Visits i j → skip i j = false →
      Mat.Storable (w.heap out).kind (F i j) ∨ (w.heap out).LineEnd i j) :
    Writes w out
      (fun i j => if (w.heap out).Visits i j ∧ skip i j = false then (w.heap out).keep (F i j)
        else (w.heap out).val i j)
      ((forEach out (some ()) body >>= fun _ => pure ()) w) :=
  cellwise_ends hout hgas halias hb

open Classical in
theorem add_ends {w : World T} {s m out : Ref} {mask : Mask}
    (hs : (w.heap s).WF) (hm : (w.heap m).WF) (hk : (w.heap out).kind = .csr ∨ (w.heap out).kind = .csc)
    (h1 : SameShape (w.heap s) (w.heap m)) (ho : addOver w s m = out) (hF : mask.Fits w out) (hS : mask.Sound w)
    (hgas : (w.heap out).nvalues ≤ w.gas)
    (hz : ∀ i j, i < (w.heap out).rows → j < (w.heap out).cols → (w.heap out).val i j ≠ 0 → mask.bit w i j = false →
      isZero ((w.heap (addSource w s m)).val i j + (w.heap out).val i j) = false ∨ (w.heap out).LineEnd i j) :
    Writes w out (fun i j =>
        if (w.heap out).val i j ≠ 0 ∧ mask.bit w i j = false then
          norm ((w.heap (addSource w s m)).val i j + (w.heap out).val i j)
        else (w.heap out).val i j)
      (Ops.add s m mask out w) := by
  have hw : (w.heap out).WF := by rw [← ho]; unfold addOver; split <;> assumption
  have hks : (w.heap out).kind ≠ .svec := by rcases hk with h | h <;> simp [h]
  have hV : ∀ i j, (w.heap out).Visits i j ↔ (w.heap out).val i j ≠ 0 := by
    intro i j; unfold Mat.Visits; rcases hk with h | h <;> simp [h]
  have hkeep : ∀ v, (w.heap out).keep v = norm v := by
    intro v; unfold Mat.keep; rcases hk with h | h <;> rw [h]
  rw [add_run h1 hF]
  have := bodyOk_ends (add_bodyOk hs hm hks h1 ho hF hS) hw hgas
    (fun i j hi hj hv hsk => storable_or_end hk (hz i j hi hj ((hV i j).1 hv) hsk))
  rw [ho]
  simpa only [hV, hkeep] using this

open Classical in
theorem subtract_ends {w : World T} {m out : Ref} {mask : Mask}
    (hs : (w.heap out).WF) (hk : (w.heap out).kind = .csr ∨ (w.heap out).kind = .csc)
    (h1 : SameShape (w.heap out) (w.heap m)) (hF : mask.Fits w out) (hS : mask.Sound w)
    (hgas : (w.heap out).nvalues ≤ w.gas)
    (hz : ∀ i j, i < (w.heap out).rows → j < (w.heap out).cols → (w.heap out).val i j ≠ 0 → mask.bit w i j = false →
      isZero ((w.heap out).val i j - (w.heap out).val i j) = false ∨ (w.heap out).LineEnd i j) :
    Writes w out (fun i j =>
        if (w.heap out).val i j ≠ 0 ∧ mask.bit w i j = false then
          norm ((w.heap out).val i j - (w.heap out).val i j)
        else (w.heap out).val i j)
      (Ops.subtract out m mask out w) := by
  have hks : (w.heap out).kind ≠ .svec := by rcases hk with h | h <;> simp [h]
  have hV : ∀ i j, (w.heap out).Visits i j ↔ (w.heap out).val i j ≠ 0 := by
    intro i j; unfold Mat.Visits; rcases hk with h | h <;> simp [h]
  have hkeep : ∀ v, (w.heap out).keep v = norm v := by
    intro v; unfold Mat.keep; rcases hk with h | h <;> rw [h]
  rw [subtract_run h1 hF]
  have := bodyOk_ends (subtract_bodyOk hks hF hS) hs hgas
    (fun i j hi hj hv hsk => storable_or_end hk (hz i j hi hj ((hV i j).1 hv) hsk))
  simpa only [hV, hkeep] using this

open Classical in
theorem apply_ends {w : World T} {out : Ref} {mask : Mask} {u : T → T}
    (hs : (w.heap out).WF) (hk : (w.heap out).kind = .csr ∨ (w.heap out).kind = .csc)
    (hF : mask.Fits w out) (hS : mask.Sound w) (hgas : (w.heap out).nvalues ≤ w.gas)
    (hz : ∀ i j, i < (w.heap out).rows → j < (w.heap out).cols → (w.heap out).val i j ≠ 0 → mask.bit w i j = true →
      isZero (u ((w.heap out).val i j)) = false ∨ (w.heap out).LineEnd i j) :
    Writes w out (fun i j =>
        if (w.heap out).val i j ≠ 0 then
          norm (if mask.bit w i j = true then u ((w.heap out).val i j) else (w.heap out).val i j)
        else (w.heap out).val i j)
      (Ops.apply out mask u out w) := by
  have hrun : Ops.apply out mask u out w = (forMap out true (fun r c value => do
      let e ← (mask.resolve w out).element r c
      if e then pure (u value) else pure value) >>= fun _ => pure ()) w := by
    unfold Ops.apply; rw [Mask.pre_ok hF]; simp only [if_true]
  rw [hrun]
  refine mapwise_ends (w := w) (out := out) (oc := true)
    (F := fun i j => if mask.bit w i j = true then u ((w.heap out).val i j) else (w.heap out).val i j)
    hs hk hgas (by simp) ?_ ?_
  · intro i j hi hj hv h0
    by_cases hb : mask.bit w i j = true
    · simp only [hb, if_true]; exact hz i j hi hj hv hb
    · simp only [hb]; exact Or.inl h0
  · intro i j hi hj m' c g1 g2 g3
    rw [bind_ok (Mask.element_upd hS hF hi hj (c := c) g1 g2 g3)]
    cases hb : mask.bit w i j <;> rfl

/-! ## One line: any other zero panics -/

theorem isPanic_bind {α β : Type} {x : M T α} {f : α → M T β} {w : World T} (h : (x w).isPanic = true) :
    ((x >>= f) w).isPanic = true := by
  rw [bind_apply]
  cases hx : x w <;> rw [hx] at h <;> first | rfl | cases h

theorem add_one_panics {w : World T} {s m out : Ref} {mask : Mask} (hc : w.cancel = none)
    (hs : (w.heap s).WF) (hm : (w.heap m).WF) (hl : (w.heap out).OneLine)
    (h1 : SameShape (w.heap s) (w.heap m)) (ho : addOver w s m = out) (hF : mask.Fits w out) (hS : mask.Sound w)
    (hgas : (w.heap out).nvalues ≤ w.gas) {i j : Nat} (hi : i < (w.heap out).rows) (hj : j < (w.heap out).cols)
    (hv : (w.heap out).val i j ≠ 0) (hb : mask.bit w i j = false)
    (hz : isZero ((w.heap (addSource w s m)).val i j + (w.heap out).val i j) = true)
    (hne : ¬ (w.heap out).LineEnd i j) : (Ops.add s m mask out w).isPanic = true := by
  have hw : (w.heap out).WF := by rw [← ho]; unfold addOver; split <;> assumption
  have hks : (w.heap out).kind ≠ .svec := by rcases hl with h | h <;> simp [h.1]
  rw [add_run h1 hF, ho]
  exact isPanic_bind (inplace_panics hc hw hl hgas (add_bodyOk hs hm hks h1 ho hF hS) hi hj hv hb hz hne)

theorem subtract_one_panics {w : World T} {m out : Ref} {mask : Mask} (hc : w.cancel = none)
    (hs : (w.heap out).WF) (hl : (w.heap out).OneLine)
    (h1 : SameShape (w.heap out) (w.heap m)) (hF : mask.Fits w out) (hS : mask.Sound w)
    (hgas : (w.heap out).nvalues ≤ w.gas) {i j : Nat} (hi : i < (w.heap out).rows) (hj : j < (w.heap out).cols)
    (hv : (w.heap out).val i j ≠ 0) (hb : mask.bit w i j = false)
    (hz : isZero ((w.heap out).val i j - (w.heap out).val i j) = true)
    (hne : ¬ (w.heap out).LineEnd i j) : (Ops.subtract out m mask out w).isPanic = true := by
  have hks : (w.heap out).kind ≠ .svec := by rcases hl with h | h <;> simp [h.1]
  rw [subtract_run h1 hF]
  exact isPanic_bind (inplace_panics hc hs hl hgas (subtract_bodyOk hks hF hS) hi hj hv hb hz hne)

end Ops

end GB
