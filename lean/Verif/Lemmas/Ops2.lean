import Verif.Lemmas.Ops

/-!
# Add, Subtract, Transpose, Apply, Negative, Scalar
-/

namespace GB

set_option linter.unusedSectionVars false
set_option linter.unusedSimpArgs false

variable {T : Type} [GoNum T] [GoStore T]

open M

namespace Ops

/-- Writing the output in the middle of a loop. -/
theorem set_upd {w : World T} {out : Ref} {m' : Mat T} {c : Option Nat} (h : m'.WF)
    (hs : Mat.Same m' (w.heap out)) (hk : (w.heap out).kind ≠ .svec) {i j : Nat}
    (hi : i < (w.heap out).rows) (hj : j < (w.heap out).cols) (v : T) :
    ∃ m'', M.set out i j v (w.upd out m' c) = .ok () (w.upd out m'' c) ∧
      Mat.Wrote m' m'' i j ((w.heap out).keep v) := by
  have e : (w.upd out m' c).heap out = m' := by simp
  obtain ⟨m'', h1, h2⟩ := M.set_ok (p := out) (w := w.upd out m' c) (i := i) (j := j) (by rw [e]; exact h)
    (by rw [e, hs.1]; exact hk) (by rw [e, hs.2.1]; exact hi) (by rw [e, hs.2.2]; exact hj) v
  rw [e, hs.keep] at h2
  exact ⟨m'', by rw [h1, World.upd_heap], h2⟩

theorem update_upd {w : World T} {out : Ref} {m' : Mat T} {c : Option Nat} (h : m'.WF)
    (hs : Mat.Same m' (w.heap out)) (hk : (w.heap out).kind ≠ .svec) {i j : Nat}
    (hi : i < (w.heap out).rows) (hj : j < (w.heap out).cols)
    (hv : m'.val i j = (w.heap out).val i j) (f : T → T) :
    ∃ m'', M.update out i j f (w.upd out m' c) = .ok () (w.upd out m'' c) ∧
      Mat.Wrote m' m'' i j ((w.heap out).keep (f ((w.heap out).val i j))) := by
  have e : (w.upd out m' c).heap out = m' := by simp
  obtain ⟨m'', h1, h2⟩ := M.update_ok (p := out) (w := w.upd out m' c) (i := i) (j := j) (by rw [e]; exact h)
    (by rw [e, hs.1]; exact hk) (by rw [e, hs.2.1]; exact hi) (by rw [e, hs.2.2]; exact hj) f
  rw [e, hs.keep, hv] at h2
  exact ⟨m'', by rw [h1, World.upd_heap], h2⟩

/-- Reading any object in the middle of a loop, at a cell of the output not yet written. -/
theorem at_upd {w : World T} {p out : Ref} {m' : Mat T} {c : Option Nat} (hp : (w.heap p).Inv) (h : m'.WF)
    (hs : Mat.Same m' (w.heap out)) {i j : Nat} (hi : i < (w.heap p).rows) (hj : j < (w.heap p).cols)
    (hv : m'.val i j = (w.heap out).val i j) :
    M.at' p i j (w.upd out m' c) = .ok ((w.heap p).val i j) (w.upd out m' c) := by
  by_cases hpo : p = out
  · subst hpo
    have e : (w.upd p m' c).heap p = m' := by simp
    rw [M.at_ok (by rw [e]; exact h.inv) (by rw [e, hs.2.1]; exact hi) (by rw [e, hs.2.2]; exact hj), e, hv]
  · have e : (w.upd out m' c).heap p = w.heap p := World.upd_ne _ _ _ hpo
    rw [M.at_ok (by rw [e]; exact hp) (by rw [e]; exact hi) (by rw [e]; exact hj), e]

/-! ## Add -/

/-- The operand `Add` enumerates. -/
def addOver (w : World T) (s m : Ref) : Ref := if (w.heap s).typeName ∈ w.reg then s else m
/-- The operand `Add` reads with `At`. -/
def addSource (w : World T) (s m : Ref) : Ref := if (w.heap s).typeName ∈ w.reg then m else s

theorem add_panic {w : World T} {s m out : Ref} {mask : Mask}
    (h : ¬ (SameShape (w.heap s) (w.heap m) ∧ mask.Fits w out)) :
    Ops.add s m mask out w = .panic w := by
  unfold Ops.add
  simp only [bind_apply, colsOf_apply, rowsOf_apply]
  by_cases h1 : (w.heap s).cols = (w.heap m).cols
  · by_cases h2 : (w.heap s).rows = (w.heap m).rows
    · have h3 : ¬ mask.Fits w out := fun h3 => h ⟨⟨h2, h1⟩, h3⟩
      simp only [h1, h2, ne_eq, not_true, if_false, pure_apply, bind_apply, rowsOf_apply,
        Mask.orEmpty_apply, Mask.check_panic h3]
    · simp [h1, h2, bind_apply]
  · simp [h1, bind_apply]

open Classical in
theorem add_writes {w : World T} {s m out : Ref} {mask : Mask}
    (hs : (w.heap s).WF) (hm : (w.heap m).WF) (hout : (w.heap out).WF)
    (hk : (w.heap out).kind ≠ .svec) (h1 : SameShape (w.heap s) (w.heap m))
    (h2 : SameShape (w.heap s) (w.heap out)) (hF : mask.Fits w out) (hS : mask.Sound w)
    (hgas : (w.heap (addOver w s m)).nvalues ≤ w.gas)
    (halias : addOver w s m = out → ∀ i j, i < (w.heap out).rows → j < (w.heap out).cols →
      (w.heap (addOver w s m)).Visits i j → mask.bit w i j = false →
      Mat.Storable (w.heap out).kind
        ((w.heap (addSource w s m)).val i j + (w.heap (addOver w s m)).val i j)) :
    Writes w out (fun i j =>
        if (w.heap (addOver w s m)).Visits i j ∧ mask.bit w i j = false then
          (w.heap out).keep ((w.heap (addSource w s m)).val i j + (w.heap (addOver w s m)).val i j)
        else (w.heap out).val i j)
      (Ops.add s m mask out w) := by
  have hrun : Ops.add s m mask out w = (forEach (addOver w s m) (some ()) (fun r c v => do
      let value ← at' (addSource w s m) r c
      let e ← (mask.resolve w out).element r c
      if !e then M.set out r c (value + v)
      pure none) >>= fun _ => pure ()) w := by
    unfold Ops.add
    simp only [bind_apply, colsOf_apply, rowsOf_apply, h1.1, h1.2, ne_eq, not_true, if_false, pure_apply,
      Mask.orEmpty_apply, Mask.check_ok hF, isSparse_apply]
    by_cases hsp : (w.heap s).typeName ∈ w.reg <;> simp [addOver, addSource, hsp, bind_apply]
  rw [hrun]
  have hO : (w.heap (addOver w s m)).WF ∧ SameShape (w.heap (addOver w s m)) (w.heap out) := by
    unfold addOver; split
    · exact ⟨hs, h2⟩
    · exact ⟨hm, h1.1.symm.trans h2.1, h1.2.symm.trans h2.2⟩
  have hR : (w.heap (addSource w s m)).WF ∧ SameShape (w.heap (addSource w s m)) (w.heap out) := by
    unfold addSource; split
    · exact ⟨hm, h1.1.symm.trans h2.1, h1.2.symm.trans h2.2⟩
    · exact ⟨hs, h2⟩
  refine cellwise (skip := mask.bit w) (F := fun i j => (w.heap (addSource w s m)).val i j + (w.heap (addOver w s m)).val i j)
    hO.1 hout hO.2 hgas halias ?_
  intro i j hi hj m' c g1 g2 g3
  have e1 := at_upd (p := addSource w s m) (out := out) (c := c) hR.1.inv g1 g2 (i := i) (j := j)
    (by rw [hR.2.1]; exact hi) (by rw [hR.2.2]; exact hj) g3
  have e2 := Mask.element_upd hS hF hi hj (c := c) g1 g2 g3
  rw [bind_ok e1, bind_ok e2]
  cases hb : mask.bit w i j with
  | true => exact ⟨m', rfl, rfl⟩
  | false =>
    obtain ⟨m'', g4, g5⟩ := set_upd (c := c) g1 g2 hk hi hj
      ((w.heap (addSource w s m)).val i j + (w.heap (addOver w s m)).val i j)
    refine ⟨m'', ?_, by simpa using g5⟩
    simp only [Bool.not_false, if_true]
    rw [bind_ok g4]; rfl

/-! ## Subtract -/

theorem subtract_panic {w : World T} {s m out : Ref} {mask : Mask}
    (h : ¬ (SameShape (w.heap s) (w.heap m) ∧ mask.Fits w out)) :
    Ops.subtract s m mask out w = .panic w := by
  unfold Ops.subtract
  simp only [bind_apply, colsOf_apply, rowsOf_apply]
  by_cases h1 : (w.heap s).cols = (w.heap m).cols
  · by_cases h2 : (w.heap s).rows = (w.heap m).rows
    · have h3 : ¬ mask.Fits w out := fun h3 => h ⟨⟨h2, h1⟩, h3⟩
      simp only [h1, h2, ne_eq, not_true, if_false, pure_apply, bind_apply, rowsOf_apply,
        Mask.orEmpty_apply, Mask.check_panic h3]
    · simp [h1, h2, bind_apply]
  · simp [h1, bind_apply]

open Classical in
theorem subtract_writes {w : World T} {s m out : Ref} {mask : Mask}
    (hs : (w.heap s).WF) (hout : (w.heap out).WF)
    (hk : (w.heap out).kind ≠ .svec) (h1 : SameShape (w.heap s) (w.heap m))
    (h2 : SameShape (w.heap s) (w.heap out)) (hF : mask.Fits w out) (hS : mask.Sound w)
    (hgas : (w.heap s).nvalues ≤ w.gas)
    (halias : s = out → ∀ i j, i < (w.heap out).rows → j < (w.heap out).cols →
      (w.heap s).Visits i j → mask.bit w i j = false →
      Mat.Storable (w.heap out).kind ((w.heap s).val i j - (w.heap out).val i j)) :
    Writes w out (fun i j =>
        if (w.heap s).Visits i j ∧ mask.bit w i j = false then
          (w.heap out).keep ((w.heap s).val i j - (w.heap out).val i j)
        else (w.heap out).val i j)
      (Ops.subtract s m mask out w) := by
  have hrun : Ops.subtract s m mask out w = (forEach s (some ()) (fun r c value => do
      let e ← (mask.resolve w out).element r c
      if !e then M.update out r c (fun v => value - v)
      pure none) >>= fun _ => pure ()) w := by
    unfold Ops.subtract
    simp only [bind_apply, colsOf_apply, rowsOf_apply, h1.1, h1.2, ne_eq, not_true, if_false, pure_apply,
      Mask.orEmpty_apply, Mask.check_ok hF]
  rw [hrun]
  refine cellwise (skip := mask.bit w) (F := fun i j => (w.heap s).val i j - (w.heap out).val i j)
    hs hout h2 hgas halias ?_
  intro i j hi hj m' c g1 g2 g3
  have e2 := Mask.element_upd hS hF hi hj (c := c) g1 g2 g3
  rw [bind_ok e2]
  cases hb : mask.bit w i j with
  | true => exact ⟨m', rfl, rfl⟩
  | false =>
    obtain ⟨m'', g4, g5⟩ := update_upd (c := c) g1 g2 hk hi hj g3 (fun v => (w.heap s).val i j - v)
    refine ⟨m'', ?_, by simpa using g5⟩
    simp only [Bool.not_false, if_true]
    rw [bind_ok g4]; rfl

/-! ## Transpose and Apply with a separate output -/

open Classical in
/-- The general shape of `Transpose` and `Apply` with a separate output: for every visited cell
`(i, j)` of `over` that the mask does not protect *at* `(i, j)`, the cell `(j, i)` of `out` gets
`F i j`. -/
theorem crosswise {w : World T} {over out : Ref} {mask : Mask} {F : Nat → Nat → T}
    (hover : (w.heap over).WF) (hout : (w.heap out).WF) (hk : (w.heap out).kind ≠ .svec) (hne : over ≠ out)
    (hshape : (w.heap over).rows = (w.heap out).cols ∧ (w.heap over).cols = (w.heap out).rows)
    (hF : mask.Fits w out) (hS : mask.Sound w)
    (hsq : (w.heap out).rows = (w.heap out).cols ∨ mask.Blank) (hmo : mask ≠ .ref out)
    (hgas : (w.heap over).nvalues ≤ w.gas)
    {body : Nat → Nat → T → M T (Option Unit)}
    (hbody : ∀ r c, body r c ((w.heap over).val r c) = do
      let e ← (mask.resolve w out).element r c
      if !e then M.set out c r (F r c)
      pure none) :
    Writes w out
      (fun j i => if (w.heap over).Visits i j ∧ mask.bit w i j = false then (w.heap out).keep (F i j)
        else (w.heap out).val j i)
      ((forEach over (some ()) body >>= fun _ => pure ()) w) := by
  obtain ⟨es, h1, h2, h3, h4, h5, -⟩ := Mat.visits hover
  let pos : Nat × Nat × T → Nat × Nat := fun e => (e.2.1, e.1)
  let act : Nat × Nat × T → Option T := fun e =>
    if mask.bit w e.1 e.2.1 then none else some ((w.heap out).keep (F e.1 e.2.1))
  have hin : ∀ e ∈ es, (pos e).1 < (w.heap out).rows ∧ (pos e).2 < (w.heap out).cols := by
    intro e he
    have := h2.range e he
    rw [hshape.1, hshape.2] at this
    exact ⟨this.2, this.1⟩
  have hel : ∀ e ∈ es, ∀ m' c, (mask.resolve w out).element e.1 e.2.1 (w.upd out m' c) =
      .ok (mask.bit w e.1 e.2.1) (w.upd out m' c) := by
    intro e he m' c
    cases mask with
    | nil => rfl
    | empty r c => rfl
    | given a b el =>
      rcases hsq with hsq | hsq
      · have := hin e he
        obtain ⟨b, hb⟩ := hS e.1 e.2.1 (by rw [hF.1, hsq]; exact this.2) (by rw [hF.2, ← hsq]; exact this.1)
        simp only [Mask.resolve, Mask.element, Mask.bit, hb]
        rfl
      · exact hsq.elim
    | ref p =>
      rcases hsq with hsq | hsq
      · have hp : p ≠ out := fun h => hmo (by rw [h])
        have hS : (w.heap p).Inv := hS
        have e1 : (w.upd out m' c).heap p = w.heap p := World.upd_ne _ _ _ hp
        simp only [Mask.resolve, Mask.element]
        have := hin e he
        rw [withObj_same (a := GoNum.glt 0 ((w.heap p).val e.1 e.2.1))
          (by rw [e1]; exact hS.element_ok (by rw [hF.1, hsq]; exact this.2) (by rw [hF.2, ← hsq]; exact this.1))]
        simp [Mask.bit]
      · exact hsq.elim
  have hsc : Scattered w out pos act es (forEach over (some ()) body w) := by
    refine scatter hne h1.yields (by omega) hout hin (h5.imp ?_) ?_
    · intro a b hab hc
      apply hab
      have : a.2.1 = b.2.1 ∧ a.1 = b.1 := by simpa [pos] using hc
      simp [coord, this]
    · intro e he m' c g1 g2 g3
      have hb' := hbody e.1 e.2.1
      rw [h2.value e he] at hb'
      rw [hb', bind_ok (hel e he m' c)]
      cases hb : mask.bit w e.1 e.2.1 with
      | true => exact ⟨m', rfl, Or.inl ⟨by simp [act, hb], rfl⟩⟩
      | false =>
        obtain ⟨m'', g4, g5⟩ := set_upd (c := c) g1 g2 hk (hin e he).1 (hin e he).2 (F e.1 e.2.1)
        refine ⟨m'', ?_, Or.inr ⟨_, by simp [act, hb], g5⟩⟩
        simp only [Bool.not_false, if_true]
        rw [bind_ok g4]; rfl
  refine hsc.writes ?_ ?_
  · intro e he
    have hv := (h4 e.1 e.2.1 (h2.range e he).1 (h2.range e he).2).1 ⟨e, he, rfl⟩
    by_cases hm : mask.bit w e.1 e.2.1 = true
    · simp [act, pos, hm]
    · simp [act, pos, hm, hv]
  · intro i j hi hj hn
    rw [if_neg]
    rintro ⟨hv, -⟩
    obtain ⟨e, he, hc⟩ := (h4 j i (by rw [hshape.1]; exact hj) (by rw [hshape.2]; exact hi)).2 hv
    refine hn e he ?_
    obtain ⟨rfl, rfl⟩ : e.1 = j ∧ e.2.1 = i := by simpa [coord] using hc
    rfl

end Ops
end GB
