import Verif.Lemmas.Mul

/-!
# Element-wise operators and Equal
-/

namespace GB

set_option linter.unusedSectionVars false
set_option linter.unusedSimpArgs false

variable {T : Type} [GoNum T] [GoStore T]

open M

namespace Ops

/-! ## elementWiseMultiply -/

theorem eMul_panic {w : World T} {s m out : Ref} {mask : Mask} (hF : ¬ mask.Fits w out) :
    Ops.elementWiseMultiply s m mask out w = .panic w := by
  unfold Ops.elementWiseMultiply; rw [Mask.pre_panic hF]

open Classical in
/-- In place: the enumerated operand `over` is compared with the output. -/
theorem eMul_inplace {w : World T} {over out : Ref} {mask : Mask}
    (hs : (w.heap over).WF) (hout : (w.heap out).WF) (hk : (w.heap out).kind ≠ .svec)
    (h1 : SameShape (w.heap over) (w.heap out)) (hF : mask.Fits w out) (hS : mask.Sound w)
    (hgas : (w.heap over).nvalues ≤ w.gas)
    (hrefl : over = out → ∀ i j, i < (w.heap out).rows → j < (w.heap out).cols →
      GoNum.geq ((w.heap out).val i j) ((w.heap out).val i j) = true) :
    Writes w out (fun i j => if (w.heap over).Visits i j ∧ mask.bit w i j = false then
        (w.heap out).keep (if GoNum.geq ((w.heap over).val i j) ((w.heap out).val i j) then
          (w.heap out).val i j else 0) else (w.heap out).val i j)
      ((forEach over (some ()) (fun r c v => do
        eMulSetSource out (mask.resolve w out) r c v; pure none) >>= fun _ => pure ()) w) := by
  refine cellwise (skip := mask.bit w) (F := fun i j =>
    if GoNum.geq ((w.heap over).val i j) ((w.heap out).val i j) then (w.heap out).val i j else 0)
    hs hout h1 hgas ?_ ?_
  · rintro rfl i j hi hj hv -
    rw [hrefl rfl i j hi hj]
    simp only [if_true]
    obtain ⟨es, g1, g2, g3, g4, g5, g6⟩ := Mat.visits hs
    obtain ⟨e, he, hc⟩ := (g4 i j hi hj).2 hv
    obtain ⟨rfl, rfl⟩ : e.1 = i ∧ e.2.1 = j := by simpa [coord] using hc
    rw [g2.value e he]
    exact g6 e he
  · intro i j hi hj m' c g1 g2 g3
    have e2 := Mask.element_upd hS hF hi hj (c := c) g1 g2 g3
    unfold eMulSetSource
    cases hb : mask.bit w i j with
    | true =>
      rw [hb] at e2
      refine ⟨m', ?_, rfl⟩
      rw [bind_ok (a := ()) (by rw [bind_ok e2]; rfl)]; rfl
    | false =>
      rw [hb] at e2
      obtain ⟨m'', g4, g5⟩ := update_upd (c := c) g1 g2 hk hi hj g3
        (fun v => if !GoNum.geq ((w.heap over).val i j) v then 0 else v)
      refine ⟨m'', ?_, ?_⟩
      · rw [bind_ok (a := ()) (by rw [bind_ok e2]; exact g4)]; rfl
      · cases hq : GoNum.geq ((w.heap over).val i j) ((w.heap out).val i j) <;> simpa [hq] using g5

open Classical in
/-- Separate output: cells where the operands are equal are written. -/
theorem eMul_separate {w : World T} {over source out : Ref} {mask : Mask}
    (hs : (w.heap over).WF) (hm : (w.heap source).Inv) (hout : (w.heap out).WF) (hk : (w.heap out).kind ≠ .svec)
    (h1 : SameShape (w.heap over) (w.heap out)) (h2 : SameShape (w.heap source) (w.heap out))
    (hF : mask.Fits w out) (hS : mask.Sound w)
    (hgas : (w.heap over).nvalues ≤ w.gas) (hne : over ≠ out) :
    Writes w out (fun i j => if (w.heap over).Visits i j ∧ mask.bit w i j = false ∧
          GoNum.geq ((w.heap over).val i j) ((w.heap source).val i j) = true then
        (w.heap out).keep ((w.heap over).val i j) else (w.heap out).val i j)
      ((forEach over (some ()) (fun r c v => do
        eMulTarget source out (mask.resolve w out) r c v; pure none) >>= fun _ => pure ()) w) := by
  have := cellwise (w := w) (over := over) (out := out)
    (skip := fun i j => mask.bit w i j || !GoNum.geq ((w.heap over).val i j) ((w.heap source).val i j))
    (F := fun i j => (w.heap over).val i j)
    (body := fun r c v => do eMulTarget source out (mask.resolve w out) r c v; pure none)
    hs hout h1 hgas (fun h => absurd h hne) (by
      intro i j hi hj m' c g1 g2 g3
      have e1 := at_upd (p := source) (out := out) (c := c) hm g1 g2 (i := i) (j := j)
        (by rw [h2.1]; exact hi) (by rw [h2.2]; exact hj) g3
      have e2 := Mask.element_upd hS hF hi hj (c := c) g1 g2 g3
      unfold eMulTarget
      cases hq : GoNum.geq ((w.heap over).val i j) ((w.heap source).val i j) with
      | false =>
        refine ⟨m', ?_, by simp⟩
        rw [bind_ok (a := ()) (w' := w.upd out m' c) (by rw [bind_ok e1]; simp [hq])]; rfl
      | true =>
        cases hb : mask.bit w i j with
        | true =>
          rw [hb] at e2
          refine ⟨m', ?_, by simp⟩
          rw [bind_ok (a := ()) (w' := w.upd out m' c)
            (by rw [bind_ok e1]; simp only [hq, if_true]; rw [bind_ok e2]; rfl)]
          rfl
        | false =>
          rw [hb] at e2
          obtain ⟨m'', g4, g5⟩ := set_upd (c := c) g1 g2 hk hi hj ((w.heap over).val i j)
          refine ⟨m'', ?_, by simpa using g5⟩
          rw [bind_ok (a := ()) (w' := w.upd out m'' c)
            (by rw [bind_ok e1]; simp only [hq, if_true]; rw [bind_ok e2]; exact g4)]
          rfl)
  convert this using 2 with i
  funext j
  cases mask.bit w i j <;> cases GoNum.geq ((w.heap over).val i j) ((w.heap source).val i j) <;> simp

/-! ## elementWiseAdd -/

theorem eAdd_panic {w : World T} {s m out : Ref} {mask : Mask} (hF : ¬ mask.Fits w out) :
    Ops.elementWiseAdd s m mask out w = .panic w := by
  unfold Ops.elementWiseAdd; rw [Mask.pre_panic hF]

/-- One loop of `elementWiseAdd`. -/
theorem eAddLoop_ok {w : World T} {src out : Ref} {mask mask' : Mask}
    (hs : (w.heap src).WF) (hout : (w.heap out).WF) (hk : (w.heap out).kind ≠ .svec)
    (h1 : SameShape (w.heap src) (w.heap out)) (hF : mask.Fits w out) (hS : mask.Sound w)
    (hgas : (w.heap src).nvalues ≤ w.gas) (hne : src ≠ out) (hm : mask' = mask.resolve w out) :
    ∃ x m' c, eAddLoop src mask' out w = .ok x (w.upd out m' c) ∧ m'.WF ∧ Mat.Same m' (w.heap out) ∧
      (w.cancel = none → c = none ∧ x = none) ∧
      (x = none → ∀ i j, i < (w.heap out).rows → j < (w.heap out).cols → m'.val i j =
        if mask.bit w i j = false ∧ isZero ((w.heap src).val i j) = false then
          (w.heap out).keep ((w.heap src).val i j) else (w.heap out).val i j) ∧
      (∀ i j, i < (w.heap out).rows → j < (w.heap out).cols → m'.val i j = (w.heap out).val i j ∨
        (mask.bit w i j = false ∧ isZero ((w.heap src).val i j) = false ∧
          m'.val i j = (w.heap out).keep ((w.heap src).val i j))) := by
  subst hm
  obtain ⟨es, h1', h2, h3, h4, h5, -⟩ := Mat.visits hs
  let act : Nat × Nat × T → Option T := fun e =>
    if mask.bit w e.1 e.2.1 = false ∧ isZero e.2.2 = false then some ((w.heap out).keep e.2.2) else none
  have hin : ∀ e ∈ es, (coord e).1 < (w.heap out).rows ∧ (coord e).2 < (w.heap out).cols := by
    intro e he
    have := h2.range e he
    rw [h1.1, h1.2] at this
    exact this
  have hsc : Scattered w out coord act es (eAddLoop src (mask.resolve w out) out w) := by
    unfold eAddLoop
    refine scatter hne h1'.yields (by omega) hout hin h5 ?_
    intro e he m' c g1 g2 g3
    have e2 := Mask.element_upd hS hF (hin e he).1 (hin e he).2 (c := c) g1 g2 g3
    simp only [coord] at e2
    cases hz : isZero e.2.2 with
    | true => exact ⟨m', rfl, Or.inl ⟨by simp [act, hz], rfl⟩⟩
    | false =>
      simp only [Bool.not_false, if_true]
      rw [bind_ok e2]
      cases hb : mask.bit w e.1 e.2.1 with
      | true => exact ⟨m', rfl, Or.inl ⟨by simp [act, hb], rfl⟩⟩
      | false =>
        obtain ⟨m'', g4, g5⟩ := set_upd (c := c) g1 g2 hk (hin e he).1 (hin e he).2 e.2.2
        refine ⟨m'', ?_, Or.inr ⟨_, by simp [act, hb, hz], g5⟩⟩
        simp only [Bool.not_false, if_true]
        simp only [coord] at g4
        rw [bind_ok g4]; rfl
  obtain ⟨x, m', c, done, rest, f1, f2, f3, f4, f5⟩ := hsc
  have hval : ∀ e ∈ done, m'.val e.1 e.2.1 =
      if mask.bit w e.1 e.2.1 = false ∧ isZero ((w.heap src).val e.1 e.2.1) = false then
        (w.heap out).keep ((w.heap src).val e.1 e.2.1) else (w.heap out).val e.1 e.2.1 := by
    intro e he
    have := f3.hit e he
    simp only [coord] at this
    rw [this, h2.value e (by rw [f2]; simp [he])]
    simp only [act]
    split <;> rfl
  refine ⟨x, m', c, f1, f3.wf, f3.same, ?_, ?_, ?_⟩
  · intro hc
    refine ⟨f5 hc, ?_⟩
    rcases f4 with ⟨h, -⟩ | ⟨-, h⟩
    · exact h
    · rw [f5 hc] at h; simp at h
  · rintro rfl i j hi hj
    have hes : es = done := by
      rcases f4 with ⟨-, h⟩ | ⟨h, -⟩
      · rw [f2, h]; simp
      · simp at h
    by_cases hx : ∃ e ∈ es, coord e = (i, j)
    · obtain ⟨e, he, hc⟩ := hx
      obtain ⟨rfl, rfl⟩ : e.1 = i ∧ e.2.1 = j := by simpa [coord] using hc
      exact hval e (hes ▸ he)
    · have hv := fun h => hx ((h4 i j (by rw [h1.1]; exact hi) (by rw [h1.2]; exact hj)).2 h)
      have h0 : (w.heap src).val i j = 0 := by
        by_contra h; exact hv (Or.inr (Or.inr h))
      push Not at hx
      rw [f3.miss i j hi hj (fun e he => hx e (by rw [hes]; exact he)), h0]
      simp [isZero_zero]
  · intro i j hi hj
    by_cases hx : ∃ e ∈ done, coord e = (i, j)
    · obtain ⟨e, he, hc⟩ := hx
      obtain ⟨rfl, rfl⟩ : e.1 = i ∧ e.2.1 = j := by simpa [coord] using hc
      rw [hval e he]
      by_cases hq : mask.bit w e.1 e.2.1 = false ∧ isZero ((w.heap src).val e.1 e.2.1) = false
      · rw [if_pos hq]; exact Or.inr ⟨hq.1, hq.2, rfl⟩
      · rw [if_neg hq]; exact Or.inl rfl
    · push Not at hx
      exact Or.inl (f3.miss i j hi hj hx)

/-- What `elementWiseAdd` leaves in a cell: the operand `m` first, then `s`, then the old value; an
operand that is the output is not looked at. -/
def eAddNew (w : World T) (s m : Ref) (mask : Mask) (out : Ref) (i j : Nat) : T :=
  if mask.bit w i j then (w.heap out).val i j
  else if m ≠ out ∧ isZero ((w.heap m).val i j) = false then (w.heap out).keep ((w.heap m).val i j)
  else if s ≠ out ∧ isZero ((w.heap s).val i j) = false then (w.heap out).keep ((w.heap s).val i j)
  else (w.heap out).val i j

theorem eAdd_ok {w : World T} {s m out : Ref} {mask : Mask}
    (hs : (w.heap s).WF) (hm : (w.heap m).WF) (hout : (w.heap out).WF) (hk : (w.heap out).kind ≠ .svec)
    (h1 : SameShape (w.heap s) (w.heap out)) (h2 : SameShape (w.heap m) (w.heap out))
    (hF : mask.Fits w out) (hS : mask.Sound w) (hmo : mask ≠ .ref out)
    (hgs : (w.heap s).nvalues ≤ w.gas) (hgm : (w.heap m).nvalues ≤ w.gas) :
    ∃ m' c, elementWiseAdd s m mask out w = .ok () (w.upd out m' c) ∧ m'.WF ∧ Mat.Same m' (w.heap out) ∧
      (w.cancel = none → c = none ∧ ∀ i j, i < (w.heap out).rows → j < (w.heap out).cols →
        m'.val i j = eAddNew w s m mask out i j) ∧
      ∀ i j, i < (w.heap out).rows → j < (w.heap out).cols →
        m'.val i j = eAddNew w s m mask out i j ∨ m'.val i j = (w.heap out).val i j ∨
        (mask.bit w i j = false ∧ m'.val i j = (w.heap out).keep ((w.heap s).val i j)) := by
  have hrun : ∀ k : Mask → M T Unit, _ := fun k => Mask.pre_ok hF k
  -- the first loop
  have first : ∃ x m1 c1, (if s ≠ out then eAddLoop s (mask.resolve w out) out else pure none) w =
        .ok x (w.upd out m1 c1) ∧ m1.WF ∧ Mat.Same m1 (w.heap out) ∧
      (w.cancel = none → c1 = none ∧ x = none) ∧
      (x = none → ∀ i j, i < (w.heap out).rows → j < (w.heap out).cols → m1.val i j =
        if mask.bit w i j = false ∧ s ≠ out ∧ isZero ((w.heap s).val i j) = false then
          (w.heap out).keep ((w.heap s).val i j) else (w.heap out).val i j) ∧
      (∀ i j, i < (w.heap out).rows → j < (w.heap out).cols → m1.val i j = (w.heap out).val i j ∨
        (mask.bit w i j = false ∧ m1.val i j = (w.heap out).keep ((w.heap s).val i j))) := by
    by_cases hso : s = out
    · refine ⟨none, w.heap out, w.cancel, ?_, hout, Mat.Same.refl _, fun h => ⟨h, rfl⟩, ?_, ?_⟩
      · simp [hso, World.upd_self]
      · intro _ i j _ _; simp [hso]
      · intro i j _ _; exact Or.inl rfl
    · obtain ⟨x, m1, c1, f1, f2, f3, f4, f5, f6⟩ := eAddLoop_ok hs hout hk h1 hF hS hgs hso rfl
      refine ⟨x, m1, c1, by simp only [ne_eq, hso, not_false_iff, if_true]; exact f1, f2, f3, f4, ?_, ?_⟩
      · intro hx i j hi hj
        rw [f5 hx i j hi hj]
        simp [hso]
      · intro i j hi hj
        rcases f6 i j hi hj with h | ⟨h, -, h'⟩
        · exact Or.inl h
        · exact Or.inr ⟨h, h'⟩
  obtain ⟨x, m1, c1, f1, f2, f3, f4, f5, f6⟩ := first
  have hE : elementWiseAdd s m mask out w = (match x with
      | some () => pure ()
      | none => if m ≠ out then (eAddLoop m (mask.resolve w out) out >>= fun _ => pure ()) else pure () : M T Unit)
      (w.upd out m1 c1) := by
    unfold elementWiseAdd
    rw [Mask.pre_ok hF]
    by_cases hso : s = out
    · simp only [ne_eq, hso, not_true, if_false] at f1 ⊢
      rw [bind_ok f1]
      cases x <;> rfl
    · simp only [ne_eq, hso, not_false_iff, if_true] at f1 ⊢
      rw [bind_ok f1]
      cases x <;> rfl
  rw [hE]
  cases x with
  | some u =>
    refine ⟨m1, c1, rfl, f2, f3, ?_, ?_⟩
    · intro hc; have := (f4 hc).2; simp at this
    · intro i j hi hj
      exact Or.inr (f6 i j hi hj)
  | none =>
    have f5 := f5 rfl
    by_cases hmo' : m = out
    · refine ⟨m1, c1, by simp [hmo'], f2, f3, ?_, ?_⟩
      · intro hc
        refine ⟨(f4 hc).1, fun i j hi hj => ?_⟩
        rw [f5 i j hi hj]
        unfold eAddNew
        cases mask.bit w i j <;> simp [hmo']
      · intro i j hi hj
        exact Or.inr (f6 i j hi hj)
    · have eo : (w.upd out m1 c1).heap out = m1 := by simp
      have em : (w.upd out m1 c1).heap m = w.heap m := World.upd_ne _ _ _ hmo'
      have hbit : ∀ i j, mask.bit (w.upd out m1 c1) i j = mask.bit w i j := by
        intro i j
        cases mask with
        | nil => rfl
        | empty r c => rfl
        | given r c el => rfl
        | ref p =>
          have : p ≠ out := fun h => hmo (by rw [h])
          simp only [Mask.bit, World.upd_ne _ _ _ this]
      have hF' : mask.Fits (w.upd out m1 c1) out := by
        cases mask with
        | nil => trivial
        | empty r c => exact ⟨by rw [eo, f3.2.1]; exact hF.1, by rw [eo, f3.2.2]; exact hF.2⟩
        | given r c el => exact ⟨by rw [eo, f3.2.1]; exact hF.1, by rw [eo, f3.2.2]; exact hF.2⟩
        | ref p =>
          have : p ≠ out := fun h => hmo (by rw [h])
          exact ⟨by rw [eo, f3.2.1, World.upd_ne _ _ _ this]; exact hF.1,
            by rw [eo, f3.2.2, World.upd_ne _ _ _ this]; exact hF.2⟩
      have hS' : mask.Sound (w.upd out m1 c1) := by
        cases mask with
        | nil => trivial
        | empty r c => trivial
        | given r c el => exact hS
        | ref p =>
          have : p ≠ out := fun h => hmo (by rw [h])
          show ((w.upd out m1 c1).heap p).Inv
          rw [World.upd_ne _ _ _ this]; exact hS
      obtain ⟨x2, m2, c2, g1, g2, g3, g4, g5, g6⟩ := eAddLoop_ok (w := w.upd out m1 c1) (src := m) (out := out)
        (mask := mask) (mask' := mask.resolve w out)
        (by rw [em]; exact hm) (by rw [eo]; exact f2) (by rw [eo, f3.1]; exact hk)
        (by rw [em, eo]; exact ⟨h2.1.trans f3.2.1.symm, h2.2.trans f3.2.2.symm⟩) hF' hS'
        (by rw [em]; exact hgm) hmo' (by
          cases mask with
          | nil => simp [Mask.resolve, f3.2.1, f3.2.2]
          | empty r c => rfl
          | given r c el => rfl
          | ref p => rfl)
      rw [World.upd_upd] at g1
      refine ⟨m2, c2, ?_, g2, (by rw [eo] at g3; exact g3.trans f3), ?_, ?_⟩
      · simp only [ne_eq, hmo', not_false_iff, if_true]
        rw [bind_ok g1]; rfl
      · intro hc
        have hx := g4 (f4 hc).1
        refine ⟨hx.1, fun i j hi hj => ?_⟩
        rw [g5 hx.2 i j (by rw [eo, f3.2.1]; exact hi) (by rw [eo, f3.2.2]; exact hj), em, eo, hbit,
          f5 i j hi hj, f3.keep]
        unfold eAddNew
        cases mask.bit w i j <;> cases isZero ((w.heap m).val i j) <;> simp [hmo']
      · intro i j hi hj
        have := g6 i j (by rw [eo, f3.2.1]; exact hi) (by rw [eo, f3.2.2]; exact hj)
        rw [em, eo, hbit, f3.keep] at this
        rcases this with h | ⟨hb, hz, h⟩
        · rw [h]; exact Or.inr (f6 i j hi hj)
        · rw [h]
          left
          simp [eAddNew, hb, hz, hmo']

/-! ## Equal -/

/-- What `Equal` tests once the shapes agree: with both or neither registered as sparse, the same
number of values; then every cell `Enumerate` delivers of the sparse operand (of `m` when `s` is not
registered) against the other operand. -/
theorem equal_ok {w : World T} {s m : Ref} (hs : (w.heap s).WF) (hm : (w.heap m).WF)
    (hgs : (w.heap s).nvalues ≤ w.gas) (hgm : (w.heap m).nvalues ≤ w.gas) (hc : w.cancel = none) :
    ∃ b, Ops.equal s m w = .ok b w ∧ (b = true ↔
      SameShape (w.heap s) (w.heap m) ∧
      (((w.heap s).typeName ∈ w.reg ↔ (w.heap m).typeName ∈ w.reg) → (w.heap s).nvalues = (w.heap m).nvalues) ∧
      ∀ i j, i < (w.heap s).rows → j < (w.heap s).cols → (w.heap (addOver w s m)).Visits i j →
        GoNum.geq ((w.heap (addOver w s m)).val i j) ((w.heap (addSource w s m)).val i j) = true) := by
  unfold Ops.equal
  simp only [bind_apply, colsOf_apply, rowsOf_apply]
  by_cases h1 : (w.heap s).cols = (w.heap m).cols
  swap
  · refine ⟨false, by simp [h1], ?_⟩
    simp [SameShape, h1]
  by_cases h2 : (w.heap s).rows = (w.heap m).rows
  swap
  · refine ⟨false, by simp [h1, h2, bind_apply], ?_⟩
    simp [SameShape, h2]
  simp only [h1, h2, ne_eq, not_true, if_false, bind_apply, rowsOf_apply, isSparse_apply, valuesOf_apply]
  by_cases h3 : ((w.heap s).typeName ∈ w.reg ↔ (w.heap m).typeName ∈ w.reg) ∧
      (w.heap s).nvalues ≠ (w.heap m).nvalues
  · refine ⟨false, ?_, ?_⟩
    · obtain ⟨h3, h4⟩ := h3
      by_cases hsp : (w.heap s).typeName ∈ w.reg
      · have := h3.1 hsp; simp [hsp, this, h4]
      · have : (w.heap m).typeName ∉ w.reg := fun h => hsp (h3.2 h)
        simp [hsp, this, h4]
    · simp only [Bool.false_eq_true, false_iff]
      rintro ⟨-, h, -⟩
      exact h3.2 (h h3.1)
  · have hguard : (((decide ((w.heap s).typeName ∈ w.reg) && decide ((w.heap m).typeName ∈ w.reg)) ||
        (!decide ((w.heap s).typeName ∈ w.reg) && !decide ((w.heap m).typeName ∈ w.reg))) &&
        ((w.heap s).nvalues != (w.heap m).nvalues)) = false := by
      by_contra h
      rw [Bool.not_eq_false, Bool.and_eq_true, bne_iff_ne] at h
      refine h3 ⟨?_, h.2⟩
      by_cases hsp : (w.heap s).typeName ∈ w.reg <;> by_cases hmp : (w.heap m).typeName ∈ w.reg <;>
        simp [hsp, hmp] at h ⊢
    simp only [hguard, Bool.false_eq_true, if_false]
    have hpair : (if decide ((w.heap s).typeName ∈ w.reg) = true then (s, m) else (m, s)) =
        (addOver w s m, addSource w s m) := by
      unfold addOver addSource
      by_cases hsp : (w.heap s).typeName ∈ w.reg <;> simp [hsp]
    rw [hpair]
    have hO : (w.heap (addOver w s m)).WF ∧ (w.heap (addOver w s m)).nvalues ≤ w.gas ∧
        SameShape (w.heap (addOver w s m)) (w.heap s) := by
      unfold addOver; split
      · exact ⟨hs, hgs, rfl, rfl⟩
      · exact ⟨hm, hgm, h2.symm, h1.symm⟩
    have hR : (w.heap (addSource w s m)).WF ∧ SameShape (w.heap (addSource w s m)) (w.heap s) := by
      unfold addSource; split
      · exact ⟨hm, h2.symm, h1.symm⟩
      · exact ⟨hs, rfl, rfl⟩
    set over := addOver w s m
    set source := addSource w s m
    obtain ⟨es, e1, e2, e3, e4, -⟩ := Mat.visits hO.1
    let good : Nat × Nat × T → Prop := fun e => GoNum.geq e.2.2 ((w.heap source).val e.1 e.2.1) = true
    have hloop : ∃ x, forEach over (some false) (fun r c sV => do
          let mV ← at' source r c
          if !GoNum.geq sV mV then pure (some false) else pure none) w = .ok x w ∧
        ((x = none ∧ ∀ e ∈ es, good e) ∨ (x = some false ∧ ∃ e ∈ es, ¬ good e)) := by
      rw [forEach_eq]
      obtain ⟨x, w', k1, k2⟩ := loopIter_rule (p := over) (b0 := false)
        (body := fun r c sV => do
          let mV ← at' source r c
          if !GoNum.geq sV mV then pure (some false) else pure none)
        (J := fun it rest w' => w' = w ∧ ∃ done, es = done ++ rest ∧ (∀ e ∈ done, good e) ∧
          Yields Mat.Iter.hasNext (w.heap over).step it rest)
        (Q := fun b w' => w' = w ∧ b = false ∧ ∃ e ∈ es, ¬ good e)
        (by rintro it w' ⟨-, done, -, -, hy⟩; exact hy)
        (by
          rintro it rest w' ⟨rfl, h⟩
          refine ⟨?_, h⟩
          obtain ⟨a, b, c, d, e⟩ := w'
          simp only at hc
          subst hc
          rfl)
        (by
          rintro it e rest w' ⟨rfl, done, k1, k2, k3, it', k4, k5⟩
          have he : e ∈ es := by rw [k1]; simp
          have hr := e2.range e he
          have hat := M.at_ok (p := source) (w := w') (i := e.1) (j := e.2.1) hR.1.inv
            (by rw [hR.2.1, ← hO.2.2.1]; exact hr.1) (by rw [hR.2.2, ← hO.2.2.2]; exact hr.2)
          refine ⟨k3, it', k4, ?_⟩
          rw [bind_ok hat]
          cases hg : GoNum.geq e.2.2 ((w'.heap source).val e.1 e.2.1) with
          | true =>
            refine ⟨none, w', rfl, fun _ => ⟨rfl, done ++ [e], by simp [k1], ?_, k5⟩, by simp⟩
            intro a ha
            rw [List.mem_append, List.mem_singleton] at ha
            rcases ha with ha | rfl
            · exact k2 a ha
            · exact hg
          | false =>
            refine ⟨some false, w', rfl, by simp, fun b hb => ⟨rfl, ?_, e, he, by simp [good, hg]⟩⟩
            simpa using hb.symm)
        w.gas (w.heap over).iter es w (by omega) ⟨rfl, [], rfl, by simp, e1.yields⟩
      rcases k2 with ⟨rfl, it', rfl, done, q1, q2, -⟩ | ⟨b, rfl, rfl, rfl, q⟩ | ⟨rfl, hq, it', e, rest', rfl, -⟩
      · exact ⟨none, k1, Or.inl ⟨rfl, by rw [q1]; simpa using q2⟩⟩
      · exact ⟨some false, k1, Or.inr ⟨rfl, q⟩⟩
      · rw [hc] at hq; simp at hq
    obtain ⟨x, l1, l2⟩ := hloop
    rcases l2 with ⟨rfl, hall⟩ | ⟨rfl, e, he, hbad⟩
    · refine ⟨true, bind_ok (f := fun res => match res with | some b => pure b | none => pure true) l1, ?_⟩
      simp only [true_iff]
      refine ⟨⟨h2, h1⟩, ?_, ?_⟩
      · intro h4
        by_contra h5
        exact h3 ⟨h4, h5⟩
      · intro i j hi hj hv
        have hi' : i < (w.heap over).rows := by rw [hO.2.2.1, h2]; exact hi
        have hj' : j < (w.heap over).cols := by rw [hO.2.2.2, h1]; exact hj
        obtain ⟨e, he, hcd⟩ := (e4 i j hi' hj').2 hv
        obtain ⟨rfl, rfl⟩ : e.1 = i ∧ e.2.1 = j := by simpa [coord] using hcd
        rw [e2.value e he]
        exact hall e he
    · refine ⟨false, bind_ok (f := fun res => match res with | some b => pure b | none => pure true) l1, ?_⟩
      simp only [Bool.false_eq_true, false_iff]
      rintro ⟨-, -, h⟩
      have hr := e2.range e he
      apply hbad
      show GoNum.geq e.2.2 _ = true
      rw [← e2.value e he]
      exact h e.1 e.2.1 (by rw [← h2, ← hO.2.2.1]; exact hr.1) (by rw [← h1, ← hO.2.2.2]; exact hr.2)
        ((e4 e.1 e.2.1 hr.1 hr.2).1 ⟨e, he, rfl⟩)

end Ops
end GB
