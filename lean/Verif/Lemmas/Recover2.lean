import Verif.Lemmas.Recover
import Verif.Model.Recover

/-!
# `Update` with a function that may panic: proofs
-/

namespace GB.Share

set_option linter.unusedSectionVars false

variable {T : Type} [GoNum T] [GoStore T] {m : Mem T} {F : Tag → Nat → Prop}

theorem ask_some {f : T → Option T} {x y : T} (h : f x = some y) : ask f x = pure y := by simp [ask, h]

theorem ask_none {f : T → Option T} {x : T} (h : f x = none) : ask f x = (lift .panic : H T T) := by simp [ask, h]

/-- If the update function answers at the value the cell has, `Update` is `Update` by that answer;
if it panics there, nothing has been written. -/
def Tries (m : Mem T) (a : H T LMat) (b : T → H T LMat) (f : T → Option T) (x : T) : Prop :=
  (∀ y, f x = some y → a m = b y m) ∧ (f x = none → a m = .panic m)

theorem pure_bind' {α β : Type} (a : α) (f : α → H T β) : (pure a >>= f) = f a := rfl

theorem bind_apply {α β : Type} (x : H T α) (f : α → H T β) : (x >>= f) m =
    match x m with
    | .ok a m' => f a m'
    | .panic m' => .panic m'
    | .hang m' => .hang m' := rfl

omit [GoNum T] [GoStore T] in
theorem hIdx_eq {α : Type} {φ : Fld T α} {s : Slice} {l : List α} (h : Sl φ m F s l) {i : Nat} {a : α} (e : idx l i = .ok a) :
    hIdx φ s i m = .ok a m := by
  show lift (idx (s.get φ m) i) m = _
  rw [h.eq, e]
  rfl

theorem LCSR.tries {o : LCSR} {v : CSR T} (h : o.Own m F v) {i j : Int} {x : T} {w : CSR T} (hx : v.at' i j = .ok (x, w))
    (f : T → Option T) :
    Tries m (LMat.updateTry (.csr o) i j f) (fun y => LMat.update (.csr o) i j (fun _ => y)) f x := by
  unfold CSR.at' CSR.updateWith CSR.updateRP at hx
  by_cases h1 : inRange i v.r = true
  swap
  · rw [if_neg h1] at hx; simp at hx
  by_cases h2 : inRange j v.c = true
  swap
  · rw [if_pos h1, if_neg h2] at hx; simp at hx
  rw [if_pos h1, if_pos h2] at hx
  obtain ⟨⟨b, s', p, q⟩, hx, hx'⟩ := out_bind hx
  cases hx'
  obtain ⟨⟨ps, pe⟩, e1, hx⟩ := out_bind hx
  obtain ⟨found, e2, hx⟩ := out_bind hx
  have hv : (o.view : H T (CSR T)) m = .ok v m := h.view
  rw [← h.r] at h1
  rw [← h.c] at h2
  have e1' : (lift (v.columnIndex i.toNat j.toNat) : H T (Nat × Nat)) m = .ok (ps, pe) m := by rw [e1]; rfl
  have e2' : (lift (v.hit ps pe j.toNat) : H T Bool) m = .ok found m := by rw [e2]; rfl
  cases found with
  | false =>
    have hx0 : x = 0 := by
      simp only [Bool.false_eq_true, if_false] at hx
      obtain ⟨⟨t, n⟩, -, hx⟩ := out_bind hx
      cases hx; rfl
    subst hx0
    constructor
    · intro y hy
      simp only [LMat.updateTry, LMat.update, LCSR.updateTry, LCSR.updateWith, if_pos h1, if_pos h2, bind_apply, hv, e1', e2',
        Bool.false_eq_true, if_false, ask_some hy, pure_apply]
      cases o.insert ps i.toNat j.toNat y m <;> rfl
    · intro hy
      simp only [LMat.updateTry, LCSR.updateTry, if_pos h1, if_pos h2, bind_apply, hv, e1', e2',
        Bool.false_eq_true, if_false, ask_none hy]
      rfl
  | true =>
    simp only [if_true] at hx
    obtain ⟨old, e3, hx⟩ := out_bind hx
    have hxo : x = old := by
      split at hx
      · obtain ⟨t, -, hx⟩ := out_bind hx; cases hx; rfl
      · obtain ⟨t, -, hx⟩ := out_bind hx; cases hx; rfl
    subst hxo
    have e3' := hIdx_eq h.values e3
    constructor
    · intro y hy
      simp only [LMat.updateTry, LMat.update, LCSR.updateTry, LCSR.updateWith, if_pos h1, if_pos h2, bind_apply, hv, e1', e2',
        if_true, ask_some hy, pure_apply, e3']
      by_cases hz : isZero y = true
      · simp only [if_pos hz, bind_apply]
        cases o.remove ps i.toNat m <;> rfl
      · simp only [if_neg hz, bind_apply]
        cases hSet numF o.values ps y m <;> rfl
    · intro hy
      simp only [LMat.updateTry, LCSR.updateTry, if_pos h1, if_pos h2, bind_apply, hv, e1', e2',
        if_true, ask_none hy, e3']
      rfl

theorem LCSC.tries {o : LCSC} {v : CSC T} (h : o.Own m F v) {i j : Int} {x : T} {w : CSC T} (hx : v.at' i j = .ok (x, w))
    (f : T → Option T) :
    Tries m (LMat.updateTry (.csc o) i j f) (fun y => LMat.update (.csc o) i j (fun _ => y)) f x := by
  unfold CSC.at' CSC.updateWith CSC.updateRP at hx
  by_cases h1 : inRange i v.r = true
  swap
  · rw [if_neg h1] at hx; simp at hx
  by_cases h2 : inRange j v.c = true
  swap
  · rw [if_pos h1, if_neg h2] at hx; simp at hx
  rw [if_pos h1, if_pos h2] at hx
  obtain ⟨⟨b, s', p, q⟩, hx, hx'⟩ := out_bind hx
  cases hx'
  obtain ⟨⟨ps, pe⟩, e1, hx⟩ := out_bind hx
  obtain ⟨found, e2, hx⟩ := out_bind hx
  have hv : (o.view : H T (CSC T)) m = .ok v m := h.view
  rw [← h.r] at h1
  rw [← h.c] at h2
  have e1' : (lift (v.rowIndex i.toNat j.toNat) : H T (Nat × Nat)) m = .ok (ps, pe) m := by rw [e1]; rfl
  have e2' : (lift (v.hit ps pe i.toNat) : H T Bool) m = .ok found m := by rw [e2]; rfl
  cases found with
  | false =>
    have hx0 : x = 0 := by
      simp only [Bool.false_eq_true, if_false] at hx
      obtain ⟨⟨t, n⟩, -, hx⟩ := out_bind hx
      cases hx; rfl
    subst hx0
    constructor
    · intro y hy
      simp only [LMat.updateTry, LMat.update, LCSC.updateTry, LCSC.updateWith, if_pos h1, if_pos h2, bind_apply, hv, e1', e2',
        Bool.false_eq_true, if_false, ask_some hy, pure_apply]
      cases o.insert ps i.toNat j.toNat y m <;> rfl
    · intro hy
      simp only [LMat.updateTry, LCSC.updateTry, if_pos h1, if_pos h2, bind_apply, hv, e1', e2',
        Bool.false_eq_true, if_false, ask_none hy]
      rfl
  | true =>
    simp only [if_true] at hx
    obtain ⟨old, e3, hx⟩ := out_bind hx
    have hxo : x = old := by
      split at hx
      · obtain ⟨t, -, hx⟩ := out_bind hx; cases hx; rfl
      · obtain ⟨t, -, hx⟩ := out_bind hx; cases hx; rfl
    subst hxo
    have e3' := hIdx_eq h.values e3
    constructor
    · intro y hy
      simp only [LMat.updateTry, LMat.update, LCSC.updateTry, LCSC.updateWith, if_pos h1, if_pos h2, bind_apply, hv, e1', e2',
        if_true, ask_some hy, pure_apply, e3']
      by_cases hz : isZero y = true
      · simp only [if_pos hz, bind_apply]
        cases o.remove ps j.toNat m <;> rfl
      · simp only [if_neg hz, bind_apply]
        cases hSet numF o.values ps y m <;> rfl
    · intro hy
      simp only [LMat.updateTry, LCSC.updateTry, if_pos h1, if_pos h2, bind_apply, hv, e1', e2',
        if_true, ask_none hy, e3']
      rfl

theorem hIdx_pure {α : Type} {φ : Fld T α} {s : Slice} {i : Nat} {a : α} {m' : Mem T} (e : hIdx φ s i m = .ok a m') : m' = m := by
  have e : lift (idx (s.get φ m) i) m = .ok a m' := e
  cases h : idx (s.get φ m) i <;> rw [h] at e <;> cases e
  rfl

theorem LDense.tries {o : LDense} {v : Dense T} (h : o.Own m F v) {i j : Int} {x : T} (hx : v.at' i j = .ok x)
    (f : T → Option T) :
    Tries m (LMat.updateTry (.dense o) i j f) (fun y => LMat.update (.dense o) i j (fun _ => y)) f x := by
  have hs := LDense.at_sim (G := F) h i j
  rw [hx] at hs
  obtain ⟨x', m', e, ⟨rfl, rfl⟩, -⟩ := sim_ok' hs
  unfold LDense.at' at e
  by_cases h1 : inRange i o.r = true
  swap
  · rw [if_neg h1] at e; cases e
  by_cases h2 : inRange j o.c = true
  swap
  · rw [if_pos h1, if_neg h2] at e; cases e
  rw [if_pos h1, if_pos h2] at e
  obtain ⟨row, m1, e1, e2⟩ := bind_okE e
  obtain rfl := hIdx_pure e1
  constructor
  · intro y hy
    simp only [LMat.updateTry, LMat.update, LDense.updateTry, LDense.updateWith, if_pos h1, if_pos h2, bind_apply, e1, e2,
      ask_some hy, pure_apply]
    cases hSet numF row j.toNat y m1 <;> rfl
  · intro hy
    simp only [LMat.updateTry, LDense.updateTry, if_pos h1, if_pos h2, bind_apply, e1, e2, ask_none hy]
    rfl

theorem LDVec.tries {o : LDVec} {v : DVec T} (h : o.Own m F v) {i j : Int} {x : T} (hj : inRange j 1 = true)
    (hx : v.atVec i = .ok x) (f : T → Option T) :
    Tries m (LMat.updateTry (.dvec o) i j f) (fun y => LMat.update (.dvec o) i j (fun _ => y)) f x := by
  have hs := LDVec.atVec_sim (G := F) h i
  rw [hx] at hs
  obtain ⟨x', m', e, ⟨rfl, rfl⟩, -⟩ := sim_ok' hs
  have h1 : inRange i o.l = true := by
    by_contra h1
    unfold LDVec.atVec at e
    rw [if_neg h1] at e; cases e
  constructor
  · intro y hy
    simp only [LMat.updateTry, LMat.update, LDVec.updateTry, LDVec.updateWith, if_pos h1, if_pos hj, bind_apply, e,
      ask_some hy, pure_apply]
    cases o.setVec i y m' <;> rfl
  · intro hy
    simp only [LMat.updateTry, LDVec.updateTry, if_pos h1, if_pos hj, bind_apply, e, ask_none hy]
    rfl

theorem LSVec.tries {o : LSVec} {v : SVec T} (h : o.Own m F v) {i j : Int} {x : T} (hj : inRange j 1 = true)
    (hx : v.atVec i = .ok x) (f : T → Option T) :
    Tries m (LMat.updateTry (.svec o) i j f) (fun y => LMat.update (.svec o) i j (fun _ => y)) f x := by
  have hs := LSVec.atVec_sim (G := F) h i
  rw [hx] at hs
  obtain ⟨x', m', e, ⟨rfl, rfl⟩, -⟩ := sim_ok' hs
  have h1 : inRange i o.l = true := by
    by_contra h1
    rw [h.l] at h1
    rw [SVec.atVec, if_neg h1] at hx; cases hx
  constructor
  · intro y hy
    simp only [LMat.updateTry, LMat.update, LSVec.updateTry, LSVec.updateWith, if_pos h1, if_pos hj, bind_apply, e,
      ask_some hy, pure_apply]
    cases o.setVec i y m' <;> rfl
  · intro hy
    simp only [LMat.updateTry, LSVec.updateTry, if_pos h1, if_pos hj, bind_apply, e, ask_none hy]
    rfl

/-- Outside the table nothing is asked. -/
theorem tries_bad {o : LMat} {v : Mat T} (h : o.Own m F v) {i j : Int}
    (hn : ¬ (inRange i v.rows = true ∧ inRange j v.cols = true)) (f : T → Option T) : o.updateTry i j f m = .panic m := by
  have hd := own_dims h
  cases o <;> (obtain ⟨h1, h2⟩ := hd; rw [h1, h2] at hn)
  · exact bind_panic _ (by unfold LCSR.updateTry; rw [bad_index hn]; rfl)
  · exact bind_panic _ (by unfold LCSC.updateTry; rw [bad_index hn]; rfl)
  · exact bind_panic _ (by unfold LDense.updateTry; rw [bad_index hn]; rfl)
  · exact bind_panic _ (by unfold LDVec.updateTry; rw [bad_index hn]; rfl)
  · exact bind_panic _ (by unfold LSVec.updateTry; rw [bad_index hn]; rfl)

theorem LMat.tries {o : LMat} {v : Mat T} (h : o.Own m F v) {i j : Int} (hv : inRange i v.rows = true ∧ inRange j v.cols = true)
    {x : T} {w : Mat T} (hx : v.at' i j = .ok (x, w)) (f : T → Option T) :
    Tries m (o.updateTry i j f) (fun y => o.update i j (fun _ => y)) f x := by
  cases h with
  | csr h =>
    obtain ⟨⟨y, s⟩, e1, e2⟩ := out_bind hx
    cases e2
    exact LCSR.tries h e1 f
  | csc h =>
    obtain ⟨⟨y, s⟩, e1, e2⟩ := out_bind hx
    cases e2
    exact LCSC.tries h e1 f
  | dense h =>
    obtain ⟨y, e1, e2⟩ := out_bind hx
    cases e2
    exact LDense.tries h e1 f
  | dvec h =>
    obtain ⟨y, e1, e2⟩ := out_bind hx
    cases e2
    exact LDVec.tries h hv.2 e1 f
  | svec h =>
    obtain ⟨⟨y, s⟩, e1, e2⟩ := out_bind hx
    cases e2
    unfold SVec.at' SVec.updateWith at e1
    simp only [Mat.rows, Mat.cols] at hv
    rw [if_pos hv.1, if_pos hv.2] at e1
    obtain ⟨z, e3, e1⟩ := out_bind e1
    obtain ⟨t, -, e1⟩ := out_bind e1
    cases e1
    exact LSVec.tries h hv.2 e3 f

end GB.Share
