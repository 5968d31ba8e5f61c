import Verif.Lemmas.Ops2

/-!
# Map loops, and the methods that allocate their result
-/

namespace GB

set_option linter.unusedSectionVars false
set_option linter.unusedSimpArgs false

variable {T : Type} [GoNum T] [GoStore T]

open M

namespace Ops

open Classical in
/-- The general shape of the `Map` loops: every visited cell of `out` is replaced by `F`. -/
theorem mapwise {w : World T} {out : Ref} {F : Nat → Nat → T} {f : Nat → Nat → T → M T T} {oc : Bool}
    (hout : (w.heap out).WF) (hgas : (w.heap out).nvalues ≤ w.gas)
    (hoc : oc = false → w.cancel = none)
    (hst : ∀ i j, i < (w.heap out).rows → j < (w.heap out).cols → (w.heap out).Visits i j →
      Mat.Storable (w.heap out).kind ((w.heap out).val i j) → Mat.Storable (w.heap out).kind (F i j))
    (hf : ∀ i j, i < (w.heap out).rows → j < (w.heap out).cols → ∀ m' c, m'.WF →
      Mat.Same m' (w.heap out) → m'.val i j = (w.heap out).val i j →
      f i j ((w.heap out).val i j) (w.upd out m' c) = .ok (F i j) (w.upd out m' c)) :
    Writes w out (fun i j => if (w.heap out).Visits i j then F i j else (w.heap out).val i j)
      ((forMap out oc f >>= fun _ => pure ()) w) := by
  obtain ⟨es, h1, h2, h3, h4, h5, h6⟩ := Mat.visits hout
  obtain ⟨x, m', c, done, rest, g1, g2, g3, g4, g5⟩ := scatter_map (w := w) (out := out) (es := es)
    (f := f) (g := fun e => F e.1 e.2.1) (oc := oc) h1 (by omega) (fun e he => h2.range e he) h5
    (fun e he => by
      have hr := h2.range e he
      refine hst e.1 e.2.1 hr.1 hr.2 ((h4 _ _ hr.1 hr.2).1 ⟨e, he, rfl⟩) ?_
      rw [h2.value e he]; exact h6 e he) hoc
    (fun e he m' c k1 k2 k3 => by
      have hr := h2.range e he
      have := hf e.1 e.2.1 hr.1 hr.2 m' c k1 k2 k3
      rwa [h2.value e he] at this)
  have hsc : Scattered w out coord (fun e => some (F e.1 e.2.1)) es
      ((forMap out oc f >>= fun b => pure (if b then some () else none)) w) := by
    refine ⟨if x then some () else none, m', c, done, rest, by rw [bind_ok g1]; rfl, g2, g3, ?_, g5⟩
    rcases g4 with ⟨rfl, h⟩ | ⟨rfl, h⟩
    · exact Or.inl ⟨rfl, h⟩
    · exact Or.inr ⟨rfl, h⟩
  have := hsc.writes (new := fun i j => if (w.heap out).Visits i j then F i j else (w.heap out).val i j)
    (by
      intro e he
      have hr := h2.range e he
      have hv := (h4 e.1 e.2.1 hr.1 hr.2).1 ⟨e, he, rfl⟩
      simp [coord, hv])
    (by
      intro i j hi hj hn
      rw [if_neg]
      intro hv
      obtain ⟨e, he, hc⟩ := (h4 i j hi hj).2 hv
      exact hn e he hc)
  rw [bind_ok (by rw [bind_ok g1]; rfl)] at this
  rw [bind_ok g1]
  exact this

/-! ## Transpose, Apply, Negative -/

open Classical in
theorem transpose_writes {w : World T} {s out : Ref} {mask : Mask}
    (hs : (w.heap s).WF) (hout : (w.heap out).WF) (hk : (w.heap out).kind ≠ .svec) (hne : s ≠ out)
    (hshape : (w.heap s).rows = (w.heap out).cols ∧ (w.heap s).cols = (w.heap out).rows)
    (hF : mask.Fits w out) (hS : mask.Sound w)
    (hsq : (w.heap out).rows = (w.heap out).cols ∨ mask.Blank) (hmo : mask ≠ .ref out)
    (hgas : (w.heap s).nvalues ≤ w.gas) :
    Writes w out
      (fun j i => if (w.heap s).Visits i j ∧ mask.bit w i j = false then
          (w.heap out).keep ((w.heap s).val i j) else (w.heap out).val j i)
      (Ops.transpose s mask out w) := by
  have hrun : Ops.transpose s mask out w = (forEach s (some ()) (fun r c value => do
      let e ← (mask.resolve w out).element r c
      if !e then M.set out c r value
      pure none) >>= fun _ => pure ()) w := by
    unfold Ops.transpose; rw [Mask.pre_ok hF]
  rw [hrun]
  exact crosswise (F := fun i j => (w.heap s).val i j) hs hout hk hne hshape hF hS hsq hmo hgas
    (fun r c => rfl)

theorem transpose_panic {w : World T} {s out : Ref} {mask : Mask} (hF : ¬ mask.Fits w out) :
    Ops.transpose s mask out w = .panic w := by
  unfold Ops.transpose; rw [Mask.pre_panic hF]

open Classical in
theorem apply_writes {w : World T} {s out : Ref} {mask : Mask} {u : T → T}
    (hs : (w.heap s).WF) (hout : (w.heap out).WF) (hk : (w.heap out).kind ≠ .svec) (hne : s ≠ out)
    (hshape : (w.heap s).rows = (w.heap out).cols ∧ (w.heap s).cols = (w.heap out).rows)
    (hF : mask.Fits w out) (hS : mask.Sound w)
    (hsq : (w.heap out).rows = (w.heap out).cols ∨ mask.Blank) (hmo : mask ≠ .ref out)
    (hgas : (w.heap s).nvalues ≤ w.gas) :
    Writes w out
      (fun j i => if (w.heap s).Visits i j ∧ mask.bit w i j = false then
          (w.heap out).keep (u ((w.heap s).val i j)) else (w.heap out).val j i)
      (Ops.apply s mask u out w) := by
  have hrun : Ops.apply s mask u out w = (forEach s (some ()) (fun r c value => do
      let e ← (mask.resolve w out).element r c
      if !e then M.set out c r (u value)
      pure none) >>= fun _ => pure ()) w := by
    unfold Ops.apply; rw [Mask.pre_ok hF]; simp only [hne, if_false]
  rw [hrun]
  exact crosswise (F := fun i j => u ((w.heap s).val i j)) hs hout hk hne hshape hF hS hsq hmo hgas
    (fun r c => rfl)

theorem apply_panic {w : World T} {s out : Ref} {mask : Mask} {u : T → T} (hF : ¬ mask.Fits w out) :
    Ops.apply s mask u out w = .panic w := by
  unfold Ops.apply; rw [Mask.pre_panic hF]

open Classical in
theorem apply_inplace_writes {w : World T} {out : Ref} {mask : Mask} {u : T → T}
    (hout : (w.heap out).WF) (hF : mask.Fits w out) (hS : mask.Sound w)
    (hgas : (w.heap out).nvalues ≤ w.gas)
    (hst : ∀ i j, i < (w.heap out).rows → j < (w.heap out).cols → (w.heap out).Visits i j →
      mask.bit w i j = true → Mat.Storable (w.heap out).kind (u ((w.heap out).val i j))) :
    Writes w out
      (fun i j => if (w.heap out).Visits i j ∧ mask.bit w i j = true then u ((w.heap out).val i j)
        else (w.heap out).val i j)
      (Ops.apply out mask u out w) := by
  have hrun : Ops.apply out mask u out w = (forMap out true (fun r c value => do
      let e ← (mask.resolve w out).element r c
      if e then pure (u value) else pure value) >>= fun _ => pure ()) w := by
    unfold Ops.apply; rw [Mask.pre_ok hF]; simp only [if_true]
  rw [hrun]
  have := mapwise (w := w) (out := out) (oc := true)
    (F := fun i j => if mask.bit w i j then u ((w.heap out).val i j) else (w.heap out).val i j)
    (f := fun r c value => do
      let e ← (mask.resolve w out).element r c
      if e then pure (u value) else pure value) hout hgas (by simp)
    (by
      intro i j hi hj hv h0
      cases hb : mask.bit w i j with
      | true => simpa [hb] using hst i j hi hj hv hb
      | false => simpa [hb] using h0)
    (by
      intro i j hi hj m' c g1 g2 g3
      rw [bind_ok (Mask.element_upd hS hF hi hj (c := c) g1 g2 g3)]
      cases hb : mask.bit w i j <;> rfl)
  convert this using 2 with i
  funext j
  by_cases hv : (w.heap out).Visits i j <;> cases hb : mask.bit w i j <;> simp [hv, hb]

open Classical in
theorem negative_writes {w : World T} {s out : Ref} {mask : Mask}
    (hout : (w.heap out).WF) (hF : mask.Fits w out) (hS : mask.Sound w)
    (hgas : (w.heap out).nvalues ≤ w.gas)
    (hst : ∀ i j, i < (w.heap out).rows → j < (w.heap out).cols → (w.heap out).Visits i j →
      mask.bit w i j = false → Mat.Storable (w.heap out).kind (-((w.heap out).val i j))) :
    Writes w out
      (fun i j => if (w.heap out).Visits i j ∧ mask.bit w i j = false then -((w.heap out).val i j)
        else (w.heap out).val i j)
      (Ops.negative s mask out w) := by
  have hrun : Ops.negative s mask out w = (forMap out true (fun r c value => do
      let e ← (mask.resolve w out).element r c
      if !e then pure (-value) else pure value) >>= fun _ => pure ()) w := by
    unfold Ops.negative; rw [Mask.pre_ok hF]
  rw [hrun]
  have := mapwise (w := w) (out := out) (oc := true)
    (F := fun i j => if mask.bit w i j then (w.heap out).val i j else -((w.heap out).val i j))
    (f := fun r c value => do
      let e ← (mask.resolve w out).element r c
      if !e then pure (-value) else pure value) hout hgas (by simp)
    (by
      intro i j hi hj hv h0
      cases hb : mask.bit w i j with
      | false => simpa [hb] using hst i j hi hj hv hb
      | true => simpa [hb] using h0)
    (by
      intro i j hi hj m' c g1 g2 g3
      rw [bind_ok (Mask.element_upd hS hF hi hj (c := c) g1 g2 g3)]
      cases hb : mask.bit w i j <;> rfl)
  convert this using 2 with i
  funext j
  by_cases hv : (w.heap out).Visits i j <;> cases hb : mask.bit w i j <;> simp [hv, hb]

theorem negative_panic {w : World T} {s out : Ref} {mask : Mask} (hF : ¬ mask.Fits w out) :
    Ops.negative s mask out w = .panic w := by
  unfold Ops.negative; rw [Mask.pre_panic hF]

end Ops

/-! ## Methods that allocate their result -/

namespace Meth

/-- The world after allocating `m`, with the background context. -/
def fresh (w : World T) (m : Mat T) : World T :=
  { w with heap := Function.update w.heap w.next m, next := w.next + 1, cancel := none }

@[simp] theorem fresh_next (w : World T) (m : Mat T) : (fresh w m).heap w.next = m := by simp [fresh]
theorem fresh_ne (w : World T) (m : Mat T) {p : Ref} (h : p < w.next) : (fresh w m).heap p = w.heap p := by
  simp [fresh, Nat.ne_of_lt h]
@[simp] theorem fresh_gas (w : World T) (m : Mat T) : (fresh w m).gas = w.gas := rfl
@[simp] theorem fresh_reg (w : World T) (m : Mat T) : (fresh w m).reg = w.reg := rfl

/-- Allocate, run an operator on the new object with the background context, return it. -/
theorem returns_of_writes {w : World T} {m : Mat T} {x : M T Ref} {y : M T Unit} {new : Nat → Nat → T}
    {k : Kind} {r c : Nat}
    (hx : x { w with cancel := none } = (y >>= fun _ => pure w.next) (fresh w m))
    (hy : Writes (fresh w m) w.next new (y (fresh w m)))
    (hk : m.kind = k) (hr : m.rows = r) (hc : m.cols = c) :
    Returns w k r c new (background x w) := by
  obtain ⟨m', c', h1, h2, h3, h4, -⟩ := hy
  rw [fresh_next] at h3
  obtain ⟨-, h4⟩ := h4 rfl
  have hb : background x w = .ok w.next { (fresh w m).upd w.next m' c' with cancel := w.cancel } := by
    unfold background
    rw [hx, bind_ok h1]
    rfl
  have e : ({ (fresh w m).upd w.next m' c' with cancel := w.cancel } : World T).heap w.next = m' := by
    simp [World.upd]
  refine ⟨w.next, _, hb, Nat.le_refl _, Nat.lt_succ_self _, ?_, rfl, rfl, rfl, ?_, ?_, ?_, ?_, ?_⟩
  · intro q hq
    show (World.upd _ _ _ _).heap q = _
    rw [World.upd_ne _ _ _ (Nat.ne_of_lt hq), fresh_ne _ _ hq]
  · rw [e]; exact h2
  · rw [e, h3.1, hk]
  · rw [e, h3.2.1, hr]
  · rw [e, h3.2.2, hc]
  · intro i j hi hj
    rw [e]
    exact h4 i j (by rw [h3.2.1, hr]; exact hi) (by rw [h3.2.2, hc]; exact hj)

theorem copy_apply {w : World T} {s : Ref} (h : (w.heap s).WF) :
    M.copy s { w with cancel := none } = .ok w.next (fresh w (w.heap s)) := by
  unfold M.copy
  rw [bind_ok (ofObj_ok (w := { w with cancel := none }) (Mat.copy_ok h))]
  rfl

end Meth
end GB
