import Verif.Lemmas.EWise

/-!
# Methods that return a new object
-/

namespace GB

set_option linter.unusedSectionVars false
set_option linter.unusedSimpArgs false

variable {T : Type} [GoNum T] [GoStore T]

open M

/-- Not visited: zero. -/
theorem Mat.not_visits {m : Mat T} {i j : Nat} (h : ¬ m.Visits i j) : m.val i j = 0 := by
  by_contra h'; exact h (Or.inr (Or.inr h'))

/-- Visited and in range: the value survives being written to an object of the same kind. -/
theorem Mat.visits_storable {m : Mat T} (hm : m.WF) {i j : Nat} (hi : i < m.rows) (hj : j < m.cols)
    (h : m.Visits i j) : Mat.Storable m.kind (m.val i j) := by
  obtain ⟨es, h1, h2, h3, h4, h5, h6⟩ := Mat.visits hm
  obtain ⟨e, he, hc⟩ := (h4 i j hi hj).2 h
  obtain ⟨rfl, rfl⟩ : e.1 = i ∧ e.2.1 = j := by simpa [coord] using hc
  rw [h2.value e he]
  exact h6 e he

namespace Meth

theorem transOut_ok (m : Mat T) : (transOut m).WF ∧ (transOut m).rows = m.cols ∧ (transOut m).cols = m.rows ∧
    (transOut m).kind ≠ .svec ∧
    ∀ i j, i < m.cols → j < m.rows → (transOut m).val i j = 0 := by
  cases m with
  | csr s => exact ⟨⟨_, CSR.rep_new _ _⟩, rfl, rfl, by simp [transOut, Mat.kind], fun i j hi hj => Mat.csr_new_val _ _ hi hj⟩
  | csc s => exact ⟨⟨_, CSC.rep_new _ _⟩, rfl, rfl, by simp [transOut, Mat.kind], fun i j hi hj => Mat.csc_new_val _ _ hi hj⟩
  | dense s => exact ⟨Dense.wf_new _ _, rfl, rfl, by simp [transOut, Mat.kind], fun i j hi hj => Mat.dense_new_val _ _ hi hj⟩
  | dvec s => exact ⟨Dense.wf_new _ _, rfl, rfl, by simp [transOut, Mat.kind], fun i j hi hj => Mat.dense_new_val _ _ hi hj⟩
  | svec s => exact ⟨Dense.wf_new _ _, rfl, rfl, by simp [transOut, Mat.kind], fun i j hi hj => Mat.dense_new_val _ _ hi hj⟩

theorem background_panic {α : Type} {x : M T α} {w w' : World T} (h : x { w with cancel := none } = .panic w') :
    background x w = .panic { w' with cancel := w.cancel } := by unfold background; rw [h]

theorem background_ok {α : Type} {x : M T α} {a : α} {w w' : World T} (h : x { w with cancel := none } = .ok a w') :
    background x w = .ok a { w' with cancel := w.cancel } := by unfold background; rw [h]

/-- As `returns_of_writes`, for functions that run under the caller's context. -/
theorem returns_of_writes' {w : World T} {m : Mat T} {x : M T Ref} {y : M T Unit} {new : Nat → Nat → T}
    {k : Kind} {r c : Nat} (hcan : w.cancel = none)
    (hx : x w = (y >>= fun _ => pure w.next) (fresh w m))
    (hy : Writes (fresh w m) w.next new (y (fresh w m)))
    (hk : m.kind = k) (hr : m.rows = r) (hc : m.cols = c) :
    Returns w k r c new (x w) := by
  have hw : ({ w with cancel := none } : World T) = w := by
    obtain ⟨a, b, c', d, e⟩ := w; simp only at hcan; subst hcan; rfl
  have := returns_of_writes (x := x) (by rw [hw]; exact hx) hy hk hr hc
  obtain ⟨m', c', h1, h2, h3, h4, h5⟩ := hy
  have hc' := (h4 rfl).1
  subst hc'
  have e1 : x w = .ok w.next ((fresh w m).upd w.next m' none) := by rw [hx, bind_ok h1]; rfl
  have e2 : background x w = x w := by
    unfold background
    rw [hw, e1, hcan]
    rfl
  rw [← e2]; exact this

theorem transpose_returns {w : World T} {s : Ref} (hs : (w.heap s).WF) (hlt : s < w.next)
    (hgas : (w.heap s).nvalues ≤ w.gas) {out : Mat T} (hout : out.WF) (hr : out.rows = (w.heap s).cols)
    (hc : out.cols = (w.heap s).rows) (hk : out.kind ≠ .svec)
    (h0 : ∀ i j, i < (w.heap s).cols → j < (w.heap s).rows → out.val i j = 0) :
    ∃ new, Writes (fresh w out) w.next new (Ops.transpose s .nil w.next (fresh w out)) ∧
      ∀ j i, j < out.rows → i < out.cols → new j i = out.keep ((w.heap s).val i j) := by
  have hes := fresh_ne w out hlt
  have := Ops.transpose_writes (w := fresh w out) (s := s) (out := w.next) (mask := .nil)
    (by rw [hes]; exact hs) (by rw [fresh_next]; exact hout) (by rw [fresh_next]; exact hk)
    (Nat.ne_of_lt hlt) (by rw [hes, fresh_next]; exact ⟨hc.symm, hr.symm⟩) trivial trivial
    (Or.inr trivial) (by simp) (by rw [hes]; exact hgas)
  refine ⟨_, this, ?_⟩
  intro j i hj hi
  rw [hes, fresh_next]
  rw [hr] at hj
  rw [hc] at hi
  by_cases hv : (w.heap s).Visits i j
  · simp [hv, Mask.bit]
  · have : out.keep 0 = 0 := by unfold Mat.keep; split <;> simp [norm]
    simp [hv, Mat.not_visits hv, h0 j i hj hi, this]

end Meth
end GB

namespace GB

variable {T : Type} [GoNum T]

theorem Returns.congr {w : World T} {k : Kind} {r c : Nat} {new new' : Nat → Nat → T} {res : Res T Ref}
    (h : Returns w k r c new res) (he : ∀ i j, i < r → j < c → new i j = new' i j) :
    Returns w k r c new' res := by
  obtain ⟨p, w', h1, h2, h3, h4, h5, h6, h7, h8, h9, h10, h11, h12⟩ := h
  exact ⟨p, w', h1, h2, h3, h4, h5, h6, h7, h8, h9, h10, h11,
    fun i j hi hj => (h12 i j hi hj).trans (he i j hi hj)⟩

theorem Writes.congr {w : World T} {out : Ref} {new new' : Nat → Nat → T} {res : Res T Unit}
    (h : Writes w out new res)
    (he : ∀ i j, i < (w.heap out).rows → j < (w.heap out).cols → new i j = new' i j) :
    Writes w out new' res := by
  obtain ⟨m', c, h1, h2, h3, h4, h5⟩ := h
  have h3' := h3
  refine ⟨m', c, h1, h2, h3, ?_, ?_⟩
  · intro hc
    refine ⟨(h4 hc).1, fun i j hi hj => ?_⟩
    rw [← he i j (by rw [← h3.2.1]; exact hi) (by rw [← h3.2.2]; exact hj)]
    exact (h4 hc).2 i j hi hj
  · intro i j hi hj
    rw [← he i j (by rw [← h3.2.1]; exact hi) (by rw [← h3.2.2]; exact hj)]
    exact h5 i j hi hj

end GB
