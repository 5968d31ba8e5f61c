import Verif.Props.Cancelled

/-!
# C33 for sparse vectors as outputs
-/

namespace GB

set_option linter.unusedSectionVars false
set_option linter.unusedSimpArgs false

open M

variable {T : Type} [GoNum T] [GoStore T] {w : World T} {out : Ref} {mask : Mask}

theorem lastWrite_join (d : T) (i : Nat) (p q : List (Nat × T)) : lastWrite d i (p ++ q) = lastWrite (lastWrite d i p) i q := by
  simp [lastWrite]

theorem lastWrite_none (i : Nat) : ∀ (q : List (Nat × T)) (d : T), i ∉ q.map Prod.fst → lastWrite d i q = d
  | [], _, _ => rfl
  | o :: q, d, h => by
    simp only [List.map_cons, List.mem_cons, not_or] at h
    show lastWrite (if o.1 = i then o.2 else d) i q = d
    rw [if_neg (Ne.symm h.1)]
    exact lastWrite_none i q d h.2

/-- **C33** for a sparse vector as output: after a cancelled call every cell reads as before the call or as after the call that
is not cancelled, if the operator writes no cell twice and at no moment of the whole call a non-zero position exceeds the
number of non-zero positions (`C04_iff`).

Missing: other contents of the sparse vector, where it is false (`C33_refuted_sparse_vector`), and operators that write a cell
twice, where it is false in every format (`C33_refuted_eadd`). -/
theorem C33_sparse_vector_partial (call : OpCall T) (h : call.Ready w mask out) {k : Nat} (hc : w.cancel = some k)
    (hsub : ∀ s m, call ≠ .subtract s m) {l : Nat} {p : List (Nat × T)} {v : SVec T} (hv : w.heap out = .svec v)
    (hp : (SVec.new l).runVec p = .ok v) (hin : ∀ o ∈ p, o.1 < l)
    (honce : (((call.calls w mask).filterMap Op.written).map Prod.fst).Nodup)
    (hvis : ∀ n, AllVisible l ((p ++ (call.calls w mask).filterMap Op.written).take n)) :
    ∃ v1 v2 c, call.run mask out w = .ok () (w.upd out (.svec v1) c) ∧
      call.run mask out { w with cancel := none } = .ok () (w.upd out (.svec v2) none) ∧
      ∀ i : Nat, i < l → v1.atVec i = v.atVec i ∨ v1.atVec i = v2.atVec i := by
  obtain ⟨v1, c, e1, e2⟩ := C95_sparse_vector call h hc hsub hv hp
  have hcalls : call.calls { w with cancel := none } mask = call.calls w mask := by
    have := calls_upd (w := w) call h.apart h.masked (w.heap out) none
    rwa [show w.upd out (w.heap out) none = { w with cancel := none } by simp [World.upd]] at this
  obtain ⟨v2, g1, g2⟩ := C94_sparse_vector call (h.cancel none) rfl hsub hv hp
  rw [hcalls] at g2
  obtain ⟨r, hr⟩ := C95_first (w := w) (mask := mask) call k
  have hlv : v.l = l := by
    obtain ⟨v0, h1, hl, -⟩ : ∃ v1, (SVec.new l).runVec p = .ok v1 ∧ v1.l = l ∧ v1.Weak := runVec_weak p hin
    rw [hp] at h1
    rw [Out.ok.inj h1]; exact hl
  have hq : ∀ o ∈ p ++ (call.calls w mask).filterMap Op.written, o.1 < l := by
    intro o ho
    rcases List.mem_append.1 ho with ho | ho
    · exact hin o ho
    · obtain ⟨c, hc, hw⟩ := List.mem_filterMap.1 ho
      have := calls_in_range call h c hc
      rw [hv] at this
      cases c <;> simp only [Op.written, Option.some.injEq, reduceCtorEq] at hw
      rw [← hw, ← hlv]
      exact this.1
  rw [← hr, List.filterMap_append] at hvis hq honce g2
  generalize (call.callsWithin w mask k).filterMap Op.written = a at e2 hvis hq honce g2
  generalize r.filterMap Op.written = b at hvis hq honce g2
  have right := (C04_iff l _ hq).2 hvis
  have reads : ∀ (x y : List (Nat × T)) (s : SVec T), p ++ (a ++ b) = x ++ y → (SVec.new l).runVec x = .ok s →
      ∀ i : Nat, i < l → s.atVec i = .ok (norm (lastWrite 0 i x)) := by
    intro x y s hxy hs
    obtain ⟨s', f1, f2⟩ := right x.length
    rw [hxy, List.take_left] at f1 f2
    obtain rfl : s = s' := Out.ok.inj (hs.symm.trans f1)
    exact f2
  refine ⟨v1, v2, c, e1, g1, fun i hi => ?_⟩
  rw [reads p (a ++ b) v rfl hp i hi, reads (p ++ a) b v1 (by simp) e2 i hi, reads (p ++ (a ++ b)) [] v2 (by simp) g2 i hi]
  by_cases ha : i ∈ a.map Prod.fst
  · right
    rw [List.map_append] at honce
    have hb : i ∉ b.map Prod.fst := fun hb => (List.disjoint_of_nodup_append honce) ha hb
    rw [← List.append_assoc, lastWrite_join _ _ (p ++ a) b, lastWrite_none i b _ hb]
  · left
    rw [lastWrite_join, lastWrite_none i a _ ha]

/-- **C33** for a sparse vector as output and every operator that writes: multiplication, `Add`, the element-wise product,
`Apply` and `Transpose`, the operand that is enumerated being no sparse vector. Missing: as above. -/
theorem C33_sparse_vector_single_partial (call : OpCall T) (h : call.Ready w mask out) {k : Nat} (hc : w.cancel = some k)
    (hsub : ∀ s m, call ≠ .subtract s m) (h1 : call.Single w) {l : Nat} {p : List (Nat × T)} {v : SVec T}
    (hv : w.heap out = .svec v) (hp : (SVec.new l).runVec p = .ok v) (hin : ∀ o ∈ p, o.1 < l)
    (hvis : ∀ n, AllVisible l ((p ++ (call.calls w mask).filterMap Op.written).take n)) :
    ∃ v1 v2 c, call.run mask out w = .ok () (w.upd out (.svec v1) c) ∧
      call.run mask out { w with cancel := none } = .ok () (w.upd out (.svec v2) none) ∧
      ∀ i : Nat, i < l → v1.atVec i = v.atVec i ∨ v1.atVec i = v2.atVec i :=
  C33_sparse_vector_partial call h hc hsub hv hp hin (written_once call h hsub h1 hv) hvis

namespace CancelledEx

/-- `(5, 7, 0)` plus `(0, 0, 1)` into a sparse vector that holds 9 at position 0. -/
def full : World ℤ := World.of 9 [.dvec { l := 3, values := [5, 7, 0] }, .dvec { l := 3, values := [0, 0, 1] },
  .svec { l := 3, values := [9], indices := [0] }]

/-- `(1, 0, 7)` plus zeros into a sparse vector in which position 2 was set to 9. -/
def hidden : World ℤ := World.of 9 [.dvec { l := 3, values := [1, 0, 7] }, .dvec { l := 3, values := [0, 0, 0] },
  .svec { l := 3, values := [9], indices := [2] }]

theorem full_ready : (OpCall.add 0 1 : OpCall ℤ).Ready full .nil 2 where
  operands := by
    intro p hp
    simp only [OpCall.operands, List.mem_cons, List.not_mem_nil, or_false] at hp
    rcases hp with rfl | rfl <;> exact rfl
  output := ⟨rfl, by simp, by simp; rfl⟩
  shapes := ⟨⟨rfl, rfl⟩, ⟨rfl, rfl⟩⟩
  writes := by intro s h; cases h
  apart := by
    intro p hp
    simp only [OpCall.operands, List.mem_cons, List.not_mem_nil, or_false] at hp
    rcases hp with rfl | rfl <;> decide
  fits := trivial
  sound := trivial
  masked := by simp
  gas := by
    intro p hp
    simp only [OpCall.operands, List.mem_cons, List.not_mem_nil, or_false] at hp
    rcases hp with rfl | rfl <;> decide

theorem hidden_ready : (OpCall.add 0 1 : OpCall ℤ).Ready hidden .nil 2 where
  operands := by
    intro p hp
    simp only [OpCall.operands, List.mem_cons, List.not_mem_nil, or_false] at hp
    rcases hp with rfl | rfl <;> exact rfl
  output := ⟨rfl, by simp, by simp; rfl⟩
  shapes := ⟨⟨rfl, rfl⟩, ⟨rfl, rfl⟩⟩
  writes := by intro s h; cases h
  apart := by
    intro p hp
    simp only [OpCall.operands, List.mem_cons, List.not_mem_nil, or_false] at hp
    rcases hp with rfl | rfl <;> decide
  fits := trivial
  sound := trivial
  masked := by simp
  gas := by
    intro p hp
    simp only [OpCall.operands, List.mem_cons, List.not_mem_nil, or_false] at hp
    rcases hp with rfl | rfl <;> decide

theorem full_calls : ((OpCall.add 0 1 : OpCall ℤ).calls { full with cancel := some 1 } .nil).filterMap Op.written =
    [(0, 5), (1, 7), (2, 1)] := by kernel_rfl

example : (OpCall.add 0 1 : OpCall ℤ).Single { full with cancel := some 1 } := by
  show (lead _ 0 1).kind ≠ .svec
  unfold lead
  split <;> simp [full, World.of, Mat.kind]

/-- The hypotheses of `C33_sparse_vector_partial` are met: cancelled after one look, the first cell is new, the others are
old. -/
example : ∃ v1 v2 c, (OpCall.add 0 1).run .nil 2 { full with cancel := some 1 } =
      .ok () (({ full with cancel := some 1 } : World ℤ).upd 2 (.svec v1) c) ∧
    (OpCall.add 0 1).run .nil 2 { full with cancel := none } =
      .ok () (({ full with cancel := some 1 } : World ℤ).upd 2 (.svec v2) none) ∧
    ∀ i : Nat, i < 3 → v1.atVec i = ({ l := 3, values := [9], indices := [0] } : SVec ℤ).atVec i ∨ v1.atVec i = v2.atVec i :=
  C33_sparse_vector_partial _ (full_ready.cancel (some 1)) rfl (by intro s m h; cases h) (l := 3)
    (p := ([(0, 9)] : List (Nat × ℤ))) rfl rfl (by simp)
    (by rw [full_calls]; decide) (by
      rw [full_calls]
      intro n
      rcases n with _ | _ | _ | _ | n
      · intro i; revert i; decide
      · intro i; revert i; decide
      · intro i; revert i; decide
      · intro i; revert i; decide
      · intro i
        rw [show (([(0, 9)] ++ [(0, 5), (1, 7), (2, 1)] : List (Nat × ℤ)).take (n + 4)) = [(0, 9), (0, 5), (1, 7), (2, 1)]
          from by simp]
        revert i; decide)

end CancelledEx

/-- **C33** is false of sparse vectors as outputs: position 2 was set to 9 and reads 0, because it exceeds the number of
entries. A sum that is cancelled after its first write, of position 0, has made the old entry visible: the cell reads 9,
neither 0 nor the final 7. -/
theorem C33_refuted_sparse_vector : ∃ (w : World ℤ) (v v1 v2 : SVec ℤ), (OpCall.add 0 1).Ready w .nil 2 ∧
    w.heap 2 = .svec v ∧ (SVec.new 3).runVec [(2, 9)] = .ok v ∧
    (((OpCall.add 0 1).calls w .nil).filterMap Op.written).map Prod.fst = [0, 1, 2] ∧
    ((OpCall.add 0 1).run .nil 2 { w with cancel := some 1 }).left 2 = some (.svec v1) ∧
    ((OpCall.add 0 1).run .nil 2 { w with cancel := none }).left 2 = some (.svec v2) ∧
    v.atVec 2 = .ok 0 ∧ v1.atVec 2 = .ok 9 ∧ v2.atVec 2 = .ok 7 :=
  ⟨CancelledEx.hidden, { l := 3, values := [9], indices := [2] }, { l := 3, values := [1, 9], indices := [0, 2] },
    { l := 3, values := [1, 7], indices := [0, 2] }, CancelledEx.hidden_ready, rfl, by kernel_rfl, by kernel_rfl, by kernel_rfl,
    by kernel_rfl, by kernel_rfl, by kernel_rfl, by kernel_rfl⟩

end GB
