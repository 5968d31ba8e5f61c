import Verif.Lemmas.ReplayOps
import Verif.Props.SparseEnum

/-!
# C94: an operator does to its output what a list of `Set` calls does
-/

namespace GB

set_option linter.unusedSectionVars false
set_option linter.unusedSimpArgs false

open M

variable {T : Type} [GoNum T] [GoStore T] {w : World T} {out : Ref} {mask : Mask}

/-- `Mat.entries` is what `Enumerate` delivers, for every object in a state a program can bring about. -/
theorem C94_entries {m : Mat T} (h : m.Inv) : Yields Mat.Iter.hasNext m.step m.iter m.entries ∧
    m.entries.length = m.nvalues ∧ ∀ e ∈ m.entries, e.1 < m.rows ∧ e.2.1 < m.cols :=
  ⟨h.delivers, h.entries_length, fun _ he => h.entries_in he⟩

/-- **C94**: an operator whose output is neither an operand nor the mask does to the output what the list
`call.calls w mask` of `Set` calls (`Update` calls for `Subtract`) does to it, whatever the output contains, and nothing
else. The list does not depend on the output. -/
theorem C94_replay (call : OpCall T) (h : call.Ready w mask out) (hc : w.cancel = none) :
    ∃ m', (w.heap out).run (call.calls w mask) = .ok m' ∧ call.run mask out w = .ok () (w.upd out m' none) := by
  obtain ⟨m', h1, -, -, h2⟩ := replay_aux call h
  rw [hc, made_none, doings_calls] at h1
  rw [hc, rest_none] at h2
  exact ⟨m', h1, h2⟩

/-- **C94** for an output that is a matrix or a dense vector: every cell is what the list of calls makes of it on a plain
table, zeros being kept as the zero value by compressed formats. -/
theorem C94_table (call : OpCall T) (h : call.Ready w mask out) (hc : w.cancel = none) (hk : (w.heap out).kind ≠ .svec) :
    ∃ m', call.run mask out w = .ok () (w.upd out m' none) ∧
      ∀ i j : Nat, i < (w.heap out).rows → j < (w.heap out).cols → m'.at' i j =
        .ok (specRun (w.heap out).keep (w.heap out).val (call.calls w mask) i j, m') := by
  obtain ⟨m', e1, e2⟩ := C94_replay call h hc
  obtain ⟨m1, f1, f2, f3, f4⟩ := Mat.run_ok (call.calls w mask) (h.output.wf hk) hk (calls_in_range call h)
    (f := (w.heap out).val) (fun i j _ _ => rfl)
  obtain rfl : m' = m1 := Out.ok.inj (e1.symm.trans f1)
  refine ⟨m', e2, fun i j hi hj => ?_⟩
  rw [Mat.at_ok f2 (by rw [f3.2.1]; exact hi) (by rw [f3.2.2]; exact hj), f4 i j hi hj]

/-- **C94** for an output that is a sparse vector with any history: the call prolongs the history by the writes it makes.
(`Subtract` calls `Update`, which reads first.) What can be read afterwards is the subject of `C04_iff` and `C50_iff`. -/
theorem C94_sparse_vector (call : OpCall T) (h : call.Ready w mask out) (hc : w.cancel = none)
    (hsub : ∀ s m, call ≠ .subtract s m)
    {l : Nat} {p : List (Nat × T)} {v : SVec T} (hv : w.heap out = .svec v) (hp : (SVec.new l).runVec p = .ok v) :
    ∃ v', call.run mask out w = .ok () (w.upd out (.svec v') none) ∧
      (SVec.new l).runVec (p ++ (call.calls w mask).filterMap Op.written) = .ok v' := by
  obtain ⟨m', e1, e2⟩ := C94_replay call h hc
  rw [hv] at e1
  have hset := calls_set call h hsub hv
  obtain ⟨v', rfl, e3⟩ := run_runVec _ hset e1
  refine ⟨v', e2, ?_⟩
  rw [SVec.runVec_append, hp, Out.ok_bind, e3]

/-- **C94**: in particular, when along the history and the writes of the call no non-zero position ever exceeds the number
of non-zero positions, every position reads as the value last written to it, by the call or before. -/
theorem C94_reads (call : OpCall T) (h : call.Ready w mask out) (hc : w.cancel = none) (hsub : ∀ s m, call ≠ .subtract s m)
    {l : Nat} {p : List (Nat × T)} {v : SVec T} (hv : w.heap out = .svec v) (hp : (SVec.new l).runVec p = .ok v)
    (hin : ∀ o ∈ p, o.1 < l)
    (hvis : ∀ n, AllVisible l ((p ++ (call.calls w mask).filterMap Op.written).take n)) :
    ∃ v', call.run mask out w = .ok () (w.upd out (.svec v') none) ∧ ∀ i : Nat, i < l →
      v'.atVec i = .ok (norm (lastWrite 0 i (p ++ (call.calls w mask).filterMap Op.written))) := by
  obtain ⟨v', e1, e2⟩ := C94_sparse_vector call h hc hsub hv hp
  refine ⟨v', e1, ?_⟩
  obtain ⟨v1, h1, hl, -⟩ : ∃ v1, (SVec.new l).runVec p = .ok v1 ∧ v1.l = l ∧ v1.Weak := runVec_weak p hin
  have hlv : v.l = l := by
    rw [hp] at h1
    rw [Out.ok.inj h1]; exact hl
  have hq : ∀ o ∈ p ++ (call.calls w mask).filterMap Op.written, o.1 < l := by
    intro o ho
    rcases List.mem_append.1 ho with ho | ho
    · exact hin o ho
    · obtain ⟨c, hc, hw⟩ := List.mem_filterMap.1 ho
      have := calls_in_range call h c hc
      rw [hv] at this
      cases c <;> simp only [Op.written, Option.some.injEq, reduceCtorEq] at hw
      rw [← hw, ← hlv]
      exact this.1
  obtain ⟨v1, f1, f2⟩ := (C04_iff l _ hq).2 hvis (p ++ (call.calls w mask).filterMap Op.written).length
  rw [List.take_length] at f1 f2
  obtain rfl : v' = v1 := Out.ok.inj (e2.symm.trans f1)
  exact f2

/-! ## Cases -/

namespace ReplayEx

/-- A sparse vector that holds 9 at position 0, and the operands `(5, 0, 0)` and `(0, 7, 0)`. -/
def start : World ℤ := World.of 9 [.dvec { l := 3, values := [5, 0, 0] }, .dense { r := 3, c := 1, data := [[0], [7], [0]] },
  .svec { l := 3, values := [9], indices := [0] }]

theorem start_ready : (OpCall.eAddVector 0 1 : OpCall ℤ).Ready start .nil 2 where
  operands := by
    intro p hp
    simp only [OpCall.operands, List.mem_cons, List.not_mem_nil, or_false] at hp
    rcases hp with rfl | rfl
    · exact rfl
    · exact ⟨rfl, by simp⟩
  output := ⟨rfl, by simp, by simp; decide⟩
  shapes := ⟨⟨rfl, rfl⟩, ⟨rfl, rfl⟩⟩
  writes := by intro s h; cases h
  apart := by
    intro p hp
    simp only [OpCall.operands, List.mem_cons, List.not_mem_nil, or_false] at hp
    rcases hp with rfl | rfl <;> decide
  fits := trivial
  sound := trivial
  masked := by simp
  gas := by
    intro p hp
    simp only [OpCall.operands, List.mem_cons, List.not_mem_nil, or_false] at hp
    rcases hp with rfl | rfl <;> decide

/-- The element-wise sum writes 5 at position 0 and 7 at position 1 (its two passes), … -/
example : ((OpCall.eAddVector 0 1 : OpCall ℤ).calls start .nil).filterMap Op.written = [(0, 5), (1, 7)] := by kernel_rfl

/-- … which the vector, whose history was one write of 9, remembers. -/
example : ∃ v', (OpCall.eAddVector 0 1 : OpCall ℤ).run .nil 2 start = .ok () (start.upd 2 (.svec v') none) ∧
    (SVec.new 3).runVec ([(0, 9)] ++ ((OpCall.eAddVector 0 1 : OpCall ℤ).calls start .nil).filterMap Op.written) = .ok v' :=
  C94_sparse_vector _ start_ready rfl (by intro s m h; cases h) (p := [(0, 9)]) rfl rfl

/-- The hypotheses of `C94_reads` are met. -/
example : ∀ n, AllVisible 3 (([(0, 9)] ++ [(0, 5), (1, 7)] : List (Nat × ℤ)).take n) := by
  intro n
  rcases n with _ | _ | _ | n
  · intro i; revert i; decide
  · intro i; revert i; decide
  · intro i; revert i; decide
  · intro i
    rw [show (([(0, 9)] ++ [(0, 5), (1, 7)] : List (Nat × ℤ)).take (n + 3)) = [(0, 9), (0, 5), (1, 7)] from by simp]
    revert i; decide

/-- The result, evaluated. -/
example : ((OpCall.eAddVector 0 1 : OpCall ℤ).run .nil 2 start).left 2 = some (.svec { l := 3, values := [5, 7], indices := [0, 1] }) := by
  kernel_rfl

/-- The other way round: a vector that holds 9 at position 2 (which `AtVec` cannot find) gets a second entry there. -/
example : ((OpCall.eAddVector 0 1 : OpCall ℤ).run .nil 2 (World.of 9 [.dvec { l := 3, values := [0, 0, 5] },
      .dvec { l := 3, values := [0, 0, 0] }, .svec { l := 3, values := [9], indices := [2] }])).left 2 =
    some (.svec { l := 3, values := [9, 5], indices := [2, 2] }) := by
  kernel_rfl

/-- A masked multiplication into a CSR matrix that is not empty: the calls, and the cells. -/
def product : World ℤ := World.of 9 [.dense { r := 2, c := 2, data := [[1, 2], [0, 1]] },
  .dense { r := 2, c := 2, data := [[3, 0], [0, 4]] }, .csr { r := 2, c := 2, rowStart := [0, 1, 2], cols := [0, 1], values := [8, 9] },
  .dense { r := 2, c := 2, data := [[0, 0], [0, 1]] }]

example : (OpCall.mxm 0 1 : OpCall ℤ).calls product (.ref 3) = [.set 0 0 3, .set 0 1 8, .set 1 0 0] := by kernel_rfl

example : ((OpCall.mxm 0 1 : OpCall ℤ).run (.ref 3) 2 product).left 2 =
    some (.csr { r := 2, c := 2, rowStart := [0, 2, 3], cols := [0, 1, 1], values := [3, 8, 9] }) := by
  kernel_rfl

end ReplayEx

end GB
