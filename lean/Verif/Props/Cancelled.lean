import Verif.Lemmas.Cancelled
import Verif.Lemmas.Retry
import Verif.Lemmas.RetryNeg
import Verif.Props.Replay

/-!
# C95: a cancelled operator has made the first of its calls; C96: trying again
-/

namespace GB

set_option linter.unusedSectionVars false
set_option linter.unusedSimpArgs false

open M

variable {T : Type} [GoNum T] [GoStore T] {w : World T} {out : Ref} {mask : Mask}

/-- **C95**: an operator that finds its context cancelled after `k` looks returns, having made exactly the calls of the turns
it has completed; nothing else has changed. -/
theorem C95_stops (call : OpCall T) (h : call.Ready w mask out) {k : Nat} (hc : w.cancel = some k) :
    ∃ m' c, (w.heap out).run (call.callsWithin w mask k) = .ok m' ∧ call.run mask out w = .ok () (w.upd out m' c) := by
  obtain ⟨m', h1, -, -, h2⟩ := replay_aux call h
  rw [hc, made_callsWithin] at h1
  exact ⟨m', _, h1, h2⟩

/-- **C95**: these calls are the first ones of the calls of the run that is not cancelled. -/
theorem C95_first (call : OpCall T) (k : Nat) : call.callsWithin w mask k <+: call.calls w mask := callsWithin_prefix call k

/-- **C95**: they are all of them if the run has time for all turns, or if it never looks. -/
theorem C95_all (call : OpCall T) {k : Nat} (hk : (call.turns w mask).length * call.pace w ≤ k) :
    call.callsWithin w mask k = call.calls w mask := by
  unfold OpCall.callsWithin
  split
  · rfl
  · rename_i h
    rw [← turns_calls, List.take_of_length_le]
    exact (Nat.le_div_iff_mul_le (by omega)).2 hk

/-- **C95** for an output that is a matrix or a dense vector: the cells are what these calls make of them on a plain
table. -/
theorem C95_table (call : OpCall T) (h : call.Ready w mask out) {k : Nat} (hc : w.cancel = some k)
    (hk : (w.heap out).kind ≠ .svec) :
    ∃ m' c, call.run mask out w = .ok () (w.upd out m' c) ∧
      ∀ i j : Nat, i < (w.heap out).rows → j < (w.heap out).cols → m'.at' i j =
        .ok (specRun (w.heap out).keep (w.heap out).val (call.callsWithin w mask k) i j, m') := by
  obtain ⟨m', c, e1, e2⟩ := C95_stops call h hc
  obtain ⟨m1, f1, f2, f3, f4⟩ := Mat.run_ok (call.callsWithin w mask k) (h.output.wf hk) hk
    (fun o ho => calls_in_range call h o ((C95_first call k).subset ho)) (f := (w.heap out).val) (fun i j _ _ => rfl)
  obtain rfl : m' = m1 := Out.ok.inj (e1.symm.trans f1)
  refine ⟨m', c, e2, fun i j hi hj => ?_⟩
  rw [Mat.at_ok f2 (by rw [f3.2.1]; exact hi) (by rw [f3.2.2]; exact hj), f4 i j hi hj]

/-- **C95** for an output that is a sparse vector with any history: the cancelled call prolongs the history by the first of
its writes. -/
theorem C95_sparse_vector (call : OpCall T) (h : call.Ready w mask out) {k : Nat} (hc : w.cancel = some k)
    (hsub : ∀ s m, call ≠ .subtract s m)
    {l : Nat} {p : List (Nat × T)} {v : SVec T} (hv : w.heap out = .svec v) (hp : (SVec.new l).runVec p = .ok v) :
    ∃ v' c, call.run mask out w = .ok () (w.upd out (.svec v') c) ∧
      (SVec.new l).runVec (p ++ (call.callsWithin w mask k).filterMap Op.written) = .ok v' := by
  obtain ⟨m', c, e1, e2⟩ := C95_stops call h hc
  rw [hv] at e1
  obtain ⟨v', rfl, e3⟩ := run_runVec _ (fun o ho => calls_set call h hsub hv o ((C95_first call k).subset ho)) e1
  refine ⟨v', c, e2, ?_⟩
  rw [SVec.runVec_append, hp, Out.ok_bind, e3]

/-! ## Trying again -/

/-- **C96**: an operator other than `Subtract` that is called again and again after it was cancelled, and at last not
cancelled, leaves in every cell what one call that is not cancelled leaves there.

Missing: `Subtract`, `Negative` and sparse vectors as outputs, where it is false (`C96_refuted_subtract`,
`C96_refuted_negative`, `C96_refuted_sparse_vector`). -/
theorem C96_again_partial (call : OpCall T) (h : call.Ready w mask out) (hk : (w.heap out).kind ≠ .svec)
    (hsub : ∀ s m, call ≠ .subtract s m) (cs : List (Option Nat)) :
    ∃ m1 m2 c, call.run mask out { w with cancel := none } = .ok () (w.upd out m1 none) ∧
      call.tries mask out w (cs ++ [none]) = .ok () (w.upd out m2 c) ∧
      ∀ i j : Nat, i < (w.heap out).rows → j < (w.heap out).cols → ∃ x, m1.at' i j = .ok (x, m1) ∧ m2.at' i j = .ok (x, m2) := by
  obtain ⟨m1, a1, a2⟩ := C94_table call (h.cancel none) rfl hk
  obtain ⟨m2, c, b1, b2, b3, b4⟩ := tries_aux call hsub cs w h hk
  refine ⟨m1, m2, c, a1, b1, fun i j hi hj => ⟨_, a2 i j hi hj, ?_⟩⟩
  rw [Mat.at_ok b2 (by rw [b3.2.1]; exact hi) (by rw [b3.2.2]; exact hj), b4 i j hi hj]
  rfl

/-- **C96**, what is true of every operator that writes and every output: calls made one after the other, cancelled where one
likes, do to the output what the first call has got done, then what the second has got done, and so on. -/
theorem C96_exact (call : OpCall T) (h : call.Ready w mask out) (cs : List (Option Nat)) :
    ∃ m' c, call.tries mask out w cs = .ok () (w.upd out m' c) ∧
      (w.heap out).run (cs.flatMap (call.callsOf w mask)) = .ok m' :=
  tries_run call cs w h

/-- **C96** for sparse vectors as outputs, with any history: every call that is tried prolongs the history by the writes it has
got done. -/
theorem C96_sparse_vector (call : OpCall T) (h : call.Ready w mask out) (hsub : ∀ s m, call ≠ .subtract s m)
    {l : Nat} {p : List (Nat × T)} {v : SVec T} (hv : w.heap out = .svec v) (hp : (SVec.new l).runVec p = .ok v)
    (cs : List (Option Nat)) :
    ∃ v' c, call.tries mask out w cs = .ok () (w.upd out (.svec v') c) ∧
      (SVec.new l).runVec (p ++ (cs.flatMap (call.callsOf w mask)).filterMap Op.written) = .ok v' := by
  obtain ⟨m', c, e1, e2⟩ := C96_exact call h cs
  rw [hv] at e2
  obtain ⟨v', rfl, e3⟩ := run_runVec _ (fun o ho => by
    obtain ⟨c, -, ho⟩ := List.mem_flatMap.1 ho
    exact calls_set call h hsub hv o (callsOf_subset call c o ho)) e2
  refine ⟨v', c, e1, ?_⟩
  rw [SVec.runVec_append, hp, Out.ok_bind, e3]

/-- **C96** for `Subtract` into a matrix or a dense vector: a cell is subtracted from what the first operand has there as often
as there are calls that have got to it. -/
theorem C96_subtract {s m : Ref} (h : (OpCall.subtract s m).Ready w mask out) (hk : (w.heap out).kind ≠ .svec)
    (hs : (w.heap s).kind ≠ .svec) (cs : List (Option Nat)) :
    ∃ m' c, (OpCall.subtract s m).tries mask out w cs = .ok () (w.upd out m' c) ∧
      ∀ i j : Nat, i < (w.heap out).rows → j < (w.heap out).cols → m'.at' i j =
        .ok ((fun v => (w.heap out).keep ((w.heap s).val i j - v))^[times
          (cs.flatMap ((OpCall.subtract s m).callsOf w mask)) i j] ((w.heap out).val i j), m') := by
  obtain ⟨m', c, e1, e2⟩ := C96_exact _ h cs
  have hin : ∀ o ∈ cs.flatMap ((OpCall.subtract s m).callsOf w mask), o ∈ (OpCall.subtract s m).calls w mask := by
    intro o ho
    obtain ⟨c, -, ho⟩ := List.mem_flatMap.1 ho
    exact callsOf_subset _ c o ho
  obtain ⟨m1, f1, f2, f3, f4⟩ := Mat.run_ok _ (h.output.wf hk) hk (fun o ho => calls_in_range _ h o (hin o ho))
    (f := (w.heap out).val) (fun i j _ _ => rfl)
  obtain rfl : m' = m1 := Out.ok.inj (e2.symm.trans f1)
  refine ⟨m', c, e1, fun i j hi hj => ?_⟩
  rw [Mat.at_ok f2 (by rw [f3.2.1]; exact hi) (by rw [f3.2.2]; exact hj), f4 i j hi hj,
    specRun_times _ _ (fun o ho => subtract_calls hs i j o (hin o ho))]

/-- **C96** for `Subtract` exactly: cancelled once and tried again, the cells the cancelled call has not got to are right; in
one it has got to there is `e - (e - v)` instead of `e - v`, so that it is right if and only if the two are the same. -/
theorem C96_subtract_iff {s m : Ref} (h : (OpCall.subtract s m).Ready w mask out) (hk : (w.heap out).kind ≠ .svec)
    (hs : (w.heap s).kind ≠ .svec) (k : Nat) :
    ∃ m1 m2 c, (OpCall.subtract s m).run mask out { w with cancel := none } = .ok () (w.upd out m1 none) ∧
      (OpCall.subtract s m).tries mask out w [some k, none] = .ok () (w.upd out m2 c) ∧
      ∀ i j : Nat, i < (w.heap out).rows → j < (w.heap out).cols →
        ∃ x y, m1.at' i j = .ok (x, m1) ∧ m2.at' i j = .ok (y, m2) ∧
          if times ((OpCall.subtract s m).callsWithin w mask k) i j = 0 then y = x
          else x = (w.heap out).keep ((w.heap s).val i j - (w.heap out).val i j) ∧
            y = (w.heap out).keep ((w.heap s).val i j - x) := by
  obtain ⟨m1, a1, a2⟩ := C94_table _ (h.cancel none) rfl hk
  obtain ⟨m2, c, b1, b2⟩ := C96_subtract h hk hs [some k, none]
  refine ⟨m1, m2, c, a1, b1, fun i j hi hj => ⟨_, _, a2 i j hi hj, b2 i j hi hj, ?_⟩⟩
  have hx : specRun (w.heap out).keep (w.heap out).val ((OpCall.subtract s m).calls { w with cancel := none } mask) i j =
      (fun v => (w.heap out).keep ((w.heap s).val i j - v))^[times ((OpCall.subtract s m).calls w mask) i j]
        ((w.heap out).val i j) := by
    have := calls_upd (w := w) _ h.apart h.masked (w.heap out) none
    rw [show w.upd out (w.heap out) none = { w with cancel := none } by simp [World.upd]] at this
    rw [this]
    exact specRun_times _ _ (subtract_calls hs i j)
  have hy : times ([some k, none].flatMap ((OpCall.subtract s m).callsOf w mask)) i j =
      times ((OpCall.subtract s m).callsWithin w mask k) i j + times ((OpCall.subtract s m).calls w mask) i j := by
    simp [List.flatMap_cons, times_append, OpCall.callsOf]
  have h1 := subtract_once (w := w) (mask := mask) (m := m) hs i j
  have h2 := times_le (callsWithin_prefix (w := w) (mask := mask) (OpCall.subtract s m) k) i j
  rw [hy]
  show if _ then _ = specRun (w.heap out).keep (w.heap out).val _ i j else specRun (w.heap out).keep (w.heap out).val _ i j = _ ∧
    _ = (w.heap out).keep ((w.heap s).val i j - specRun (w.heap out).keep (w.heap out).val _ i j)
  rw [hx]
  split
  · rename_i e
    rw [e, Nat.zero_add]
  · rename_i e
    have e1 : times ((OpCall.subtract s m).callsWithin w mask k) i j = 1 := by omega
    have e2 : times ((OpCall.subtract s m).calls w mask) i j = 1 := by omega
    rw [e1, e2]
    exact ⟨rfl, rfl⟩

/-- **C96** for `Subtract` over any ring of values, however often it is called and wherever it is cancelled: a cell that an even
number of calls have got to has its old value back, one that an odd number have got to has the difference. So a second call
undoes in a cell what the cancelled one did there. -/
theorem C96_subtract_parity {T : Type} [GoRing T] [GoLawful T] {w : World T} {out : Ref} {mask : Mask} {s m : Ref}
    (h : (OpCall.subtract s m).Ready w mask out) (hk : (w.heap out).kind ≠ .svec) (hs : (w.heap s).kind ≠ .svec)
    (cs : List (Option Nat)) :
    ∃ m' c, (OpCall.subtract s m).tries mask out w cs = .ok () (w.upd out m' c) ∧
      ∀ i j : Nat, i < (w.heap out).rows → j < (w.heap out).cols → ∃ x, m'.at' i j = .ok (x, m') ∧
        x = if Even (times (cs.flatMap ((OpCall.subtract s m).callsOf w mask)) i j) then (w.heap out).val i j
          else (w.heap s).val i j - (w.heap out).val i j := by
  obtain ⟨m', c, e1, e2⟩ := C96_subtract h hk hs cs
  refine ⟨m', c, e1, fun i j hi hj => ⟨_, e2 i j hi hj, ?_⟩⟩
  have hf : Function.Involutive (fun v => (w.heap out).keep ((w.heap s).val i j - v)) := fun v => by
    simp only [Mat.keep_lawful]
    exact sub_sub_cancel _ _
  split
  · rename_i he
    rw [hf.iterate_even he]
    rfl
  · rename_i he
    rw [hf.iterate_odd (Nat.not_even_iff_odd.1 he)]
    exact Mat.keep_lawful _ _

/-- **C96** for `Negative` over any ring of values, as far as it goes: however often it is called and wherever it is cancelled,
every cell has its old value or the negated one, and a masked cell has its old value. Which of the two it is depends on how
often the calls have got to it (`C96_refuted_negative`). -/
theorem C96_negative {T : Type} [GoRing T] [GoLawful T] {w : World T} {out : Ref} {mask : Mask} (s : Ref)
    (hout : (w.heap out).WF) (hF : mask.Fits w out) (hS : mask.Sound w) (hmo : mask ≠ .ref out)
    (hg : (w.heap out).rows * (w.heap out).cols ≤ w.gas) (cs : List (Option Nat)) :
    ∃ m' c, (OpCall.negative s).tries mask out w cs = .ok () (w.upd out m' c) ∧
      ∀ i j : Nat, i < (w.heap out).rows → j < (w.heap out).cols → ∃ x, m'.at' i j = .ok (x, m') ∧
        (x = (w.heap out).val i j ∨ (mask.bit w i j = false ∧ x = -((w.heap out).val i j))) := by
  obtain ⟨m', c, h1, h2, h3, h4⟩ := negative_tries s cs w hout hF hS hmo hg
  exact ⟨m', c, h1, fun i j hi hj => ⟨_, Mat.at_ok h2 (by rw [h3.2.1]; exact hi) (by rw [h3.2.2]; exact hj), h4 i j hi hj⟩⟩

/-! ## Cases -/

namespace CancelledEx

/-- `(5, 5)` less `(0, 0)` into a dense `(1, 1)`. -/
def minus : World ℤ := World.of 9 [.dense { r := 1, c := 2, data := [[5, 5]] }, .dense { r := 1, c := 2, data := [[0, 0]] },
  .dense { r := 1, c := 2, data := [[1, 1]] }]

theorem minus_ready : (OpCall.subtract 0 1 : OpCall ℤ).Ready minus .nil 2 where
  operands := by
    intro p hp
    simp only [OpCall.operands, List.mem_cons, List.not_mem_nil, or_false] at hp
    rcases hp with rfl | rfl <;> exact ⟨rfl, by simp⟩
  output := ⟨rfl, by simp⟩
  shapes := ⟨⟨rfl, rfl⟩, ⟨rfl, rfl⟩⟩
  writes := by intro s h; cases h
  apart := by
    intro p hp
    simp only [OpCall.operands, List.mem_cons, List.not_mem_nil, or_false] at hp
    rcases hp with rfl | rfl <;> decide
  fits := trivial
  sound := trivial
  masked := by simp
  gas := by
    intro p hp
    simp only [OpCall.operands, List.mem_cons, List.not_mem_nil, or_false] at hp
    rcases hp with rfl | rfl <;> decide

/-- Cancelled after one look, the call has got to the first cell only. -/
example : times ((OpCall.subtract 0 1 : OpCall ℤ).callsWithin minus .nil 1) 0 0 = 1 ∧
    times ((OpCall.subtract 0 1 : OpCall ℤ).callsWithin minus .nil 1) 0 1 = 0 := by
  constructor <;> kernel_rfl

/-- Cancelled twice, after one and after two looks: the first cell has been written three times, the second twice. -/
example : times ([some 1, some 2, none].flatMap ((OpCall.subtract 0 1 : OpCall ℤ).callsOf minus .nil)) 0 0 = 3 ∧
    times ([some 1, some 2, none].flatMap ((OpCall.subtract 0 1 : OpCall ℤ).callsOf minus .nil)) 0 1 = 2 ∧
    ((OpCall.subtract 0 1).tries .nil 2 minus [some 1, some 2, none]).left 2 =
      some (.dense { r := 1, c := 2, data := [[4, 1]] }) := by
  refine ⟨?_, ?_, ?_⟩ <;> kernel_rfl

example : (minus.heap 0).kind ≠ .svec ∧ (minus.heap 2).kind ≠ .svec := ⟨by simp [minus, World.of, Mat.kind], by simp [minus, World.of, Mat.kind]⟩

/-- Cancelled once and called again, the first cell has its old value back. -/
example : ((OpCall.subtract 0 1).tries .nil 2 minus [some 1, none]).left 2 = some (.dense { r := 1, c := 2, data := [[1, 4]] }) := by
  kernel_rfl

example := C96_subtract_parity minus_ready (by simp [minus, World.of, Mat.kind]) (by simp [minus, World.of, Mat.kind]) [some 1, none]

/-- `Negative`, cancelled after one look and called again: the hypotheses of `C96_negative` hold. -/
example : ∃ m' c, (OpCall.negative 0).tries .nil 2 minus [some 1, none] = .ok () (minus.upd 2 m' c) ∧
    ∀ i j : Nat, i < 1 → j < 2 → ∃ x, m'.at' i j = .ok (x, m') ∧
      (x = (minus.heap 2).val i j ∨ (Mask.nil.bit minus i j = false ∧ x = -((minus.heap 2).val i j))) :=
  C96_negative (w := minus) (out := 2) (mask := .nil) 0 (show Dense.WF _ from ⟨rfl, by simp⟩) trivial trivial (by simp) (by decide) _

/-- The product of two 2 × 2 matrices looks twice for each cell: cancelled after five looks it has written two cells. -/
def product : World ℤ := World.of 9 [.dense { r := 2, c := 2, data := [[1, 2], [0, 1]] },
  .dense { r := 2, c := 2, data := [[3, 0], [0, 4]] }, .dense { r := 2, c := 2, data := [[8, 0], [0, 9]] }]

theorem product_ready : (OpCall.mxm 0 1 : OpCall ℤ).Ready product .nil 2 where
  operands := by
    intro p hp
    simp only [OpCall.operands, List.mem_cons, List.not_mem_nil, or_false] at hp
    rcases hp with rfl | rfl <;> exact ⟨rfl, by simp⟩
  output := ⟨rfl, by simp⟩
  shapes := ⟨rfl, rfl, rfl⟩
  writes := by intro s h; cases h
  apart := by
    intro p hp
    simp only [OpCall.operands, List.mem_cons, List.not_mem_nil, or_false] at hp
    rcases hp with rfl | rfl <;> decide
  fits := trivial
  sound := trivial
  masked := by simp
  gas := by
    intro p hp
    simp only [OpCall.operands, List.mem_cons, List.not_mem_nil, or_false] at hp
    rcases hp with rfl | rfl <;> decide

example : (OpCall.mxm 0 1 : OpCall ℤ).callsWithin product .nil 5 = [.set 0 0 3, .set 0 1 8] := by kernel_rfl

example : ((OpCall.mxm 0 1 : OpCall ℤ).run .nil 2 { product with cancel := some 5 }).left 2 =
    some (.dense { r := 2, c := 2, data := [[3, 8], [0, 9]] }) := by
  kernel_rfl

/-- Tried twice in vain, then with a context that is not cancelled. -/
example : ((OpCall.mxm 0 1 : OpCall ℤ).tries .nil 2 product [some 5, some 2, none]).left 2 =
    ((OpCall.mxm 0 1 : OpCall ℤ).run .nil 2 product).left 2 := by
  kernel_rfl

/-- The element-wise sum of `(0, 0, 5)` and zeros, into an empty sparse vector. -/
def sparse : World ℤ := World.of 9 [.dvec { l := 3, values := [0, 0, 5] }, .dvec { l := 3, values := [0, 0, 0] },
  .svec { l := 3, values := [], indices := [] }]

theorem sparse_ready : (OpCall.eAddVector 0 1 : OpCall ℤ).Ready sparse .nil 2 where
  operands := by
    intro p hp
    simp only [OpCall.operands, List.mem_cons, List.not_mem_nil, or_false] at hp
    rcases hp with rfl | rfl <;> exact rfl
  output := ⟨rfl, by simp, by simp⟩
  shapes := ⟨⟨rfl, rfl⟩, ⟨rfl, rfl⟩⟩
  writes := by intro s h; cases h
  apart := by
    intro p hp
    simp only [OpCall.operands, List.mem_cons, List.not_mem_nil, or_false] at hp
    rcases hp with rfl | rfl <;> decide
  fits := trivial
  sound := trivial
  masked := by simp
  gas := by
    intro p hp
    simp only [OpCall.operands, List.mem_cons, List.not_mem_nil, or_false] at hp
    rcases hp with rfl | rfl <;> decide

/-- Cancelled after three looks, at the end of the first pass. -/
example : ∃ v' c, (OpCall.eAddVector 0 1 : OpCall ℤ).run .nil 2 { sparse with cancel := some 3 } =
      .ok () (({ sparse with cancel := some 3 } : World ℤ).upd 2 (.svec v') c) ∧
    (SVec.new 3).runVec ([] ++ ((OpCall.eAddVector 0 1 : OpCall ℤ).callsWithin { sparse with cancel := some 3 } .nil 3).filterMap
      Op.written) = .ok v' :=
  C95_sparse_vector _ (sparse_ready.cancel (some 3)) rfl (by intro s m h; cases h) (p := []) rfl rfl

/-- Tried twice: both calls have entered the value. -/
example : ∃ v' c, (OpCall.eAddVector 0 1 : OpCall ℤ).tries .nil 2 sparse [some 3, none] = .ok () (sparse.upd 2 (.svec v') c) ∧
    (SVec.new 3).runVec ([] ++ ([some 3, none].flatMap ((OpCall.eAddVector 0 1 : OpCall ℤ).callsOf sparse .nil)).filterMap
      Op.written) = .ok v' :=
  C96_sparse_vector _ sparse_ready (by intro s m h; cases h) (p := []) rfl rfl _

example : ([some 3, none].flatMap ((OpCall.eAddVector 0 1 : OpCall ℤ).callsOf sparse .nil)).filterMap Op.written =
    [(2, 5), (2, 5)] := by kernel_rfl

example : ((OpCall.eAddVector 0 1 : OpCall ℤ).callsWithin sparse .nil 3).filterMap Op.written = [(2, 5)] := by kernel_rfl

end CancelledEx

/-- **C96** is false of `Subtract`, whose result depends on what the output contains: what had been subtracted from is
subtracted from again. One call makes `(4, 4)` of `(1, 1)`, a cancelled and a second one `(1, 4)`. -/
theorem C96_refuted_subtract : ∃ (w : World ℤ) (k : Nat), (OpCall.subtract 0 1).Ready w .nil 2 ∧ (w.heap 2).kind = .dense ∧
    ((OpCall.subtract 0 1).run .nil 2 { w with cancel := none }).left 2 = some (.dense { r := 1, c := 2, data := [[4, 4]] }) ∧
    ((OpCall.subtract 0 1).tries .nil 2 w [some k, none]).left 2 = some (.dense { r := 1, c := 2, data := [[1, 4]] }) :=
  ⟨CancelledEx.minus, 1, CancelledEx.minus_ready, rfl, by kernel_rfl, by kernel_rfl⟩

/-- **C96** is false of `Negative`, which negates what it had negated again. -/
theorem C96_refuted_negative : ∃ (w : World ℤ) (k : Nat), (w.heap 2).Inv ∧ (w.heap 2).kind = .dense ∧
    ((OpCall.negative 0).run .nil 2 { w with cancel := none }).left 2 = some (.dense { r := 1, c := 2, data := [[-1, -1]] }) ∧
    ((OpCall.negative 0).tries .nil 2 w [some k, none]).left 2 = some (.dense { r := 1, c := 2, data := [[1, -1]] }) :=
  ⟨CancelledEx.minus, 1, CancelledEx.minus_ready.output, rfl, by kernel_rfl, by kernel_rfl⟩

/-- **C96** is false of sparse vectors as outputs: the second call does not find what the first one has written and enters it
once more. -/
theorem C96_refuted_sparse_vector : ∃ (w : World ℤ) (k : Nat), (OpCall.eAddVector 0 1).Ready w .nil 2 ∧
    ((OpCall.eAddVector 0 1).run .nil 2 { w with cancel := none }).left 2 = some (.svec { l := 3, values := [5], indices := [2] }) ∧
    ((OpCall.eAddVector 0 1).tries .nil 2 w [some k, none]).left 2 = some (.svec { l := 3, values := [5, 5], indices := [2, 2] }) :=
  ⟨CancelledEx.sparse, 3, CancelledEx.sparse_ready, by kernel_rfl, by kernel_rfl⟩

end GB
