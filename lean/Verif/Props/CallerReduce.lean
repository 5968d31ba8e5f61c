import Verif.Lemmas.CallerReduce
import Verif.Props.Reduce
import Verif.KernelRfl

/-!
# C106: reductions and functions of the caller that remember and panic
-/

namespace GB
namespace ReduceBy

set_option linter.unusedSectionVars false

variable {T : Type} [Zero T] {op : List (T × T) → T → T → Option T} {unit : T} {script : List (Turn T)}

/-- C106, in every interleaving and wherever the context is cancelled: the operation is asked what the plain loop asks it, in
that order; a call that returns has made all of these calls and returns their result; the caller never sees a panic of its
operation or mask. -/
theorem C106_calls {c : Bool} {t : Sys T} (h : StepsEnv op script true (Sys.init unit c) t) :
    t.log <+: (fold op [] unit script).1 ∧
    (∀ v, t.main = .returned v → fold op [] unit script = (t.log, some v)) ∧
    (t.dead = true → (fold op [] unit script).2 = none ∧ (Turn.boom ∉ script → t.log = (fold op [] unit script).1)) ∧
    t.main ≠ .panicking ∧ t.main ≠ .panicking2 ∧ t.main ≠ .panicked := by
  cases phase_env h with
  | start hd hm hp hr hl h1 h2 => simp [hd, hm, hl]
  | going acc p r hd hm hr hp hf hst hb h1 h2 =>
    refine ⟨hf ▸ fold_log _ _ _, ?_⟩
    simp [hd, hm]
  | delivering acc hd hm hp hr hf h1 h2 =>
    simp [hd, hm, hf]
  | ending acc hd hm hp hr hf =>
    refine ⟨by rw [hf], fun v hv => ?_, by simp [hd], ?_⟩
    · rw [hv] at hm
      simp only [reduceCtorEq, Reduce.Main.returned.injEq, false_or] at hm
      rw [hf, hm]
    · rcases hm with hm | hm | hm <;> simp [hm]
  | dead hd hm hl hf hb =>
    exact ⟨hl, by simp [hm], fun _ => ⟨hf, hb⟩, by simp [hm]⟩

/-- C106, an operation that answers: in an open context every execution that can go no further has returned the result of the
plain loop, the operation was asked exactly what that asks, and all goroutines have ended. -/
theorem C106_answers {t : Sys T} {v : T} (hv : (fold op [] unit script).2 = some v)
    (h : Steps op script true (Sys.init unit false) t) (hs : ∀ u, ¬ Step op script true t u) :
    t.main = .returned v ∧ t.prod = .finished ∧ t.red = .finished ∧ t.log = (fold op [] unit script).1 ∧ t.dead = false := by
  obtain ⟨-, h2, h3, -⟩ := C106_calls h.env
  have hd : t.dead = false := by
    by_contra hd
    rw [(h3 (by simpa using hd)).1] at hv
    cases hv
  rcases (phase_env h.env).progress h.cancelled with ⟨u, hu⟩ | hd' | ⟨acc, hm, hp, hr⟩
  · exact absurd hu (hs u)
  · rw [hd] at hd'; cases hd'
  · have := h2 acc hm
    rw [this] at hv ⊢
    cases hv
    exact ⟨hm, hp, hr, rfl, hd⟩

/-- C106, an operation or a mask that panics: in an open context every execution that can go no further is one in which the
panic has ended the program while the call had not returned, so that the caller could not recover from it. -/
theorem C106_panics {t : Sys T} (hv : (fold op [] unit script).2 = none)
    (h : Steps op script true (Sys.init unit false) t) (hs : ∀ u, ¬ Step op script true t u) :
    t.dead = true ∧ t.main = .waiting := by
  have hph := phase_env h.env
  rcases hph.progress h.cancelled with ⟨u, hu⟩ | hd | ⟨acc, hm, -⟩
  · exact absurd hu (hs u)
  · refine ⟨hd, ?_⟩
    cases hph with
    | dead _ hm => exact hm
    | start hd' => rw [hd] at hd'; cases hd'
    | going _ _ _ hd' => rw [hd] at hd'; cases hd'
    | delivering _ hd' => rw [hd] at hd'; cases hd'
    | ending _ hd' => rw [hd] at hd'; cases hd'
  · rw [(C106_calls h.env).2.1 acc hm] at hv; cases hv

/-- C106: no execution is longer than `3n + 11` steps, `n` the number of turns, and from every state the end is reached. -/
theorem C106_finite :
    (∀ (n : Nat) (f : Nat → Sys T), f 0 = Sys.init unit false → (∀ k, k < n → Step op script true (f k) (f (k + 1))) →
      n ≤ 3 * script.length + 11) ∧
    ∀ t, Steps op script true (Sys.init unit false) t → ∃ u, Steps op script true t u ∧ ∀ x, ¬ Step op script true u x := by
  refine ⟨fun n f h0 hf => ?_, fun t ht => (phase_env ht.env).ends ht.cancelled⟩
  have := (ends_len (op := op) (unit := unit) (script := script) n f (by rw [h0]; exact .init _) hf).1
  rw [h0] at this
  simp [Sys.togo, Sys.init] at this
  omega

/-- C106, a mask that does not fit: the operation is not called before the caller has its panic; what it is called with
afterwards is 0 (received from the closed channel). -/
theorem C106_rejected {c : Bool} {t : Sys T} (h : StepsEnv op script false (Sys.init unit c) t) :
    (∀ v, t.main ≠ .returned v) ∧ (t.main ≠ .panicked → t.log = [] ∧ t.dead = false) ∧ ∀ e ∈ t.log, e.2 = 0 := by
  have hR := rejected_env h
  refine ⟨fun v hv => ?_, fun hm => ⟨(hR.early hm).1, ?_⟩, hR.zero⟩
  · have := hR.main; rw [hv] at this; simp at this
  · clear hR
    revert hm
    induction h with
    | refl => exact fun _ => rfl
    | cancel _ ih => exact ih
    | @step s u hs hstep ih =>
      have hR := rejected_env hs
      intro hm
      cases hstep with
      | maskBoom _ h => rw [hR.prod] at h; cases h
      | applyBoom _ h => exact absurd h ((hR.early hm).2.2 _ _)
      | sendClosed _ h => rw [hR.prod] at h; cases h
      | signalClosed _ h => rw [hR.prod] at h; cases h
      | panicSlice => exact absurd rfl hm
      | reject hd => exact hd
      | pollStop hd => exact hd
      | accept hd => exact hd
      | masked hd => exact hd
      | next hd => exact hd
      | loopEnd hd => exact hd
      | send hd => exact hd
      | apply hd => exact hd
      | signal hd => exact hd
      | recvClosed hd => exact hd
      | doneClosed hd => exact hd
      | deliver hd => exact hd
      | closeOut hd => exact hd
      | closeDone hd => exact hd
      | closeSlice hd => exact hd
      | panicDone hd => exact hd

/-- C106, a mask that does not fit: after the caller has its panic (and may have recovered from it) the operation may be called
any number of times, and its panic then ends the program. -/
theorem C106_rejected_later (c : Bool) (n : Nat) : ∃ t, Steps op script false (Sys.init unit c) t ∧ t.main = .panicked ∧
    t.log = (fold op [] unit (List.replicate n (.send 0))).1 ∧
    t.dead = (fold op [] unit (List.replicate n (.send 0))).2.isNone := by
  have h1 : Steps op script false (Sys.init unit c)
      { Sys.init unit c with main := .panicked, doneClosed := true, sliceClosed := true } :=
    .tail (.tail (.tail .refl (.reject rfl rfl rfl)) (.panicDone rfl rfl)) (.panicSlice rfl rfl)
  obtain ⟨t, ht, hm, hl, hd⟩ := zeros (op := op) (script := script) n
    { Sys.init unit c with main := .panicked, doneClosed := true, sliceClosed := true } unit rfl rfl rfl
  exact ⟨t, h1.trans ht, hm, hl, hd⟩

/-- C106, an operation that is a plain function: the reduction is the left fold, and each call is given the result of the one
before. -/
theorem C106_plain (f : T → T → T) (vs : List T) (log : List (T × T)) (acc : T) :
    fold (fun _ a v => some (f a v)) log acc (vs.map .send) =
      (log ++ (List.range vs.length).map (fun k => ((vs.take k).foldl f acc, vs.getD k 0)), some (vs.foldl f acc)) := by
  induction vs generalizing log acc with
  | nil => simp [fold]
  | cons v vs ih =>
    simp only [List.map_cons, fold, ih, List.length_cons, List.range_succ_eq_map, List.map_cons, List.map_map,
      List.foldl_cons, List.take_zero, List.foldl_nil]
    simp [Function.comp_def]

end ReduceBy

open ReduceBy in
/-- C106 on a matrix or vector in any format: in every interleaving the operation is asked about the cells that `Enumerate`
delivers and the mask does not protect, in that order, and the call returns its last answer, or never returns because the
operation's panic has ended the program. -/
theorem C106_reduction {T : Type} [GoNum T] [GoStore T] {w : World T} {s : Ref} {mask : Mask} (hs : (w.heap s).WF)
    (hg : (w.heap s).nvalues ≤ w.gas) (hc : w.cancel = none) (hS : mask.Sound w) (hF : mask.Fits w s) :
    ∃ es script, Yields Mat.Iter.hasNext (w.heap s).step (w.heap s).iter es ∧
      Faithful (w.heap s).rows (w.heap s).cols (w.heap s).val es ∧
      Ops.reduceScript s mask w = .ok (some script) w ∧
      script.map (fun o => o.elim Turn.skip Turn.send) =
        es.map (fun e => if mask.bit w e.1 e.2.1 then Turn.skip else Turn.send e.2.2) ∧
      ∀ (op : List (T × T) → T → T → Option T) (unit : T) (t : ReduceBy.Sys T),
        ReduceBy.Steps op (script.map (fun o => o.elim Turn.skip Turn.send)) true (ReduceBy.Sys.init unit false) t →
        (∀ u, ¬ ReduceBy.Step op (script.map (fun o => o.elim Turn.skip Turn.send)) true t u) →
        t.log = (fold op [] unit (es.map (fun e => if mask.bit w e.1 e.2.1 then Turn.skip else Turn.send e.2.2))).1 ∧
        match (fold op [] unit (es.map (fun e => if mask.bit w e.1 e.2.1 then Turn.skip else Turn.send e.2.2))).2 with
        | some v => t.main = .returned v ∧ t.dead = false
        | none => t.main = .waiting ∧ t.dead = true := by
  obtain ⟨es, hy, hf, hlen, -⟩ := Mat.entries_ok hs
  replace hy := hy.yields
  have hsc := Ops.reduceScript_ok hy hf.range (by omega) hS hF hc
  have hmap : (es.map (Ops.turn w mask)).map (fun o => o.elim Turn.skip Turn.send) =
        es.map (fun e => if mask.bit w e.1 e.2.1 then Turn.skip else Turn.send e.2.2) := by
    rw [List.map_map]
    refine List.map_congr_left fun e _ => ?_
    simp only [Function.comp, Ops.turn]
    cases mask.bit w e.1 e.2.1 <;> rfl
  refine ⟨es, _, hy, hf, hsc, hmap, fun op unit t ht hst => ?_⟩
  rw [hmap] at ht hst
  have hnb : Turn.boom ∉ es.map (fun e => if mask.bit w e.1 e.2.1 then Turn.skip else Turn.send e.2.2) := by
    intro h
    obtain ⟨e, -, h⟩ := List.mem_map.1 h
    split at h <;> cases h
  cases hr : (fold op [] unit (es.map (fun e => if mask.bit w e.1 e.2.1 then Turn.skip else Turn.send e.2.2))).2 with
  | some v =>
    obtain ⟨h1, -, -, h4, h5⟩ := C106_answers hr ht hst
    exact ⟨h4, h1, h5⟩
  | none =>
    obtain ⟨h1, h2⟩ := C106_panics hr ht hst
    exact ⟨((C106_calls ht.env).2.2.1 h1).2 hnb, h2, h1⟩

/-! ## Concrete cases -/

namespace ReduceBy

/-- An addition that panics at its third call. -/
def addTwice (past : List (ℤ × ℤ)) (a b : ℤ) : Option ℤ := if past.length < 2 then some (a + b) else none

/-- It is asked about 5 and 6, but not about the masked cell between them. -/
example : fold addTwice [] 0 [.send 5, .skip, .send 6] = ([(0, 5), (5, 6)], some 11) := by kernel_rfl

/-- The third value ends the program; the fourth is not asked about. -/
example : fold addTwice [] 0 [.send 5, .send 6, .send 7, .send 8] = ([(0, 5), (5, 6), (11, 7)], none) := by kernel_rfl

/-- So no execution of that reduction returns, and there is one that ends, with the program. -/
example : ∃ t, Steps addTwice [.send 5, .send 6, .send 7, .send 8] true (Sys.init 0 false) t ∧ t.dead = true ∧
    t.main = .waiting ∧ t.log = [(0, 5), (5, 6), (11, 7)] := by
  obtain ⟨t, ht, hs⟩ := (C106_finite (op := addTwice) (unit := 0) (script := [.send 5, .send 6, .send 7, .send 8])).2 _ .refl
  obtain ⟨h1, h2⟩ := C106_panics (by kernel_rfl) ht hs
  exact ⟨t, ht, h1, h2, ((C106_calls ht.env).2.2.1 h1).2 (by decide)⟩

/-- With a mask that does not fit, the caller recovers from the panic, and the program ends all the same. -/
example : ∃ t, Steps addTwice [] false (Sys.init 0 false) t ∧ t.main = .panicked ∧ t.dead = true ∧
    t.log = [(0, 0), (0, 0), (0, 0)] := by
  obtain ⟨t, ht, hm, hl, hd⟩ := C106_rejected_later (op := addTwice) (unit := 0) (script := []) false 3
  exact ⟨t, ht, hm, hd, hl⟩

/-- A mask that panics at the second cell: the program may end before the operation was called for the first. -/
example : ∃ t, Steps addTwice [.send 5, .boom] true (Sys.init 0 false) t ∧ t.dead = true ∧ t.log = [] :=
  ⟨_, .tail (.tail (.tail (.tail .refl (.accept rfl rfl rfl)) (.next rfl rfl rfl)) (.send rfl rfl rfl rfl))
    (.maskBoom rfl rfl rfl), rfl, rfl⟩

/-- The CSR matrix `(1 0 2)`. -/
def oneTwo : World ℤ := World.of 9 [.csr { r := 1, c := 3, rowStart := [0, 2], cols := [0, 2], values := [1, 2] }]

theorem oneTwo_wf : (oneTwo.heap 0).WF := by
  have h1 : Reach (Mat.csr { r := 1, c := 3, rowStart := [0, 1], cols := [0], values := [1] } : Mat ℤ) :=
    Reach.call (.set 0 0 1) (Reach.newCSR 1 3) (by decide)
  have : Reach (oneTwo.heap 0) := Reach.call (.set 0 2 2) h1 (by decide)
  exact this.wf (by decide)

/-- It meets the hypotheses of `C106_reduction`; the operation is asked about 1 and 2, not about the 0. -/
example : ∃ (es : List (Nat × Nat × ℤ)) (script : List (Option ℤ)), Ops.reduceScript 0 .nil oneTwo = .ok (some script) oneTwo ∧
    script.map (fun o => o.elim Turn.skip Turn.send) = es.map (fun e => Turn.send e.2.2) ∧
    Ops.reduceScript 0 .nil oneTwo = .ok (some [some 1, some 2]) oneTwo := by
  obtain ⟨es, script, -, -, h, h', -⟩ := C106_reduction (mask := .nil) oneTwo_wf (by decide) rfl trivial trivial
  exact ⟨es, script, h, h', rfl⟩

end ReduceBy

end GB
