import Verif.Lemmas.Mutex3
import Mathlib.Data.List.Permutation

/-!
# C35: `MutexMatrix`
-/

namespace GB
namespace Mutex

set_option linter.unusedSectionVars false

variable {T : Type} [GoNum T]

/-- The calls that change the matrix. -/
def Method.Mutates : Method T → Prop
  | .set _ _ _ | .update _ _ _ | .clear => True
  | _ => False

/-- The calls that take no lock: `Columns`, `Rows`, `Size`, `Values`, `Enumerate`, `Map` (they do not touch
the elements), and the `Map` of an iterator. -/
def Method.Unlocked : Method T → Prop
  | .columns | .rows | .size | .values | .enumerate | .map | .mapNext _ _ => True
  | _ => False

instance : DecidablePred (Method.Unlocked (T := T)) := fun m => by
  cases m <;> unfold Method.Unlocked <;> infer_instance

/-- The calls other than the unlocked ones. -/
def lockedCalls (l : List (Method T)) : List (Method T) := l.filter (fun m => ¬ m.Unlocked)

/-- Their results. -/
def lockedResults {R : Type} (l : List (Method T × R)) : List (Method T × R) := l.filter (fun x => ¬ x.1.Unlocked)

theorem unlocked_iff (m : Method T) : m.Unlocked ↔ m.mode = .free := by
  cases m <;> simp [Method.Unlocked, Method.mode]

theorem lockedCalls_eq (l : List (Method T)) : lockedCalls l = locked Method.mode l := by
  unfold lockedCalls locked
  refine List.filter_congr (fun m _ => ?_)
  by_cases h : m.mode = .free
  · simp [h, (unlocked_iff m).2 h]
  · simpa [h] using fun h' => h ((unlocked_iff m).1 h')

theorem lockedResults_eq {R : Type} (l : List (Method T × R)) : lockedResults l = lockedRes Method.mode l := by
  unfold lockedResults lockedRes
  refine List.filter_congr (fun x _ => ?_)
  by_cases h : x.1.mode = .free
  · simp [h, (unlocked_iff x.1).2 h]
  · simpa [h] using fun h' => h ((unlocked_iff x.1).1 h')

variable {n : Nat} {gas : Nat} {body : Method T → Prog (Mat T) (Out (Val T))} {s0 : Mat T}
  {calls : Fin n → List (Method T)} {c : Conf n (Method T) (Mat T) (Out (Val T))}

/-- C35's first claim about one state of the system: while a mutating call is inside the wrapped matrix
no other call that touches its elements is. -/
def Exclusive (c : Conf n (Method T) (Mat T) (Out (Val T))) : Prop :=
  ∀ i m j m', c.Inside i m → m.Mutates → j ≠ i → c.Inside j m' → m'.Unlocked ∧ ∀ it f, m' ≠ .mapNext it f

/-- C35, exclusion, for `Set` and `Update`: any number of goroutines, any programs (with `Clear` and
`Map` too), any interleaving, however the calls split into accesses. Missing for C35: `Clear`
(`C35_refuted_exclusion`) and the `Map` of an iterator (`C35_refuted_map`). -/
theorem C35_exclusion_partial (h : Steps Method.mode body (Conf.init s0 calls) c) {i j : Fin n} {m m' : Method T}
    (hi : c.Inside i m) (hm : m.Mutates) (hc : m ≠ .clear) (hne : j ≠ i) (hj : c.Inside j m') : m'.Unlocked := by
  refine (unlocked_iff m').2 ((Locked.steps h (Locked.init s0 calls)).alone hi ?_ hj hne)
  cases m <;> simp [Method.Mutates] at hm hc <;> rfl

variable [GoStore T]

/-- C35, serialisation: when the goroutines call anything but `Clear` and the `Map` of an iterator, on any
matrix a program can obtain, then in every complete execution the calls that take the lock have had the
outcomes they have one after the other in the order in which they acquired it, each goroutine's calls in
its program's order, and the matrix is the one those calls leave. Missing for C35: `Clear`
(`C35_refuted_serial`). -/
theorem C35_serial_partial (hb : Splits gas body) (hs : Reach s0) (hA : ∀ i, ∀ m ∈ calls i, m.Sound)
    (h : Steps Method.mode body (Conf.init s0 calls) c) (hf : c.Finished) :
    c.mat = (serial (Method.alone gas) s0 c.order).1 ∧
    (∀ i, lockedResults (c.thr i).res = ofThread i (serial (Method.alone gas) s0 c.order).2) ∧
    ∀ i, (c.order.filter (fun x => x.1 = i)).map Prod.snd = lockedCalls (calls i) := by
  have H := Serial.steps hb.calls h (Serial.init hs hA)
  refine ⟨H.still (fun i m p hi => ?_), fun i => ?_, fun i => ?_⟩
  · rw [(hf i).2] at hi; cases hi
  · have := H.results i
    rw [(hf i).2, ahead_idle, List.append_nil] at this
    rw [lockedResults_eq]; exact this
  · have := H.program i
    rw [(hf i).1, (hf i).2] at this
    simp only [asked_idle, locked, List.filter_nil, List.append_nil] at this
    rw [lockedCalls_eq]; exact this

/-- C35, atomicity, at every moment: whenever no `Set` or `Update` is inside, the matrix is the one left by
the calls that have acquired the lock, made one after the other; it is one a program can obtain. -/
theorem C35_between_partial (hb : Splits gas body) (hs : Reach s0) (hA : ∀ i, ∀ m ∈ calls i, m.Sound)
    (h : Steps Method.mode body (Conf.init s0 calls) c) (hn : ∀ i m, c.Inside i m → ¬ m.Mutates) :
    c.mat = (serial (Method.alone gas) s0 c.order).1 ∧ Reach c.mat := by
  have H := Serial.steps hb.calls h (Serial.init hs hA)
  have e := H.still (fun i m p hi hm => hn i m ⟨p, hi⟩ (by cases m <;> simp [Method.mode, Method.Mutates] at hm ⊢))
  exact ⟨e, by rw [e]; exact H.inv⟩

/-- C35: no deadlock, and no execution goes on for ever: every execution, of any programs, has a next step
unless all goroutines have made all their calls, there is no infinite one, and so each can be completed. -/
theorem C35_ends (h : Steps Method.mode body (Conf.init s0 calls) c) :
    (c.Finished ∨ ∃ c', Step Method.mode body c c') ∧
    WellFounded (fun c' c : Conf n (Method T) (Mat T) (Out (Val T)) => Step Method.mode body c c') ∧
    ∃ c', Steps Method.mode body c c' ∧ c'.Finished := by
  have hp : ∀ c, Steps Method.mode body (Conf.init s0 calls) c → c.Finished ∨ ∃ c', Step Method.mode body c c' :=
    fun c h => (Locked.steps h (Locked.init s0 calls)).progress
  refine ⟨hp c h, step_wf, ?_⟩
  have key : ∀ d, Steps Method.mode body (Conf.init s0 calls) d → Steps Method.mode body c d →
      ∃ c', Steps Method.mode body c c' ∧ c'.Finished := by
    intro d
    induction d using (step_wf (n := n) (mode := Method.mode) (body := body)).induction with
    | h d ih =>
      intro h1 h2
      rcases hp d h1 with hf | ⟨d', hd⟩
      · exact ⟨d, h2, hf⟩
      · exact ih d' hd (h1.tail hd) (h2.tail hd)
  exact key c h .refl

/-- The hypothesis `Splits` holds of the methods taken as one access each, and of the methods of CSR and CSC taken
access by access. -/
theorem C35_splits (gas : Nat) : Splits gas (Method.atomic gas : Method T → _) ∧ Splits gas (Method.fine gas : Method T → _) :=
  ⟨atomic_splits gas, fine_splits gas⟩

/-! ## A concrete execution -/

/-- A 1 × 2 CSR matrix that holds 5 and 0. -/
def csr50 : CSR ℤ := { r := 1, c := 2, values := [5], cols := [0], rowStart := [0, 1] }

theorem csr50_reach : Reach (Mat.csr csr50) :=
  .call (.set 0 0 5) (.newCSR 1 2) rfl

/-- One goroutine writes, the other reads twice. -/
def prog3 : Fin 2 → List (Method ℤ)
  | 0 => [.set 0 1 7, .columns]
  | 1 => [.at' 0 0, .at' 0 1]

/-- Two readings around a write; the accesses of `Columns` are interleaved with those of `At`. -/
def run3 : Option (Conf 2 (Method ℤ) (Mat ℤ) (Out (Val ℤ))) :=
  exec Method.mode (Method.fine 9)
    (List.replicate 11 1 ++ List.replicate 11 0 ++ [1, 0] ++ List.replicate 10 1 ++ [0, 0])
    (Conf.init (.csr csr50) prog3)

example : (run3.map fun c => ((c.thr 0).res.map (·.2), (c.thr 1).res.map (·.2), c.mat)) =
    some ([.ok .unit, .ok (.nat 2)], [.ok (.num 5), .ok (.num 7)],
      .csr { r := 1, c := 2, values := [5, 7], cols := [0, 1], rowStart := [0, 2] }) := by decide +kernel

/-- The hypotheses of `C35_serial_partial` hold of it, and its conclusion for one of the goroutines. -/
example : ∃ c, run3 = some c ∧ c.Finished ∧ Steps Method.mode (Method.fine 9) (Conf.init (.csr csr50) prog3) c ∧
    lockedResults (c.thr 1).res = [(.at' 0 0, .ok (.num 5)), (.at' 0 1, .ok (.num 7))] ∧
    c.order = [(1, .at' 0 0), (0, .set 0 1 7), (1, .at' 0 1)] := by
  have hs : run3.isSome = true := by decide +kernel
  obtain ⟨c, hc⟩ := Option.isSome_iff_exists.1 hs
  have h : Steps Method.mode (Method.fine 9) (Conf.init (.csr csr50) prog3) c := exec_steps Steps.refl hc
  refine ⟨c, hc, ?_, h, ?_, ?_⟩
  · have h1 : (run3.map fun c => ((c.thr 0).todo.length, (c.thr 1).todo.length)) = some (0, 0) := by decide +kernel
    have h2 : (run3.map fun c => ((c.thr 0).phase, (c.thr 1).phase)) = some (.idle, .idle) := by rfl
    rw [hc] at h1 h2
    simp only [Option.map_some, Option.some.injEq, Prod.mk.injEq, List.length_eq_zero_iff] at h1 h2
    intro i
    match i with
    | 0 => exact ⟨h1.1, h2.1⟩
    | 1 => exact ⟨h1.2, h2.2⟩
  · have h3 : (run3.map fun c => lockedResults (c.thr 1).res) =
      some [(.at' 0 0, .ok (.num 5)), (.at' 0 1, .ok (.num 7))] := by rfl
    rw [hc] at h3
    exact Option.some.inj h3
  · have h3 : (run3.map fun c => c.order) = some [(1, .at' 0 0), (0, .set 0 1 7), (1, .at' 0 1)] := by rfl
    rw [hc] at h3
    exact Option.some.inj h3

/-! ## `Clear` takes the lock for reading -/

/-- One goroutine clears, the other reads. -/
def progClear : Fin 2 → List (Method ℤ)
  | 0 => [.clear]
  | 1 => [.at' 0 0]

/-- `At` has read where its row is; then `Clear` runs. -/
def runClear (l : List (Fin 2)) : Option (Conf 2 (Method ℤ) (Mat ℤ) (Out (Val ℤ))) :=
  exec Method.mode (Method.fine 9) l (Conf.init (.csr csr50) progClear)

/-- C35 is false: `Clear` (which takes the lock for reading) and `At` can be inside together. -/
theorem C35_refuted_exclusion : ∃ c, Steps Method.mode (Method.fine 9) (Conf.init (.csr csr50) progClear) c ∧
    ¬ Exclusive c := by
  have hs : (runClear [1, 0]).isSome = true := by decide +kernel
  obtain ⟨c, hc⟩ := Option.isSome_iff_exists.1 hs
  refine ⟨c, exec_steps Steps.refl hc, fun h => ?_⟩
  have h2 : ((runClear [1, 0]).map fun c => ((c.thr 0).phase, (c.thr 1).phase)) =
    some (.inside .clear (Method.fine 9 .clear), .inside (.at' 0 0) (Method.fine 9 (.at' 0 0))) := by rfl
  rw [hc] at h2
  simp only [Option.map_some, Option.some.injEq, Prod.mk.injEq] at h2
  exact (h 0 .clear 1 (.at' 0 0) ⟨_, h2.1⟩ trivial (by decide) ⟨_, h2.2⟩).1

/-- C35 is false: a complete execution in which `At` of a valid index panics, which it does in no order of
the two calls. -/
theorem C35_refuted_serial : ∃ c, Steps Method.mode (Method.fine 9) (Conf.init (.csr csr50) progClear) c ∧
    c.Finished ∧ (c.thr 1).res = [(.at' 0 0, .panic)] ∧
    ∀ order : List (Fin 2 × Method ℤ), order.Perm [(0, .clear), (1, .at' 0 0)] →
      (c.thr 1).res ≠ ofThread 1 (serial (Method.alone 9) (.csr csr50) order).2 := by
  have hs : (runClear (List.replicate 5 1 ++ List.replicate 6 0 ++ [1, 1])).isSome = true := by decide +kernel
  obtain ⟨c, hc⟩ := Option.isSome_iff_exists.1 hs
  have h1 : ((runClear (List.replicate 5 1 ++ List.replicate 6 0 ++ [1, 1])).map fun c => (c.thr 0, c.thr 1)) =
    some (⟨[], .idle, [(.clear, .ok .unit)]⟩, ⟨[], .idle, [(.at' 0 0, .panic)]⟩) := by rfl
  rw [hc] at h1
  simp only [Option.map_some, Option.some.injEq, Prod.mk.injEq] at h1
  refine ⟨c, exec_steps Steps.refl hc, ?_, by rw [h1.2], ?_⟩
  · intro i
    match i with
    | 0 => rw [h1.1]; exact ⟨rfl, rfl⟩
    | 1 => rw [h1.2]; exact ⟨rfl, rfl⟩
  · intro order ho
    have ho := List.mem_permutations'.2 ho
    rw [show ([(0, .clear), (1, .at' 0 0)] : List (Fin 2 × Method ℤ)).permutations' =
      [[(0, .clear), (1, .at' 0 0)], [(1, .at' 0 0), (0, .clear)]] from by rfl] at ho
    rw [h1.2]
    simp only [List.mem_cons, List.not_mem_nil, or_false] at ho
    have key : ∀ v : ℤ, ([(.at' 0 0, .panic)] : List (Method ℤ × Out (Val ℤ))) ≠ [(.at' 0 0, .ok (.num v))] := by
      intro v h; simp at h
    rcases ho with rfl | rfl
    · exact key 0
    · exact key 5

/-- The `Map` of an iterator takes no lock: it writes while `Set` is inside. -/
theorem C35_refuted_map : ∃ (calls : Fin 2 → List (Method ℤ)) (c : _),
    Steps Method.mode (Method.fine 9) (Conf.init (.csr csr50) calls) c ∧
    (∃ i j m it f, c.Inside i m ∧ m.Mutates ∧ m ≠ .clear ∧ j ≠ i ∧ c.Inside j (.mapNext it f)) ∧ ¬ Exclusive c := by
  let it := (Mat.csr csr50).iter
  let f : Nat → Nat → ℤ → ℤ := fun _ _ v => v + 1
  let calls : Fin 2 → List (Method ℤ) := fun i => if i = 0 then [.set 0 0 7] else [.mapNext it f]
  have hs : (exec Method.mode (Method.fine 9) [0, 0, 1] (Conf.init (.csr csr50) calls)).isSome = true := by rfl
  obtain ⟨c, hc⟩ := Option.isSome_iff_exists.1 hs
  have h2 : ((exec Method.mode (Method.fine 9) [0, 0, 1] (Conf.init (.csr csr50) calls)).map fun c =>
      ((c.thr 0).phase, (c.thr 1).phase)) =
    some (.inside (.set 0 0 7) (Method.fine 9 (.set 0 0 7)), .inside (.mapNext it f) (Method.fine 9 (.mapNext it f))) := by rfl
  rw [hc] at h2
  simp only [Option.map_some, Option.some.injEq, Prod.mk.injEq] at h2
  have a : c.Inside 0 (.set 0 0 7) := ⟨_, h2.1⟩
  have b : c.Inside 1 (.mapNext it f) := ⟨_, h2.2⟩
  exact ⟨calls, c, exec_steps Steps.refl hc, ⟨0, 1, _, it, f, a, trivial, by simp, by decide, b⟩,
    fun h => (h 0 _ 1 _ a trivial (by decide) b).2 it f rfl⟩

end Mutex
end GB
