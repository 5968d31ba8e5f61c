import Verif.Props.Mutex
import Verif.Lemmas.MutexArith

/-!
# C92: arithmetic on a `MutexMatrix` is arithmetic on one moment of it
-/

namespace GB
namespace Mutex

set_option linter.unusedSectionVars false

variable {T : Type} [GoRing T] [GoLawful T]

/-- **C92**: as `C86_table`, and the goroutines also call `Scalar`, `Negative`, `Add`, `Subtract`, `Multiply`, `Equal` and
`NotEqual` (`Method.Exact`: where the method of the wrapped matrix is exact). Each answers the multiple, the negation, the
sum, the difference, the product or the comparison of the table at its place in the order; operands that do not fit panic;
none of them changes the table. -/
theorem C92_arithmetic {n gas : Nat} {body : Method T → Prog (Mat T) (Out (Val T))} {s0 : Mat T} {t0 : Table T}
    {calls : Fin n → List (Method T)} {c : Conf n (Method T) (Mat T) (Out (Val T))} (hb : Splits gas body)
    (hs : Reach s0) (h0 : Reads s0 t0) (hg : t0.rows * t0.cols ≤ gas)
    (hA : ∀ i, ∀ m ∈ calls i, m.Exact gas t0.compressed)
    (h : Steps Method.mode body (Conf.init s0 calls) c) :
    (∀ i, List.Forall₂ (fun x y => x.1 = y.1 ∧ Says x.2 y.2) (lockedResults (c.thr i).res)
      ((ofThread i (serial Table.reckon t0 c.order).2).take (lockedResults (c.thr i).res).length)) ∧
    (∀ i, (c.order.filter (fun x => x.1 = i)).map Prod.snd <+: lockedCalls (calls i)) ∧
    ((∀ i m, c.Inside i m → ¬ m.Mutates) → Reads c.mat (serial Table.reckon t0 c.order).1) ∧
    ∀ c', Steps Method.mode body c c' → c.order <+: c'.order := by
  have H := Serial.steps hb.calls h (Serial.init hs fun i m hm => (hA i m hm).sound)
  have hP : ∀ i, (c.order.filter (fun x => x.1 = i)).map Prod.snd <+: lockedCalls (calls i) := fun i => by
    rw [lockedCalls_eq, ← H.program i, List.append_assoc]
    exact List.prefix_append _ _
  have hO : ∀ x ∈ c.order, x.2.Exact gas t0.compressed ∧ x.2.mode ≠ .free := by
    intro x hx
    have h1 : x.2 ∈ (c.order.filter (fun y => y.1 = x.1)).map Prod.snd :=
      List.mem_map.2 ⟨x, List.mem_filter.2 ⟨hx, by simp⟩, rfl⟩
    have h2 := (hP x.1).subset h1
    rw [lockedCalls_eq] at h2
    simp only [locked, List.mem_filter] at h2
    exact ⟨hA x.1 _ h2.1, by simpa using h2.2⟩
  obtain ⟨hR, hF⟩ := serial_reckon c.order hO hs h0 hg
  refine ⟨fun i => ?_, hP, fun hn => ?_, fun c' h' => h'.order_prefix⟩
  · have h1 := Forall₂.ofThread i hF
    rw [← H.results i, ← lockedResults_eq] at h1
    have h2 := List.forall₂_take (lockedResults (c.thr i).res).length h1
    rwa [List.take_left] at h2
  · have e := H.still (fun i m p hi hm => hn i m ⟨p, hi⟩ (by cases m <;> simp [Method.mode, Method.Mutates] at hm ⊢))
    rw [e]; exact hR

/-! ## A concrete case -/

/-- A 1 × 2 dense matrix that holds 5 and 0. -/
def dense50 : Mat ℤ := .dense ⟨1, 2, [[5, 0]]⟩

theorem dense50_reach : Reach dense50 := .call (.set 0 0 5) (.newDense 1 2) rfl

/-- One goroutine writes, the other adds, multiplies and compares. -/
def progSum : Fin 2 → List (Method ℤ)
  | 0 => [.set 0 1 7]
  | 1 => [.add dense50, .multiply dense50, .notEqual dense50, .scalar 3]

def runSum : Option (Conf 2 (Method ℤ) (Mat ℤ) (Out (Val ℤ))) :=
  exec Method.mode (Method.atomic 9) (List.replicate 3 1 ++ List.replicate 4 0 ++ List.replicate 9 1)
    (Conf.init dense50 progSum)

example : (runSum.map fun c => ((c.thr 0).res.map (·.2), (c.thr 1).res.map (·.2))) =
    some ([.ok .unit], [.ok (.mat (.dense ⟨1, 2, [[10, 0]]⟩)), .panic, .ok (.bool true),
      .ok (.mat (.dense ⟨1, 2, [[15, 21]]⟩))]) := by
  decide +kernel

example : ∃ c, runSum = some c ∧ c.Finished ∧
    List.Forall₂ (fun x y => x.1 = y.1 ∧ Says x.2 y.2) (lockedResults (c.thr 1).res)
      ((ofThread 1 (serial Table.reckon ⟨1, 2, false, fun _ j => if j = 0 then 5 else 0⟩ c.order).2).take
        (lockedResults (c.thr 1).res).length) := by
  have hs : runSum.isSome = true := by decide +kernel
  obtain ⟨c, hc⟩ := Option.isSome_iff_exists.1 hs
  have h : Steps Method.mode (Method.atomic 9) (Conf.init dense50 progSum) c := exec_steps Steps.refl hc
  have h1 : (runSum.map fun c => ((c.thr 0).todo.length, (c.thr 1).todo.length)) = some (0, 0) := by decide +kernel
  have h2 : (runSum.map fun c => ((c.thr 0).phase, (c.thr 1).phase)) = some (.idle, .idle) := by rfl
  rw [hc] at h1 h2
  simp only [Option.map_some, Option.some.injEq, Prod.mk.injEq, List.length_eq_zero_iff] at h1 h2
  refine ⟨c, hc, fun i => ?_, (C92_arithmetic (atomic_splits 9) dense50_reach ⟨.inr (.inr rfl), rfl, rfl, by simp [Mat.kind, dense50], ?_⟩
    (by decide) ?_ h).1 1⟩
  · match i with
    | 0 => exact ⟨h1.1, h2.1⟩
    | 1 => exact ⟨h1.2, h2.2⟩
  · intro i j hi hj
    obtain rfl : i = 0 := by simp at hi; exact hi
    match j, hj with
    | 0, _ => decide
    | 1, _ => decide
  · intro i m hm
    match i with
    | 0 => simp [progSum] at hm; subst hm; trivial
    | 1 =>
      simp [progSum] at hm
      rcases hm with rfl | rfl | rfl | rfl
      · exact ⟨dense50_reach, .inr (.inr rfl), by decide, by simp⟩
      · exact ⟨dense50_reach, rfl, rfl⟩
      · exact ⟨dense50_reach, by decide, .inr ⟨rfl, rfl⟩⟩
      · intro h; cases h

end Mutex
end GB
