import Verif.Props.Mutex
import Verif.Lemmas.MutexTable

/-!
# C86: a `MutexMatrix` is a table that goroutines use one at a time
-/

namespace GB
namespace Mutex

set_option linter.unusedSectionVars false

variable {T : Type} [GoNum T] [GoStore T]

/-- **C86**: at every moment of every execution, of any number of goroutines with any programs of these calls, with
any indices, on any matrix a program can obtain: there is one order of the calls that have acquired the lock such that
every call that has returned has answered what a plain table answers when the calls are made on it one after the other in that
order, and each goroutine's calls are in the order of its program. Whenever no `Set` or `Update` is inside, the matrix
reads as the table those calls leave. The order only grows: a call that returned before another began precedes it. -/
theorem C86_table {n gas : Nat} {body : Method T → Prog (Mat T) (Out (Val T))} {s0 : Mat T} {t0 : Table T}
    {calls : Fin n → List (Method T)} {c : Conf n (Method T) (Mat T) (Out (Val T))} (hb : Splits gas body)
    (hs : Reach s0) (h0 : Reads s0 t0) (hg : t0.rows * t0.cols ≤ gas) (hA : ∀ i, ∀ m ∈ calls i, m.Plain)
    (h : Steps Method.mode body (Conf.init s0 calls) c) :
    (∀ i, List.Forall₂ (fun x y => x.1 = y.1 ∧ Says x.2 y.2) (lockedResults (c.thr i).res)
      ((ofThread i (serial Table.call t0 c.order).2).take (lockedResults (c.thr i).res).length)) ∧
    (∀ i, (c.order.filter (fun x => x.1 = i)).map Prod.snd <+: lockedCalls (calls i)) ∧
    ((∀ i m, c.Inside i m → ¬ m.Mutates) → Reads c.mat (serial Table.call t0 c.order).1) ∧
    ∀ c', Steps Method.mode body c c' → c.order <+: c'.order := by
  have hA' : ∀ i, ∀ m ∈ calls i, m.Sound := fun i m hm => by
    have := hA i m hm
    cases m <;> simp only [Method.Plain] at this <;> trivial
  have H := Serial.steps hb.calls h (Serial.init hs hA')
  have hP : ∀ i, (c.order.filter (fun x => x.1 = i)).map Prod.snd <+: lockedCalls (calls i) := fun i => by
    rw [lockedCalls_eq, ← H.program i, List.append_assoc]
    exact List.prefix_append _ _
  have hO : ∀ x ∈ c.order, x.2.Plain ∧ x.2.mode ≠ .free := by
    intro x hx
    have h1 : x.2 ∈ (c.order.filter (fun y => y.1 = x.1)).map Prod.snd :=
      List.mem_map.2 ⟨x, List.mem_filter.2 ⟨hx, by simp⟩, rfl⟩
    have h2 := (hP x.1).subset h1
    rw [lockedCalls_eq] at h2
    simp only [locked, List.mem_filter] at h2
    exact ⟨hA x.1 _ h2.1, by simpa using h2.2⟩
  obtain ⟨hR, hF⟩ := serial_table c.order hO hs h0 hg
  refine ⟨fun i => ?_, hP, fun hn => ?_, fun c' h' => h'.order_prefix⟩
  · have h1 := Forall₂.ofThread i hF
    rw [← H.results i, ← lockedResults_eq] at h1
    have h2 := List.forall₂_take (lockedResults (c.thr i).res).length h1
    rwa [List.take_left] at h2
  · have e := H.still (fun i m p hi hm => hn i m ⟨p, hi⟩ (by cases m <;> simp [Method.mode, Method.Mutates] at hm ⊢))
    rw [e]; exact hR

/-- **C86**, one goroutine: when one goroutine makes all the calls, any of them but the `Map` of an iterator, `Clear`
included, every call does what the method of the wrapped matrix does: the wrapper adds nothing. -/
theorem C86_single {gas : Nat} {body : Method T → Prog (Mat T) (Out (Val T))}
    (hb : body = Method.atomic gas ∨ body = Method.fine gas) {s0 : Mat T} (hs : Reach s0)
    {calls : Fin 1 → List (Method T)} (hA : ∀ m ∈ calls 0, m.Single) {c : Conf 1 (Method T) (Mat T) (Out (Val T))}
    (h : Steps Method.mode body (Conf.init s0 calls) c) (hf : c.Finished) :
    c.mat = (serial (Method.alone gas) s0 ((calls 0).map fun m => ((0 : Fin 1), m))).1 ∧
    (c.thr 0).res = (serial (Method.alone gas) s0 ((calls 0).map fun m => ((0 : Fin 1), m))).2.map (·.2) := by
  have hrun : ∀ m : Method T, m.Single → ∀ s, Reach s → (body m).run s = m.alone gas s := by
    intro m hm s hs
    rcases hb with rfl | rfl
    · exact atomic_run gas m s
    · rcases hm with hm | rfl
      · exact (fine_splits gas).run m hm s hs
      · exact clear_run gas s
  have key : ∃ past, Alone (Method.alone gas) s0 (calls 0) c past := by
    clear hf
    induction h with
    | refl => exact ⟨[], hs, rfl, rfl, rfl⟩
    | tail _ hst ih =>
      obtain ⟨past, ih⟩ := ih
      exact ih.step hrun hA hst
  obtain ⟨past, -, k2, k3⟩ := key
  rw [(hf 0).2] at k3
  obtain ⟨k3, k4⟩ := k3
  rw [(hf 0).1, List.append_nil] at k4
  have e : (calls 0).map (fun m => ((0 : Fin 1), m)) = past := by
    rw [← k4, List.map_map]
    conv_rhs => rw [← List.map_id past]
    exact List.map_congr_left fun x _ => Prod.ext (Subsingleton.elim _ _) rfl
  rw [e]
  exact ⟨k3, k2⟩

/-! ## A concrete case -/

/-- The execution `run3`: the table of `csr50`, and the answers. -/
example : ∃ c, run3 = some c ∧ (serial Table.call ⟨1, 2, true, fun _ j => if j = 0 then 5 else 0⟩ c.order).1.cell 0 1 = 7 ∧
    Reads c.mat (serial Table.call ⟨1, 2, true, fun _ j => if j = 0 then 5 else 0⟩ c.order).1 := by
  have hs : run3.isSome = true := by decide +kernel
  obtain ⟨c, hc⟩ := Option.isSome_iff_exists.1 hs
  have h : Steps Method.mode (Method.fine 9) (Conf.init (.csr csr50) prog3) c := exec_steps Steps.refl hc
  have h1 : (run3.map fun c => (serial Table.call ⟨1, 2, true, fun _ j => if j = 0 then (5 : ℤ) else 0⟩ c.order).1.cell 0 1) =
    some 7 := by decide +kernel
  have h2 : (run3.map fun c => ((c.thr 0).phase, (c.thr 1).phase)) = some (.idle, .idle) := by rfl
  rw [hc] at h1 h2
  simp only [Option.map_some, Option.some.injEq, Prod.mk.injEq] at h1 h2
  refine ⟨c, hc, h1, (C86_table (fine_splits 9) csr50_reach ⟨.inl rfl, rfl, rfl, by simp [Mat.kind], ?_⟩ (by decide) ?_ h).2.2.1 ?_⟩
  · intro i j hi hj
    obtain rfl : i = 0 := by simp at hi; exact hi
    match j, hj with
    | 0, _ => decide
    | 1, _ => decide
  · intro i m hm
    match i with
    | 0 => simp [prog3] at hm; rcases hm with rfl | rfl <;> trivial
    | 1 => simp [prog3] at hm; rcases hm with rfl | rfl <;> trivial
  · rintro i m ⟨p, hi⟩
    match i with
    | 0 => rw [h2.1] at hi; cases hi
    | 1 => rw [h2.2] at hi; cases hi

/-- One goroutine writes, clears and reads. -/
def progAlone : Fin 1 → List (Method ℤ) := fun _ => [.set 0 1 7, .clear, .at' 0 1]

example : ∃ c, Steps Method.mode (Method.fine 9) (Conf.init (.csr csr50) progAlone) c ∧
    (c.thr 0).res.map (·.2) = [.ok .unit, .ok .unit, .ok (.num 0)] := by
  let run := exec Method.mode (Method.fine 9) (List.replicate 23 0) (Conf.init (.csr csr50) progAlone)
  have hs : run.isSome = true := by decide +kernel
  obtain ⟨c, hc⟩ := Option.isSome_iff_exists.1 hs
  have h : Steps Method.mode (Method.fine 9) (Conf.init (.csr csr50) progAlone) c := exec_steps Steps.refl hc
  refine ⟨c, h, ?_⟩
  have h1 : (run.map fun c => (c.thr 0).todo.length) = some 0 := by decide +kernel
  have h2 : (run.map fun c => (c.thr 0).phase) = some .idle := by rfl
  rw [hc] at h1 h2
  simp only [Option.map_some, Option.some.injEq, List.length_eq_zero_iff] at h1 h2
  rw [(C86_single (.inr rfl) csr50_reach ?_ h ?_).2]
  · decide +kernel
  · intro m hm
    simp [progAlone] at hm
    rcases hm with rfl | rfl | rfl
    · exact .inl trivial
    · exact .inr rfl
    · exact .inl trivial
  · intro i
    obtain rfl : i = 0 := Subsingleton.elim _ _
    exact ⟨h1, h2⟩

end Mutex
end GB
