import Verif.Lemmas.Locks2
import Mathlib.Data.Fin.VecNotation

/-!
# C63, C64: goroutines and several `MutexMatrix` values
-/

namespace GB
namespace Locks

variable {n k : Nat} {T : Type} {progs : Fin n → Prog k} {c : Conf n k}

/-- C63, exclusion: while a goroutine is inside a method that holds `x` for writing, no other goroutine is
inside one that holds `x`, and it is itself inside no other; however the calls nest. -/
theorem C63_exclusion (h : Steps (Conf.init progs) c) {i : Fin n} {x : Fin k} (hi : c.Writing i x) :
    (∀ j, ¬ c.Reading j x) ∧ (∀ j, c.Writing j x → j = i) ∧
    ((c.thr i).stack.filter (fun f => f.2.1 = x)).length = 1 := by
  have hr := (Right.init progs).steps h
  have h1 := pos_of_writing hi
  have h2 : ∀ j, writes x (c.thr j) ≤ ∑ j, writes x (c.thr j) := fun j =>
    Finset.single_le_sum (f := fun j => writes x (c.thr j)) (fun _ _ => Nat.zero_le _) (Finset.mem_univ j)
  have h3 : (∑ j, writes x (c.thr j)) ≤ 1 := by
    have := hr.pending x
    rw [Finset.sum_add_distrib] at this
    have : (if c.pending x = true then 1 else 0) ≤ 1 := by split <;> omega
    omega
  have h4 : ∀ j, reads x (c.thr j) = 0 := by
    have h0 := hr.excl x (h1.trans_le (h2 i))
    rw [hr.readers] at h0
    intro j
    exact Finset.sum_eq_zero_iff.1 h0 j (Finset.mem_univ j)
  refine ⟨fun j hj => ?_, fun j hj => ?_, ?_⟩
  · have := pos_of_reading hj
    have := h4 j
    omega
  · by_contra hne
    have h5 := pos_of_writing hj
    have h6 : writes x (c.thr i) + writes x (c.thr j) ≤ ∑ j, writes x (c.thr j) := by
      rw [← Finset.sum_pair (f := fun j => writes x (c.thr j)) (fun e => hne e.symm)]
      exact Finset.sum_le_sum_of_subset (Finset.subset_univ _)
    omega
  · have h5 : writes x (c.thr i) = 1 := by have := h2 i; omega
    have h6 := h4 i
    unfold writes at h5
    unfold reads at h6
    have : ∀ l : List (Bool × Fin k × Prog k), (l.filter (fun f => f.2.1 = x)).length =
        (l.filter (fun f => f.1 = true ∧ f.2.1 = x)).length + (l.filter (fun f => f.1 = false ∧ f.2.1 = x)).length := by
      intro l
      induction l with
      | nil => rfl
      | cons f l ih =>
        obtain ⟨w, y, r⟩ := f
        cases w <;> by_cases e : y = x <;> simp [e, ih] <;> omega
    rw [this, h5, h6]

/-- C63: when the locks are ordered (no goroutine takes a lock while it holds one that comes after it, among
the locks that some goroutine takes for writing) there is no deadlock: every execution has a next step unless
all goroutines have made all their calls. It has at most three steps for each call, and each can be
completed. -/
theorem C63_ends (ho : Ordered progs) (h : Steps (Conf.init progs) c) :
    (c.Finished ∨ ∃ c', Step c c') ∧ ∃ c', Steps c c' ∧ c'.Finished := by
  refine ⟨progress ho h, ?_⟩
  have key : ∀ w (d : Conf n k), d.work = w → Steps (Conf.init progs) d → ∃ c', Steps d c' ∧ c'.Finished := by
    intro w
    induction w with
    | zero =>
      intro d hd h1
      rcases progress ho h1 with hf | ⟨d', h2⟩
      · exact ⟨d, .refl, hf⟩
      · have := work_step h2; omega
    | succ w ih =>
      intro d hd h1
      rcases progress ho h1 with hf | ⟨d', h2⟩
      · exact ⟨d, .refl, hf⟩
      · obtain ⟨c', h3, h4⟩ := ih d' (by have := work_step h2; omega) (h1.tail h2)
        exact ⟨c', (Steps.refl.tail h2).trans h3, h4⟩
  exact key _ c rfl h

/-- C63, length: no execution, of any programs, has more than three steps for each call. -/
theorem C63_bounded {m : Nat} (h : StepsN m (Conf.init progs) c) : m ≤ 3 * ∑ i, (progs i).size := by
  have key : ∀ m (d e : Conf n k), StepsN m d e → e.work + m = d.work := by
    intro m d e h
    induction h with
    | refl => omega
    | tail _ hs ih => have := work_step hs; omega
  have h1 := key _ _ _ h
  have h2 : (Conf.init progs).work ≤ 3 * ∑ i, (progs i).size := by
    unfold Conf.work
    rw [Finset.mul_sum]
    refine Finset.sum_le_sum (fun i _ => ?_)
    have := work_le (progs i)
    simpa [Conf.init, Thread.work] using this
  omega

/-! ## Calls of the package -/

/-- The calls that lock one matrix at a time: the methods with plain arguments, the operators of the package
(which hold no lock themselves), and `Multiply`, `Add`, `Subtract`, `Equal`, `NotEqual` of one matrix with
a later one. `Update` with a callback that makes calls is not among them. -/
def Call.Rising : Call T k → Prop
  | .method _ _ => True
  | .updateWith _ f => f = .nil
  | .binary x y _ => x < y

theorem reads_calls {x y : Fin k} {m : Nat} (h : Calls x (.reads y m)) : x = y := by
  induction m with
  | zero => cases h
  | succ m ih =>
    cases h with
    | here => rfl
    | inner h => cases h
    | rest h => exact ih h

theorem reads_nests {x y z : Fin k} {m : Nat} (h : Nests x y (.reads z m)) : False := by
  induction m with
  | zero => cases h
  | succ m ih =>
    cases h with
    | here h => cases h
    | inner h => cases h
    | rest h => exact ih h

theorem rising_nests {l : List (Call T k)} (hl : ∀ a ∈ l, a.Rising) {x y : Fin k} (h : Nests x y (locks l)) : x < y := by
  induction l with
  | nil => cases h
  | cons a l ih =>
    have ih := ih (fun b hb => hl b (List.mem_cons_of_mem _ hb))
    have ha := hl a List.mem_cons_self
    cases a with
    | method z m =>
      unfold locks lockOf at h
      cases hm : m.mode with
      | free => rw [hm] at h; exact ih h
      | read =>
        rw [hm] at h
        cases h with
        | here h => cases h
        | inner h => cases h
        | rest h => exact ih h
      | write =>
        rw [hm] at h
        cases h with
        | here h => cases h
        | inner h => cases h
        | rest h => exact ih h
    | updateWith z f =>
      obtain rfl : f = .nil := ha
      cases h with
      | here h => cases h
      | inner h => cases h
      | rest h => exact ih h
    | binary z z' m =>
      cases h with
      | here h => rw [reads_calls h]; exact ha
      | inner h => exact (reads_nests h).elim
      | rest h => exact ih h

/-- C63 for the methods: goroutines that call any methods of any of the matrices with plain arguments, and
`x.Multiply(y)` and the like only for `x` before `y` in some fixed order of the matrices, always finish. -/
theorem C63_rising {calls : Fin n → List (Call T k)} (hl : ∀ i, ∀ a ∈ calls i, a.Rising)
    (h : Steps (Conf.init (fun i => locks (calls i))) c) :
    (c.Finished ∨ ∃ c', Step c c') ∧ ∃ c', Steps c c' ∧ c'.Finished := by
  refine C63_ends (fun x hx => ?_) h
  have key : ∀ y, Relation.TransGen (Before fun i => locks (calls i)) x y → x < y := by
    intro y hy
    induction hy with
    | single h => obtain ⟨-, -, i, h⟩ := h; exact rising_nests (hl i) h
    | tail _ h ih => obtain ⟨-, -, i, h⟩ := h; exact ih.trans (rising_nests (hl i) h)
  exact lt_irrefl _ (key x hx)

/-- C63 for readers: goroutines that never lock for writing (no `Set`, no `Update`) always finish, however
their calls nest, `x.Multiply(x')` with `x'` that embeds `x` too. -/
theorem C63_readers (hr : ∀ i x, ¬ CallsWrite x (progs i)) (h : Steps (Conf.init progs) c) :
    (c.Finished ∨ ∃ c', Step c c') ∧ ∃ c', Steps c c' ∧ c'.Finished := by
  refine C63_ends (fun x hx => ?_) h
  obtain ⟨y, hy, -⟩ := Relation.TransGen.head'_iff.1 hx
  obtain ⟨⟨i, hi⟩, -⟩ := hy
  exact hr i x hi

/-- The hypotheses of `C63_rising`: two goroutines, `a.Multiply(b')` and `a.Set`, against `b.Update` and
`a.Equal(b')`, where `b'` embeds `b`. -/
example : ∀ i : Fin 2, ∀ a ∈ (![[.binary 0 1 4, .method 0 (.set 0 0 7)], [.updateWith 1 .nil, .binary 0 1 2]] :
    Fin 2 → List (Call ℤ 2)) i, a.Rising := by
  intro i a ha
  match i with
  | 0 =>
    simp only [Matrix.cons_val_zero, List.mem_cons, List.not_mem_nil, or_false] at ha
    rcases ha with rfl | rfl
    · exact Nat.zero_lt_one
    · trivial
  | 1 =>
    simp only [Matrix.cons_val_one, Matrix.cons_val_zero, List.mem_cons, List.not_mem_nil, or_false] at ha
    rcases ha with rfl | rfl
    · rfl
    · exact Nat.zero_lt_one

/-! ## C64: deadlocks -/

/-- C64, for programs whose locks are ordered: see `C63_ends`. Missing for C64: programs whose locks are not
ordered (`C64_refuted_callbacks`, `C64_refuted_self`, `C64_refuted_cross`, `C64_update`). -/
theorem C64_finishes_partial (ho : Ordered progs) (h : Steps (Conf.init progs) c) : ∃ c', Steps c c' ∧ c'.Finished :=
  (C63_ends ho h).2

/-- C64 is false, always: a goroutine that at some point calls, from the callback of `x.Update`, a method
that locks `x` never finishes, whatever the other goroutines do. -/
theorem C64_update {i : Fin n} {x : Fin k} (hs : SelfLock x (progs i)) (h : Steps (Conf.init progs) c) :
    ¬ (c.thr i).Done := by
  have key : Trapped x (c.thr i).pos.calls (c.thr i).stack := by
    generalize e : Conf.init progs = c0 at h
    induction h with
    | refl => subst e; exact hs
    | tail h1 h2 ih =>
      subst e
      exact trapped_step ((Right.init progs).steps h1) ih h2
  intro hd
  rw [hd] at key
  cases key

/-- The hypothesis: `s.Update(0, 0, func(v T) T { return v + s.At(0, 1) })`. -/
example : SelfLock (k := 1) 0 (locks [.updateWith (T := ℤ) 0 (locks [.method (T := ℤ) 0 (.at' 0 1)])]) :=
  .here .here

/-- `a.Update(0, 0, func(v T) T { return v + b.At(0, 0) })` in one goroutine, the same with `a` and `b` exchanged in
the other. -/
def progCallbacks : Fin 2 → List (Call ℤ 2)
  | 0 => [.updateWith 0 (locks [.method (T := ℤ) 1 (.at' 0 0)])]
  | 1 => [.updateWith 1 (locks [.method (T := ℤ) 0 (.at' 0 0)])]

/-- C64 is false: two matrices, each updated with a callback that reads the other, can block for ever. No goroutine
locks a matrix that it holds. -/
theorem C64_refuted_callbacks : ∃ c, Steps (Conf.init (fun i => locks (progCallbacks i))) c ∧
    (¬ ∃ c', Step c c') ∧ (∀ i, ¬ (c.thr i).Done) ∧ ∀ i x, ¬ Nests x x (locks (progCallbacks i)) := by
  refine ⟨_, exec_steps .refl (l := [0, 0, 1, 1]) rfl, stuck ?_, ?_, ?_⟩
  · intro i
    match i with
    | 0 => rfl
    | 1 => rfl
  · intro i h
    match i with
    | 0 => cases h
    | 1 => cases h
  · intro i x h
    match i with
    | 0 =>
      cases h with
      | here h => exact absurd (reads_calls (m := 1) h) (by decide)
      | inner h => exact reads_nests (m := 1) h
      | rest h => cases h
    | 1 =>
      cases h with
      | here h => exact absurd (reads_calls (m := 1) h) (by decide)
      | inner h => exact reads_nests (m := 1) h
      | rest h => cases h

/-- The same two goroutines one after the other finish. -/
example : ((exec [0, 0, 0, 0, 0, 1, 1, 1, 1, 1] (Conf.init (fun i => locks (progCallbacks i)))).map fun c =>
    (c.thr 0, c.thr 1)) = some (⟨.ready .nil, []⟩, ⟨.ready .nil, []⟩) := by
  decide +kernel

/-- `s.Multiply(s')`, where `s'` embeds `s`, in one goroutine, `s.Set(0, 0, 7)` in the other. -/
def progSelf (m : Nat) : Fin 2 → List (Call ℤ 1)
  | 0 => [.binary 0 0 (m + 1)]
  | 1 => [.method 0 (.set 0 0 7)]

/-- C64 is false: `s.Multiply(s')` (or `Add`, `Subtract`, `Equal`, `NotEqual`), when it calls `s` at all, and a
concurrent `s.Set` can both block for ever: the first holds the lock for reading and asks for it again, which
the waiting `Set` prevents. -/
theorem C64_refuted_self (m : Nat) : ∃ c, Steps (Conf.init (fun i => locks (progSelf m i))) c ∧
    (¬ ∃ c', Step c c') ∧ ∀ i, ¬ (c.thr i).Done := by
  refine ⟨_, exec_steps .refl (l := [0, 1]) rfl, stuck ?_, ?_⟩
  · intro i
    match i with
    | 0 => rfl
    | 1 => rfl
  · intro i h
    match i with
    | 0 => cases h
    | 1 => cases h

/-- `a.Multiply(b')`, `b.Multiply(a')`, where `a'` embeds `a` and `b'` embeds `b`, `a.Set(0, 0, 7)` and `b.Set(0, 0, 7)`, each in its goroutine. -/
def progCross (m : Nat) : Fin 4 → List (Call ℤ 2)
  | 0 => [.binary 0 1 (m + 1)]
  | 1 => [.binary 1 0 (m + 1)]
  | 2 => [.method 0 (.set 0 0 7)]
  | 3 => [.method 1 (.set 0 0 7)]

/-- C64 is false: two different matrices multiplied with each other in both orders while both are written can
block for ever. No goroutine locks a matrix that it holds. -/
theorem C64_refuted_cross (m : Nat) : ∃ c, Steps (Conf.init (fun i => locks (progCross m i))) c ∧
    (¬ ∃ c', Step c c') ∧ (∀ i, ¬ (c.thr i).Done) ∧ ∀ i x, ¬ Nests x x (locks (progCross m i)) := by
  refine ⟨_, exec_steps .refl (l := [0, 1, 2, 3]) rfl, stuck ?_, ?_, ?_⟩
  · intro i
    match i with
    | 0 => rfl
    | 1 => rfl
    | 2 => rfl
    | 3 => rfl
  · intro i h
    match i with
    | 0 => cases h
    | 1 => cases h
    | 2 => cases h
    | 3 => cases h
  · intro i x h
    match i with
    | 0 =>
      cases h with
      | here h => exact absurd (reads_calls h) (by decide)
      | inner h => exact reads_nests h
      | rest h => cases h
    | 1 =>
      cases h with
      | here h => exact absurd (reads_calls h) (by decide)
      | inner h => exact reads_nests h
      | rest h => cases h
    | 2 =>
      cases h with
      | here h => cases h
      | inner h => cases h
      | rest h => cases h
    | 3 =>
      cases h with
      | here h => cases h
      | inner h => cases h
      | rest h => cases h

/-- The same four goroutines one after the other finish. -/
example : ((exec [0, 0, 0, 0, 1, 1, 1, 1, 2, 2, 2, 3, 3, 3] (Conf.init (fun i => locks (progCross 0 i)))).map fun c =>
    (c.thr 0, c.thr 1, c.thr 2, c.thr 3)) = some (⟨.ready .nil, []⟩, ⟨.ready .nil, []⟩, ⟨.ready .nil, []⟩, ⟨.ready .nil, []⟩) := by
  decide +kernel

end Locks
end GB
