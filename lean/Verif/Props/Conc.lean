import Verif.Lemmas.Conc
import Verif.KernelRfl

/-!
# C78: operators running at the same time
-/

namespace GB

set_option linter.unusedSectionVars false

variable {T : Type} [GoNum T] [GoStore T]

/-- The calls have different outputs, and no output is an operand or the mask of another call. (An output may be an
operand or the mask of its own call, and operands and masks may be shared freely.) -/
def Separate {n : Nat} (calls : Fin n → Call T) : Prop :=
  ∀ i j, i ≠ j → (calls i).out ≠ (calls j).out ∧ (calls j).out ∉ (calls i).op.operands ∧
    (calls i).mask ≠ .ref (calls j).out

/-- The call, made when nothing else runs. -/
def Call.alone (w : World T) (c : Call T) : Res T Unit := c.op.run c.mask c.out { w with cancel := c.cancel }

/-- The calls made one after the other, in the order of the list; a panic does not keep the next from being made. -/
def serially {n : Nat} (w : World T) (calls : Fin n → Call T) : List (Fin n) → World T
  | [] => w
  | i :: l => serially { w with heap := ((calls i).alone w).world.heap } calls l

section
variable {n : Nat} {w : World T} {calls : Fin n → Call T}

private theorem apart (hs : Separate calls) (hI : ∀ q, (∀ i, q ≠ (calls i).out) → Reach (w.heap q)) {k : Nat}
    {c : Conf T n} (he : Conf.Exec w.reg k (.start w.gas w.heap calls) c) :
    c.Apart w (fun i => (calls i).out) (fun i q => q ∈ (calls i).op.operands ∨ (calls i).mask = .ref q)
      (fun i => (calls i).alone w)
      (∑ i, ((calls i).op.steps w.gas (calls i).mask (calls i).out).cost { w with cancel := (calls i).cancel }) k := by
  have h0 := Conf.Apart.init (w := w) (gas := w.gas) (calls := calls)
  have e : (fun i => ((calls i).op.steps w.gas (calls i).mask (calls i).out).run { w with cancel := (calls i).cancel })
      = fun i => (calls i).alone w :=
    funext fun i => OpCall.steps_run (calls i).op (calls i).mask (calls i).out { w with cancel := (calls i).cancel }
  rw [e] at h0
  exact h0.exec (fun i j h => (hs i j h).1)
    (fun i j h => by rintro (h' | h'); exacts [(hs i j h).2.1 h', (hs i j h).2.2 h'])
    (fun q hq => (hI q hq).inv) he

/-- **C78** (each call): however the goroutines are scheduled, a call that has ended has ended the way it ends when it
is made alone — returned, panicked, or still looping — and has left in its output what it leaves when made alone, even
if others are still running. -/
theorem C78_each (hs : Separate calls) (hI : ∀ q, (∀ i, q ≠ (calls i).out) → Reach (w.heap q)) {k : Nat} {c : Conf T n}
    (he : Conf.Exec w.reg k (.start w.gas w.heap calls) c) (i : Fin n) (hd : (c.threads i).Done) :
    (c.threads i).EndsAs ((calls i).alone w) ∧
      c.heap (calls i).out = ((calls i).alone w).world.heap (calls i).out := by
  have ha := apart hs hI he
  have h := ha.same i
  obtain ⟨hst, hd⟩ := hd
  have hal : ((c.threads i).alone w (calls i).out c.heap).heap (calls i).out = c.heap (calls i).out := by
    simp only [Thread.alone, hst, Function.update_self]
  rw [← hal, ← h]
  rcases hd with hd | hd | hd <;> rw [hd] <;> exact ⟨hd, rfl⟩

/-- **C78** (everything else): at no moment does any object other than the outputs differ from what it was. -/
theorem C78_others (hs : Separate calls) (hI : ∀ q, (∀ i, q ≠ (calls i).out) → Reach (w.heap q)) {k : Nat}
    {c : Conf T n} (he : Conf.Exec w.reg k (.start w.gas w.heap calls) c) (q : Ref) (hq : ∀ i, q ≠ (calls i).out) :
    c.heap q = w.heap q := (apart hs hI he).quiet q hq

/-- **C78** (schedules end): the goroutines take the same number of steps under every schedule, and until they have
taken them one of them can go on. -/
theorem C78_ends (hs : Separate calls) (hI : ∀ q, (∀ i, q ≠ (calls i).out) → Reach (w.heap q)) :
    ∃ N, ∀ k c, Conf.Exec w.reg k (.start w.gas w.heap calls) c →
      k ≤ N ∧ (k = N ↔ ∀ i, (c.threads i).Done) ∧ (k < N → ∃ c', c.Step w.reg c') := by
  refine ⟨∑ i, ((calls i).op.steps w.gas (calls i).mask (calls i).out).cost { w with cancel := (calls i).cancel },
    fun k c he => ?_⟩
  have ha := apart hs hI he
  have hc := ha.count
  have hall : (∑ i, (c.threads i).left ((c.threads i).alone w (calls i).out c.heap)) = 0
      ↔ ∀ i, (c.threads i).Done := by
    rw [Finset.sum_eq_zero_iff]
    exact ⟨fun h i => Thread.left_zero.1 (h i (Finset.mem_univ i)), fun h i _ => Thread.left_zero.2 (h i)⟩
  refine ⟨by omega, ?_, ?_⟩
  · rw [← hall]; omega
  · intro hlt
    by_contra hn
    have := hall.2 (Conf.stuck_iff.1 hn)
    omega

/-- What the calls made one after the other are, seen as one of the schedules. -/
private theorem serial_exec (calls : Fin n → Call T) : ∀ (l : List (Fin n)), l.Nodup → ∀ (w w' : World T) (c : Conf T n),
    c.heap = w'.heap → w'.reg = w.reg → w'.gas = w.gas →
    (∀ i ∈ l, c.threads i = ⟨(calls i).op.steps w.gas (calls i).mask (calls i).out, none, (calls i).cancel⟩) →
    ∃ k c', Conf.Exec w.reg k c c' ∧ (∀ i ∈ l, (c'.threads i).Done) ∧ (∀ i, i ∉ l → c'.threads i = c.threads i) ∧
      c'.heap = (serially w' calls l).heap := by
  intro l
  induction l with
  | nil => exact fun _ w w' c hc _ _ _ => ⟨0, c, .nil c, by simp, fun _ _ => rfl, hc⟩
  | cons i l ih =>
    intro hnd w w' c hc hr hg ht
    obtain ⟨hil, hnd⟩ := List.nodup_cons.1 hnd
    obtain ⟨k, c1, he, hd, -, ho, hh⟩ := Conf.Exec.finish w' i _ c _ (ht i (by simp))
    have e : (((calls i).op.steps w.gas (calls i).mask (calls i).out).run
        { w' with heap := c.heap, cancel := (calls i).cancel }) = (calls i).alone w' := by
      rw [hc, ← hg]
      exact OpCall.steps_run (calls i).op (calls i).mask (calls i).out { w' with cancel := (calls i).cancel }
    rw [e] at hh
    obtain ⟨k', c2, he', hd', ho', hh'⟩ := ih hnd w { w' with heap := ((calls i).alone w').world.heap } c1 hh hr hg
      (fun j hj => by rw [ho j (fun h => hil (h ▸ hj))]; exact ht j (by simp [hj]))
    refine ⟨k + k', c2, (hr ▸ he).append he', ?_, ?_, hh'⟩
    · intro j hj
      rcases List.mem_cons.1 hj with rfl | hj
      · rw [ho' j hil]; exact hd
      · exact hd' j hj
    · intro j hj
      rw [List.mem_cons, not_or] at hj
      rw [ho' j hj.2, ho j hj.1]

/-- **C78** (serialisable): when all have ended, every object is what it is after the same calls made one after the
other, in whatever order. -/
theorem C78_serial (hs : Separate calls) (hI : ∀ q, (∀ i, q ≠ (calls i).out) → Reach (w.heap q)) {k : Nat} {c : Conf T n}
    (he : Conf.Exec w.reg k (.start w.gas w.heap calls) c) (hd : ∀ i, (c.threads i).Done) {l : List (Fin n)}
    (hl : l.Nodup) (hall : ∀ i, i ∈ l) : c.heap = (serially w calls l).heap := by
  obtain ⟨k', c', he', hd', -, hh⟩ := serial_exec calls l hl w w (.start w.gas w.heap calls) rfl rfl rfl
    (fun _ _ => rfl)
  rw [← hh]
  funext q
  by_cases hq : ∃ i, q = (calls i).out
  · obtain ⟨i, rfl⟩ := hq
    rw [(C78_each hs hI he i (hd i)).2, (C78_each hs hI he' i (hd' i (hall i))).2]
  · push Not at hq
    rw [C78_others hs hI he q hq, C78_others hs hI he' q hq]

end

/-! ## Calls that are not separate -/

/-- A row, a column to transpose it into. -/
def overlapHeap : World ℤ :=
  World.of 9 [.dense { r := 1, c := 2, data := [[1, 2]] }, .dense { r := 2, c := 1, data := [[0], [0]] }]

/-- `Transpose` of the row into the column, while `Negative` is applied to the row. -/
def overlapCalls : Fin 2 → Call ℤ
  | 0 => ⟨.transpose 0, .nil, 1, none⟩
  | 1 => ⟨.negative 0, .nil, 0, none⟩

/-- A schedule of the two. -/
def overlapEnd : Conf ℤ 2 :=
  ((List.replicate 16 0 ++ List.replicate 40 1 ++ List.replicate 40 0 : List (Fin 2))).foldl (Conf.next initReg)
    (.start 9 overlapHeap.heap overlapCalls)

/-- **C78** (overlapping calls): without separate outputs it is false. A goroutine transposing the row `[1, 2]` while
another negates it can end with the column `[1, -2]`, though one after the other they leave `[1, 2]` or `[-1, -2]`. -/
theorem C78_overlap : ∃ k c, Conf.Exec initReg k (.start 9 overlapHeap.heap overlapCalls) c ∧
    (∀ i, (c.threads i).Done) ∧ c.heap 1 = .dense { r := 2, c := 1, data := [[1], [-2]] } ∧
    (serially overlapHeap overlapCalls [0, 1]).heap 1 = .dense { r := 2, c := 1, data := [[1], [2]] } ∧
    (serially overlapHeap overlapCalls [1, 0]).heap 1 = .dense { r := 2, c := 1, data := [[-1], [-2]] } := by
  obtain ⟨k, hk⟩ := Conf.exec_next (reg := initReg) (List.replicate 16 0 ++ List.replicate 40 1 ++ List.replicate 40 0)
    (Conf.start 9 overlapHeap.heap overlapCalls)
  refine ⟨k, overlapEnd, hk, fun i => ?_, by kernel_rfl, by kernel_rfl, by kernel_rfl⟩
  match i with
  | 0 => exact ⟨by kernel_rfl, .inl (by kernel_rfl)⟩
  | 1 => exact ⟨by kernel_rfl, .inl (by kernel_rfl)⟩

/-! ## A case that meets the hypotheses -/

section examples

/-- A matrix in compressed rows that is an operand of three calls and the mask of one; three outputs. -/
private def shared : World ℤ :=
  World.of 9 [.csr { r := 2, c := 2, values := [5, 7], cols := [1, 0], rowStart := [0, 1, 2] },
    .dense { r := 2, c := 2, data := [[1, 2], [3, 4]] }, .csr (CSR.new 2 2), .csc (CSC.new 2 2)]

/-- `Add(s, a) → a`, `Transpose(s) → t`, `Subtract(s, s, mask s) → u`, with different contexts. -/
private def sharedCalls : Fin 3 → Call ℤ
  | 0 => ⟨.add 0 1, .nil, 1, none⟩
  | 1 => ⟨.transpose 0, .nil, 2, some 1⟩
  | 2 => ⟨.subtract 0 0, .ref 0, 3, none⟩

private theorem shared_separate : Separate sharedCalls := by
  intro i j h
  match i, j, h with
  | 0, 0, h | 1, 1, h | 2, 2, h => exact (h rfl).elim
  | 0, 1, _ | 0, 2, _ | 1, 0, _ | 1, 2, _ | 2, 0, _ | 2, 1, _ => decide

private theorem shared_reach (q : Ref) (hq : ∀ i, q ≠ (sharedCalls i).out) : Reach (shared.heap q) := by
  match q, hq with
  | 0, _ => exact Reach.arrCSR (data := [[0, 5], [7, 0]]) (c := 2) (by unfold Rect; simp) (by kernel_rfl)
  | 1, hq => exact (hq 0 rfl).elim
  | 2, hq => exact (hq 1 rfl).elim
  | 3, hq => exact (hq 2 rfl).elim
  | q + 4, _ => exact Reach.newDVec 0

/-- However the three are scheduled, `a` ends up as the sum. -/
example {k : Nat} {c : Conf ℤ 3} (he : Conf.Exec shared.reg k (.start shared.gas shared.heap sharedCalls) c)
    (hd : (c.threads 0).Done) : c.heap 1 = .dense { r := 2, c := 2, data := [[1, 7], [10, 4]] } := by
  rw [show (1 : Ref) = (sharedCalls 0).out from rfl, (C78_each shared_separate shared_reach he 0 hd).2]
  kernel_rfl

/-- The context of the second is cancelled while it runs: one entry is moved. -/
example {k : Nat} {c : Conf ℤ 3} (he : Conf.Exec shared.reg k (.start shared.gas shared.heap sharedCalls) c)
    (hd : (c.threads 1).Done) :
    c.heap 2 = .csr { r := 2, c := 2, values := [5], cols := [0], rowStart := [0, 0, 1] } := by
  rw [show (2 : Ref) = (sharedCalls 1).out from rfl, (C78_each shared_separate shared_reach he 1 hd).2]
  kernel_rfl

/-- The operand they share is as it was at every moment. -/
example {k : Nat} {c : Conf ℤ 3} (he : Conf.Exec shared.reg k (.start shared.gas shared.heap sharedCalls) c) :
    c.heap 0 = .csr { r := 2, c := 2, values := [5, 7], cols := [1, 0], rowStart := [0, 1, 2] } :=
  C78_others shared_separate shared_reach he 0 (by intro i; match i with | 0 | 1 | 2 => decide)

end examples

end GB
