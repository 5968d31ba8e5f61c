import Verif.Lemmas.Locks
import Verif.SpecLocks
import Mathlib.Tactic.Linarith
import Mathlib.Algebra.Order.BigOperators.Group.Finset

/-!
# Progress and termination of several locks
-/

namespace GB
namespace Locks

variable {n k : Nat}

/-! ## What a goroutine still does is part of its program -/

/-- `p`, run while holding the locks `held`, does only what `W` and `N` allow. -/
structure Within (W : Fin k → Prop) (N : Fin k → Fin k → Prop) (held : List (Fin k)) (p : Prog k) : Prop where
  calls : ∀ y, Calls y p → ∀ x ∈ held, N x y
  nests : ∀ x y, Nests x y p → N x y
  writes : ∀ y, CallsWrite y p → W y

theorem Within.call {W : Fin k → Prop} {N : Fin k → Fin k → Prop} {held w x} {i r : Prog k}
    (h : Within W N held (.call w x i r)) : Within W N (x :: held) i ∧ Within W N held r ∧
      (∀ y ∈ held, N y x) ∧ (w = true → W x) := by
  refine ⟨⟨fun y hy z hz => ?_, fun a b hab => h.nests a b (.inner hab), fun y hy => h.writes y (.inner hy)⟩,
    ⟨fun y hy z hz => h.calls y (.rest hy) z hz, fun a b hab => h.nests a b (.rest hab), fun y hy => h.writes y (.rest hy)⟩,
    fun y hy => h.calls x .here y hy, ?_⟩
  · rcases List.mem_cons.1 hz with rfl | hz
    · exact h.nests _ _ (.here hy)
    · exact h.calls y (.inner hy) z hz
  · rintro rfl; exact h.writes x .here

/-- The calls left after those a goroutine is inside of. -/
def Frames (W : Fin k → Prop) (N : Fin k → Fin k → Prop) : List (Bool × Fin k × Prog k) → Prop
  | [] => True
  | f :: st => Within W N (st.map (·.2.1)) f.2.2 ∧ (f.1 = true → W f.2.1) ∧ Frames W N st

/-- A goroutine does only what `W` and `N` allow. -/
def Allowed (W : Fin k → Prop) (N : Fin k → Fin k → Prop) (t : Thread k) : Prop :=
  (match t.pos with
    | .ready p => Within W N (t.stack.map (·.2.1)) p
    | .waiting x i r => Within W N (t.stack.map (·.2.1)) (.call true x i r)) ∧ Frames W N t.stack

theorem allowed_step {W : Fin k → Prop} {N : Fin k → Fin k → Prop} {c c' : Conf n k}
    (hc : ∀ i, Allowed W N (c.thr i)) (h : Step c c') : ∀ i, Allowed W N (c'.thr i) := by
  have key : ∀ (d : Conf n k) (i : Fin n) (t : Thread k), d.thr = c.thr → Allowed W N t → ∀ j, Allowed W N ((d.put i t).thr j) := by
    intro d i t hd ht j
    show Allowed W N (Function.update d.thr i t j)
    by_cases e : j = i
    · subst e; rw [Function.update_self]; exact ht
    · rw [Function.update_of_ne e, hd]; exact hc j
  cases h with
  | rlock i ht hp =>
    refine key _ _ _ rfl ?_
    have := hc i; rw [ht] at this
    obtain ⟨h1, h2⟩ := this
    obtain ⟨a, b, _, d⟩ := Within.call h1
    exact ⟨a, b, nofun, h2⟩
  | announce i ht hp =>
    refine key _ _ _ rfl ?_
    have := hc i; rw [ht] at this
    exact this
  | lock i ht hp =>
    refine key _ _ _ rfl ?_
    have := hc i; rw [ht] at this
    obtain ⟨h1, h2⟩ := this
    obtain ⟨a, b, _, d⟩ := Within.call h1
    exact ⟨a, b, d, h2⟩
  | runlock i ht =>
    refine key _ _ _ rfl ?_
    have := hc i; rw [ht] at this
    exact ⟨this.2.1, this.2.2.2⟩
  | unlock i ht =>
    refine key _ _ _ rfl ?_
    have := hc i; rw [ht] at this
    exact ⟨this.2.1, this.2.2.2⟩

/-- Everything a program does. -/
theorem allowed_steps {progs : Fin n → Prog k} {c : Conf n k} (h : Steps (Conf.init progs) c) (i : Fin n) :
    Allowed (fun x => ∃ i, CallsWrite x (progs i)) (fun x y => ∃ i, Nests x y (progs i)) (c.thr i) := by
  have key : ∀ c', Steps (Conf.init progs) c' → ∀ i,
      Allowed (fun x => ∃ i, CallsWrite x (progs i)) (fun x y => ∃ i, Nests x y (progs i)) (c'.thr i) := by
    intro c' h'
    generalize e : Conf.init progs = c0 at h'
    induction h' with
    | refl =>
      subst e
      intro i
      exact ⟨⟨fun _ _ x hx => by simp [Conf.init] at hx, fun x y h => ⟨i, h⟩, fun y h => ⟨i, h⟩⟩, trivial⟩
    | tail h1 h2 ih => exact allowed_step ih h2
  exact key c h i

theorem frames_write {W : Fin k → Prop} {N : Fin k → Fin k → Prop} {st : List (Bool × Fin k × Prog k)}
    (h : Frames W N st) {x : Fin k} {r : Prog k} (hx : (true, x, r) ∈ st) : W x := by
  induction st with
  | nil => cases hx
  | cons f st ih =>
    rcases List.mem_cons.1 hx with rfl | hx
    · exact h.2.1 rfl
    · exact ih h.2.2 hx

theorem writes_pos {x : Fin k} {t : Thread k} (h : 0 < writes x t) : ∃ r, (true, x, r) ∈ t.stack := by
  obtain ⟨⟨w, y, r⟩, hf⟩ := List.exists_mem_of_length_pos h
  simp only [List.mem_filter, decide_eq_true_eq] at hf
  obtain ⟨hf, rfl, rfl⟩ := hf
  exact ⟨r, hf⟩

theorem reads_pos {x : Fin k} {t : Thread k} (h : 0 < reads x t) : ∃ r, (false, x, r) ∈ t.stack := by
  obtain ⟨⟨w, y, r⟩, hf⟩ := List.exists_mem_of_length_pos h
  simp only [List.mem_filter, decide_eq_true_eq] at hf
  obtain ⟨hf, rfl, rfl⟩ := hf
  exact ⟨r, hf⟩

theorem pos_of_reading {c : Conf n k} {i : Fin n} {x : Fin k} (h : c.Reading i x) : 0 < reads x (c.thr i) := by
  obtain ⟨r, h⟩ := h
  exact List.length_pos_of_mem (List.mem_filter.2 ⟨h, by simp⟩)

theorem pos_of_writing {c : Conf n k} {i : Fin n} {x : Fin k} (h : c.Writing i x) : 0 < writes x (c.thr i) := by
  obtain ⟨r, h⟩ := h
  exact List.length_pos_of_mem (List.mem_filter.2 ⟨h, by simp⟩)

/-! ## Progress -/

/-- Some `Lock` of `x` is announced or held, or some reader holds it. -/
def Busy (c : Conf n k) (x : Fin k) : Prop := c.pending x = true ∨ 0 < c.readers x

/-- The next lock of a goroutine that cannot go on is busy. -/
theorem blocked {progs : Fin n → Prog k} {c : Conf n k} (h : Steps (Conf.init progs) c) (hn : ¬ ∃ c', Step c c')
    (i : Fin n) : (c.thr i).Done ∨ ∃ y, Busy c y ∧ (∃ j, CallsWrite y (progs j)) ∧
      ∀ x ∈ (c.thr i).stack.map (·.2.1), ∃ j, Nests x y (progs j) := by
  have hr := (Right.init progs).steps h
  have hW : ∀ x, c.pending x = true → ∃ j, CallsWrite x (progs j) := by
    intro x hx
    have := hr.pending x
    rw [if_pos hx] at this
    obtain ⟨j, -, hj⟩ := Finset.exists_ne_zero_of_sum_ne_zero (by rw [← this]; omega)
    have ha := allowed_steps h j
    rcases Nat.eq_zero_or_pos (writes x (c.thr j)) with h0 | h0
    · have hw : waits x (c.thr j) ≠ 0 := by omega
      unfold waits at hw
      obtain ⟨h1, -⟩ := ha
      cases hp : (c.thr j).pos with
      | ready p => rw [hp] at hw; simp at hw
      | waiting y a b =>
        rw [hp] at hw h1
        by_cases e : y = x
        · subst e; exact (Within.call h1).2.2.2 rfl
        · simp [e] at hw
    · obtain ⟨r, hm⟩ := writes_pos h0
      exact frames_write ha.2 hm
  have ha := allowed_steps h i
  obtain ⟨h1, h2⟩ := ha
  rcases ht : c.thr i with ⟨pos, st⟩
  rw [ht] at h1 h2
  cases pos with
  | ready p =>
    cases p with
    | nil =>
      cases st with
      | nil => exact Or.inl rfl
      | cons f st =>
        obtain ⟨w, x, r⟩ := f
        cases w
        · exact absurd ⟨_, Step.runlock i ht⟩ hn
        · exact absurd ⟨_, Step.unlock i ht⟩ hn
    | call w x a b =>
      have hp : c.pending x = true := by
        by_contra hp
        have hp : c.pending x = false := by simpa using hp
        cases w
        · exact hn ⟨_, Step.rlock i ht hp⟩
        · exact hn ⟨_, Step.announce i ht hp⟩
      exact Or.inr ⟨x, Or.inl hp, hW x hp, fun z hz => (Within.call h1).2.2.1 z hz⟩
  | waiting x a b =>
    have hp : 0 < c.readers x := by
      by_contra hp
      exact hn ⟨_, Step.lock i ht (by omega)⟩
    exact Or.inr ⟨x, Or.inr hp, (Within.call h1).2.2.2 rfl, fun z hz => (Within.call h1).2.2.1 z hz⟩

/-- When nothing can go on, a busy lock is held by a goroutine that waits for another busy lock. -/
theorem busy_next {progs : Fin n → Prog k} {c : Conf n k} (h : Steps (Conf.init progs) c) (hn : ¬ ∃ c', Step c c')
    {x : Fin k} (hx : Busy c x) : ∃ y, Busy c y ∧ (∃ j, CallsWrite y (progs j)) ∧ ∃ j, Nests x y (progs j) := by
  have hr := (Right.init progs).steps h
  have holder : ∀ i, x ∈ (c.thr i).stack.map (·.2.1) →
      ∃ y, Busy c y ∧ (∃ j, CallsWrite y (progs j)) ∧ ∃ j, Nests x y (progs j) := by
    intro i hi
    rcases blocked h hn i with hd | ⟨y, h1, h2, h3⟩
    · rw [hd] at hi; cases hi
    · exact ⟨y, h1, h2, h3 x hi⟩
  have reader : 0 < c.readers x → ∃ y, Busy c y ∧ (∃ j, CallsWrite y (progs j)) ∧ ∃ j, Nests x y (progs j) := by
    intro hx
    rw [hr.readers] at hx
    obtain ⟨j, -, hj⟩ := Finset.exists_ne_zero_of_sum_ne_zero (by omega : (∑ i, reads x (c.thr i)) ≠ 0)
    obtain ⟨r, hm⟩ := reads_pos (Nat.pos_of_ne_zero hj)
    exact holder j (List.mem_map_of_mem (f := (·.2.1)) hm)
  rcases hx with hx | hx
  · have := hr.pending x
    rw [if_pos hx] at this
    obtain ⟨j, -, hj⟩ := Finset.exists_ne_zero_of_sum_ne_zero (by rw [← this]; omega)
    rcases Nat.eq_zero_or_pos (writes x (c.thr j)) with h0 | h0
    · have hw : waits x (c.thr j) ≠ 0 := by omega
      unfold waits at hw
      rcases ht : c.thr j with ⟨pos, st⟩
      rw [ht] at hw
      cases pos with
      | ready p => simp at hw
      | waiting y a b =>
        by_cases e : y = x
        · subst e
          refine reader ?_
          by_contra hp
          exact hn ⟨_, Step.lock j ht (by omega)⟩
        · simp [e] at hw
    · obtain ⟨r, hm⟩ := writes_pos h0
      exact holder j (List.mem_map_of_mem (f := (·.2.1)) hm)
  · exact reader hx

theorem progress {progs : Fin n → Prog k} (ho : Ordered progs) {c : Conf n k} (h : Steps (Conf.init progs) c) :
    c.Finished ∨ ∃ c', Step c c' := by
  by_contra hcon
  push Not at hcon
  obtain ⟨hf, hn⟩ := hcon
  have hn : ¬ ∃ c', Step c c' := fun ⟨c', h⟩ => hn c' h
  unfold Conf.Finished at hf
  push Not at hf
  obtain ⟨i, hi⟩ := hf
  have hwf : WellFounded (fun y x => Relation.TransGen (Before progs) x y) := by
    have : IsTrans (Fin k) (fun y x => Relation.TransGen (Before progs) x y) := ⟨fun a b c h1 h2 => h2.trans h1⟩
    have : Std.Irrefl (fun y x : Fin k => Relation.TransGen (Before progs) x y) := ⟨fun a h => ho a h⟩
    exact Finite.wellFounded_of_trans_of_irrefl _
  have key : ∀ x, Busy c x → (∃ j, CallsWrite x (progs j)) → False := by
    intro x
    induction x using hwf.induction with
    | _ x ih =>
      intro hb hw
      obtain ⟨y, h1, h2, h3⟩ := busy_next h hn hb
      exact ih y (.single ⟨hw, h2, h3⟩) h1 h2
  rcases blocked h hn i with hd | ⟨y, h1, h2, -⟩
  · exact hi hd
  · exact key y h1 h2

/-! ## Termination -/

/-- The steps a program takes. -/
def Prog.work : Prog k → Nat
  | .nil => 0
  | .call w _ i r => (if w then 3 else 2) + i.work + r.work

/-- The steps a goroutine has left. -/
def Thread.work (t : Thread k) : Nat :=
  (match t.pos with
    | .ready p => p.work
    | .waiting _ i r => 2 + i.work + r.work) + (t.stack.map (fun f => 1 + f.2.2.work)).sum

/-- The steps all goroutines have left. -/
def Conf.work (c : Conf n k) : Nat := ∑ i, (c.thr i).work

theorem work_step {c c' : Conf n k} (h : Step c c') : c'.work + 1 = c.work := by
  unfold Conf.work
  cases h with
  | @rlock i x p r st ht hp =>
    have := sum_put { c with readers := Function.update c.readers x (c.readers x + 1) } i ⟨.ready p, (false, x, r) :: st⟩ Thread.work
    rw [show ({ c with readers := Function.update c.readers x (c.readers x + 1) } : Conf n k).thr i = _ from ht] at this
    simp [Thread.work, Prog.work] at this ⊢; omega
  | @announce i x p r st ht hp =>
    have := sum_put { c with pending := Function.update c.pending x true } i ⟨.waiting x p r, st⟩ Thread.work
    rw [show ({ c with pending := Function.update c.pending x true } : Conf n k).thr i = _ from ht] at this
    simp [Thread.work, Prog.work] at this ⊢; omega
  | @lock i x p r st ht hp =>
    have := sum_put c i ⟨.ready p, (true, x, r) :: st⟩ Thread.work
    rw [ht] at this
    simp [Thread.work] at this ⊢; omega
  | @runlock i x r st ht =>
    have := sum_put { c with readers := Function.update c.readers x (c.readers x - 1) } i ⟨.ready r, st⟩ Thread.work
    rw [show ({ c with readers := Function.update c.readers x (c.readers x - 1) } : Conf n k).thr i = _ from ht] at this
    simp [Thread.work, Prog.work] at this ⊢; omega
  | @unlock i x r st ht =>
    have := sum_put { c with pending := Function.update c.pending x false } i ⟨.ready r, st⟩ Thread.work
    rw [show ({ c with pending := Function.update c.pending x false } : Conf n k).thr i = _ from ht] at this
    simp [Thread.work, Prog.work] at this ⊢; omega

theorem work_le (p : Prog k) : p.work ≤ 3 * p.size := by
  induction p with
  | nil => simp [Prog.work]
  | call w x i r h1 h2 =>
    simp only [Prog.work, Prog.size]
    split <;> omega

/-! ## A goroutine that locks what it holds for writing -/

/-- In the calls left after those it is inside of, a goroutine locks `x` again before it leaves the method
that holds `x` for writing. -/
def Trapped (x : Fin k) (p : Prog k) : List (Bool × Fin k × Prog k) → Prop
  | [] => SelfLock x p
  | f :: st => SelfLock x p ∨ (f.1 = true ∧ f.2.1 = x ∧ Calls x p) ∨
      (Calls x p ∧ ∃ r, (true, x, r) ∈ st) ∨ Trapped x f.2.2 st

theorem trapped_iff (x : Fin k) (p : Prog k) (st : List (Bool × Fin k × Prog k)) :
    Trapped x p st ↔ SelfLock x p ∨ (Calls x p ∧ ∃ r, (true, x, r) ∈ st) ∨
      match st with
      | [] => False
      | f :: st => Trapped x f.2.2 st := by
  cases st with
  | nil => simp [Trapped]
  | cons f st =>
    obtain ⟨w, y, r⟩ := f
    simp only [Trapped, List.mem_cons, Prod.mk.injEq]
    constructor
    · rintro (h | ⟨rfl, rfl, h⟩ | ⟨h, r', h'⟩ | h)
      · exact Or.inl h
      · exact Or.inr (Or.inl ⟨h, r, Or.inl ⟨rfl, rfl, rfl⟩⟩)
      · exact Or.inr (Or.inl ⟨h, r', Or.inr h'⟩)
      · exact Or.inr (Or.inr h)
    · rintro (h | ⟨h, r', ⟨rfl, rfl, rfl⟩ | h'⟩ | h)
      · exact Or.inl h
      · exact Or.inr (Or.inl ⟨rfl, rfl, h⟩)
      · exact Or.inr (Or.inr (Or.inl ⟨h, r', h'⟩))
      · exact Or.inr (Or.inr (Or.inr h))

/-- The calls a goroutine is about to make. -/
def Pos.calls : Pos k → Prog k
  | .ready p => p
  | .waiting x i r => .call true x i r

theorem trapped_call {x y : Fin k} {w : Bool} {i r : Prog k} {st : List (Bool × Fin k × Prog k)}
    (hne : x = y → ¬ ∃ r, (true, x, r) ∈ st)
    (h : Trapped x (.call w y i r) st) : Trapped x i ((w, y, r) :: st) := by
  rw [trapped_iff] at h ⊢
  show SelfLock x i ∨ _ ∨ Trapped x r st
  rw [trapped_iff x r st]
  rcases h with h | ⟨h, h'⟩ | h
  · cases h with
    | here h => exact Or.inr (Or.inl ⟨h, r, List.mem_cons_self⟩)
    | inner h => exact Or.inl h
    | rest h => exact Or.inr (Or.inr (Or.inl h))
  · cases h with
    | here => exact absurd h' (hne rfl)
    | inner h =>
      obtain ⟨r', h'⟩ := h'
      exact Or.inr (Or.inl ⟨h, r', List.mem_cons_of_mem _ h'⟩)
    | rest h => exact Or.inr (Or.inr (Or.inr (Or.inl ⟨h, h'⟩)))
  · exact Or.inr (Or.inr (Or.inr (Or.inr h)))

theorem trapped_nil {x : Fin k} {f : Bool × Fin k × Prog k} {st : List (Bool × Fin k × Prog k)}
    (h : Trapped x .nil (f :: st)) : Trapped x f.2.2 st := by
  rw [trapped_iff] at h
  rcases h with h | ⟨h, -⟩ | h
  · cases h
  · cases h
  · exact h

theorem trapped_step {x : Fin k} {c c' : Conf n k} (hr : Right c) {i : Fin n}
    (hc : Trapped x (c.thr i).pos.calls (c.thr i).stack) (h : Step c c') :
    Trapped x (c'.thr i).pos.calls (c'.thr i).stack := by
  have key : ∀ (d : Conf n k) (j : Fin n) (t : Thread k), d.thr = c.thr →
      (j = i → Trapped x t.pos.calls t.stack) → Trapped x ((d.put j t).thr i).pos.calls ((d.put j t).thr i).stack := by
    intro d j t hd ht
    show Trapped x (Function.update d.thr j t i).pos.calls (Function.update d.thr j t i).stack
    by_cases e : i = j
    · subst e; rw [Function.update_self]; exact ht rfl
    · rw [Function.update_of_ne e, hd]; exact hc
  have pend : ∀ j y, (∃ r, (true, y, r) ∈ (c.thr j).stack) → c.pending y = true := by
    intro j y hw
    have h1 := pos_of_writing (c := c) (i := j) hw
    have h2 := Finset.single_le_sum (f := fun j => writes y (c.thr j) + waits y (c.thr j)) (fun _ _ => Nat.zero_le _)
      (Finset.mem_univ j)
    rw [← hr.pending] at h2
    by_contra hp
    rw [if_neg hp] at h2
    omega
  cases h with
  | rlock j ht hp =>
    refine key _ _ _ rfl ?_
    rintro rfl
    rw [ht] at hc
    refine trapped_call (fun e hw => ?_) hc
    subst e
    rw [pend j _ (by rw [ht]; exact hw)] at hp
    cases hp
  | announce j ht hp =>
    refine key _ _ _ rfl ?_
    rintro rfl
    rw [ht] at hc
    exact hc
  | @lock j y p r st ht hp =>
    refine key _ _ _ rfl ?_
    rintro rfl
    rw [ht] at hc
    refine trapped_call (fun e hw => ?_) hc
    subst e
    have h1 := pos_of_writing (c := c) (i := j) (x := x) (by unfold Conf.Writing; rw [ht]; exact hw)
    have h2 := Finset.single_le_sum (f := fun j => writes x (c.thr j) + waits x (c.thr j)) (fun _ _ => Nat.zero_le _)
      (Finset.mem_univ j)
    have h3 : waits x (c.thr j) = 1 := by rw [ht]; simp [waits]
    rw [← hr.pending] at h2
    have : (if c.pending x = true then 1 else 0) ≤ 1 := by split <;> omega
    omega
  | runlock j ht =>
    refine key _ _ _ rfl ?_
    rintro rfl
    rw [ht] at hc
    exact trapped_nil hc
  | unlock j ht =>
    refine key _ _ _ rfl ?_
    rintro rfl
    rw [ht] at hc
    exact trapped_nil hc

theorem Steps.trans {a b c : Conf n k} (h1 : Steps a b) (h2 : Steps b c) : Steps a c := by
  induction h2 with
  | refl => exact h1
  | tail _ hs ih => exact ih.tail hs

end Locks
end GB

namespace GB
namespace Locks

variable {n k : Nat}

/-! ## Running a schedule -/

/-- The step of goroutine `i`, if it can go on. -/
def step1 (c : Conf n k) (i : Fin n) : Option (Conf n k) :=
  match c.thr i with
  | ⟨.ready (.call false x p r), st⟩ =>
    if c.pending x then none
    else some ({ c with readers := Function.update c.readers x (c.readers x + 1) }.put i ⟨.ready p, (false, x, r) :: st⟩)
  | ⟨.ready (.call true x p r), st⟩ =>
    if c.pending x then none
    else some ({ c with pending := Function.update c.pending x true }.put i ⟨.waiting x p r, st⟩)
  | ⟨.waiting x p r, st⟩ =>
    if c.readers x = 0 then some (c.put i ⟨.ready p, (true, x, r) :: st⟩) else none
  | ⟨.ready .nil, (false, x, r) :: st⟩ =>
    some ({ c with readers := Function.update c.readers x (c.readers x - 1) }.put i ⟨.ready r, st⟩)
  | ⟨.ready .nil, (true, x, r) :: st⟩ =>
    some ({ c with pending := Function.update c.pending x false }.put i ⟨.ready r, st⟩)
  | ⟨.ready .nil, []⟩ => none

theorem step1_sound {c c' : Conf n k} {i : Fin n} (h : step1 c i = some c') : Step c c' := by
  unfold step1 at h
  split at h
  · rename_i x p r st ht
    split at h
    · cases h
    · rename_i hp
      cases h
      exact .rlock i ht (by simpa using hp)
  · rename_i x p r st ht
    split at h
    · cases h
    · rename_i hp
      cases h
      exact .announce i ht (by simpa using hp)
  · rename_i x p r st ht
    split at h
    · rename_i hp
      cases h
      exact .lock i ht hp
    · cases h
  · rename_i x r st ht
    cases h
    exact .runlock i ht
  · rename_i x r st ht
    cases h
    exact .unlock i ht
  · cases h

theorem step1_complete {c c' : Conf n k} (h : Step c c') : ∃ i, step1 c i = some c' := by
  cases h with
  | rlock i ht hp => exact ⟨i, by simp [step1, ht, hp]⟩
  | announce i ht hp => exact ⟨i, by simp [step1, ht, hp]⟩
  | lock i ht hp => exact ⟨i, by simp [step1, ht, hp]⟩
  | runlock i ht => exact ⟨i, by simp [step1, ht]⟩
  | unlock i ht => exact ⟨i, by simp [step1, ht]⟩

/-- A schedule: who makes the next step. -/
def exec : List (Fin n) → Conf n k → Option (Conf n k)
  | [], c => some c
  | i :: l, c => (step1 c i).bind (exec l)

theorem exec_steps {l : List (Fin n)} {c0 c c' : Conf n k} (h0 : Steps c0 c) (h : exec l c = some c') : Steps c0 c' := by
  induction l generalizing c with
  | nil => cases h; exact h0
  | cons i l ih =>
    unfold exec at h
    cases h1 : step1 c i with
    | none => rw [h1] at h; cases h
    | some d => rw [h1] at h; exact ih (h0.tail (step1_sound h1)) h

theorem stuck {c : Conf n k} (h : ∀ i, step1 c i = none) : ¬ ∃ c', Step c c' := by
  rintro ⟨c', hs⟩
  obtain ⟨i, hi⟩ := step1_complete hs
  rw [h i] at hi
  cases hi

end Locks
end GB
