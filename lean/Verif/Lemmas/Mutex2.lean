import Verif.Lemmas.Mutex
import Mathlib.Data.DFinsupp.WellFounded

/-!
# Concurrent calls are serial in the order of acquisition
-/

namespace GB
namespace Mutex

set_option linter.unusedSectionVars false
set_option linter.unusedSimpArgs false

variable {n : Nat} {μ S R : Type} {mode : μ → Mode} {body : μ → Prog S R}

theorem serial_append (f0 : μ → S → R × S) (s : S) (l : List (Fin n × μ)) (i : Fin n) (m : μ) :
    serial f0 s (l ++ [(i, m)]) = ((f0 m (serial f0 s l).1).2,
      (serial f0 s l).2 ++ [(i, m, (f0 m (serial f0 s l).1).1)]) := by
  induction l generalizing s with
  | nil => rfl
  | cons x l ih =>
    obtain ⟨j, m'⟩ := x
    simp only [List.cons_append, serial, ih]

theorem ofThread_append (i j : Fin n) (l : List (Fin n × μ × R)) (x : μ × R) :
    ofThread i (l ++ [(j, x)]) = ofThread i l ++ (if j = i then [x] else []) := by
  unfold ofThread
  rw [List.filter_append, List.map_append]
  by_cases h : j = i
  · simp [h]
  · simp [h]

/-- What a goroutine inside a locked call is going to return. -/
def ahead (mode : μ → Mode) (s : S) : Phase μ S R → List (μ × R)
  | .inside m p => if mode m = .free then [] else [(m, (p.run s).1)]
  | _ => []

/-- The call a goroutine waits to make. -/
def asked : Phase μ S R → List μ
  | .waiting m => [m]
  | _ => []

theorem ahead_inside (s : S) (m : μ) (p : Prog S R) :
    ahead mode s (.inside m p) = if mode m = .free then [] else [(m, (p.run s).1)] := rfl
theorem ahead_waiting (s : S) (m : μ) : ahead mode s (.waiting m : Phase μ S R) = [] := rfl
theorem ahead_idle (s : S) : ahead mode s (.idle : Phase μ S R) = [] := rfl
theorem asked_inside (m : μ) (p : Prog S R) : asked (.inside m p) = [] := rfl
theorem asked_waiting (m : μ) : asked (.waiting m : Phase μ S R) = [m] := rfl
theorem asked_idle : asked (.idle : Phase μ S R) = [] := rfl

/-- The calls that take the lock. -/
def locked (mode : μ → Mode) (l : List μ) : List μ := l.filter (fun m => mode m ≠ .free)

/-- The results of the calls that take the lock. -/
def lockedRes (mode : μ → Mode) (l : List (μ × R)) : List (μ × R) := l.filter (fun x => mode x.1 ≠ .free)

/-- What is assumed of the calls in `A`: in the states `I` they do what `f0` says, … -/
structure Calls (mode : μ → Mode) (body : μ → Prog S R) (f0 : μ → S → R × S) (A : μ → Prop) (I : S → Prop) :
    Prop where
  run : ∀ m, A m → ∀ s, I s → (body m).run s = f0 m s
  keep : ∀ m, A m → mode m = .write → ∀ s, I s → I (f0 m s).2
  quiet : ∀ m, A m → mode m = .read → ∀ s, I s → (body m).Quiet s
  silent : ∀ m, A m → mode m = .free → (body m).Silent

theorem Prog.Quiet.run {p : Prog S R} {s : S} (h : p.Quiet s) : (p.run s).2 = s := by
  induction p generalizing s with
  | done r => rfl
  | act f k ih =>
    obtain ⟨h1, h2⟩ := h
    show ((k s).run (f s)).2 = s
    rw [h1]
    exact ih s h2

/-- The invariant: the acquired calls, made one after the other, explain everything. -/
structure Serial (mode : μ → Mode) (f0 : μ → S → R × S) (A : μ → Prop) (I : S → Prop) (s0 : S)
    (calls : Fin n → List μ) (c : Conf n μ S R) : Prop where
  lock : Locked mode c
  good : ∀ i, (∀ m ∈ (c.thr i).todo, A m) ∧ ∀ m, (c.thr i).phase = .waiting m → A m
  inv : I (serial f0 s0 c.order).1
  still : (∀ i m p, (c.thr i).phase = .inside m p → mode m ≠ .write) → c.mat = (serial f0 s0 c.order).1
  moving : ∀ i m p, (c.thr i).phase = .inside m p → mode m = .write → (p.run c.mat).2 = (serial f0 s0 c.order).1
  reading : ∀ i m p, (c.thr i).phase = .inside m p → mode m = .read → p.Quiet c.mat
  silent : ∀ i m p, (c.thr i).phase = .inside m p → mode m = .free → p.Silent
  results : ∀ i, lockedRes mode (c.thr i).res ++ ahead mode c.mat (c.thr i).phase =
    ofThread i (serial f0 s0 c.order).2
  program : ∀ i, ((c.order.filter (fun x => x.1 = i)).map (fun x => x.2)) ++ asked (c.thr i).phase ++
    locked mode (c.thr i).todo = locked mode (calls i)

variable {f0 : μ → S → R × S} {A : μ → Prop} {I : S → Prop} {s0 : S} {calls : Fin n → List μ}

theorem Serial.init (h : I s0) (hA : ∀ i, ∀ m ∈ calls i, A m) : Serial mode f0 A I s0 calls (Conf.init s0 calls) where
  lock := Locked.init _ _
  good := fun i => ⟨hA i, fun m h => by simp [Conf.init] at h⟩
  inv := h
  still := fun _ => rfl
  moving := fun i m p h => by simp [Conf.init] at h
  reading := fun i m p h => by simp [Conf.init] at h
  silent := fun i m p h => by simp [Conf.init] at h
  results := fun i => by simp [Conf.init, lockedRes, ahead, ofThread, serial]
  program := fun i => by simp [Conf.init, asked]

/-- Nobody holds the lock for writing. -/
theorem Locked.no_writer {c : Conf n μ S R} (h : Locked mode c) (hp : c.pending = false) :
    ∀ i m p, (c.thr i).phase = .inside m p → mode m ≠ .write := by
  intro i m p hi hm
  have := sum_pos (f := wr mode) (t := c.thr) i
  rw [← h.writers, hp, hi, wr_inside, hm] at this
  simp at this

theorem Locked.no_writer' {c : Conf n μ S R} (h : Locked mode c) {j : Fin n} {m' : μ}
    (hj : (c.thr j).phase = .waiting m') :
    ∀ i m p, (c.thr i).phase = .inside m p → mode m ≠ .write := by
  intro i m p hi hm
  have hne : i ≠ j := by rintro rfl; rw [hi] at hj; cases hj
  have := sum_two (f := wr mode) (t := c.thr) hne
  rw [← h.writers, hi, hj, wr_inside, wr_waiting, hm] at this
  simp only [if_true] at this
  split at this <;> omega

theorem Locked.no_reader {c : Conf n μ S R} (h : Locked mode c) (hr : c.readers = 0) :
    ∀ i m p, (c.thr i).phase = .inside m p → mode m ≠ .read := by
  intro i m p hi hm
  have := sum_pos (f := rd mode) (t := c.thr) i
  rw [← h.readers, hr, hi, rd_inside, hm] at this
  simp at this

theorem Serial.step (hC : Calls mode body f0 A I) {c c' : Conf n μ S R} (h : Serial mode f0 A I s0 calls c)
    (hs : Step mode body c c') : Serial mode f0 A I s0 calls c' := by
  have hlock := h.lock.step hs
  cases hs with
  | @announce i m rest res e hm hp =>
    have hgood : ∀ j, (∀ x ∈ (Function.update c.thr i ⟨rest, .waiting m, res⟩ j).todo, A x) ∧
        ∀ x, (Function.update c.thr i ⟨rest, .waiting m, res⟩ j).phase = .waiting x → A x := by
      intro j
      have := h.good j
      by_cases e' : j = i
      · subst e'; rw [Function.update_self]; rw [e] at this
        exact ⟨fun x hx => this.1 x (List.mem_cons_of_mem _ hx), fun x hx => by cases hx; exact this.1 _ List.mem_cons_self⟩
      · rw [Function.update_of_ne e']; exact this
    refine ⟨hlock, hgood, h.inv, fun hn => h.still (h.lock.no_writer hp), ?_, ?_, ?_, ?_, ?_⟩ <;>
      dsimp only [Conf.put]
    · intro j m' p hj hm'
      by_cases e' : j = i
      · subst e'; rw [Function.update_self] at hj; cases hj
      · rw [Function.update_of_ne e'] at hj; exact h.moving j m' p hj hm'
    · intro j m' p hj hm'
      by_cases e' : j = i
      · subst e'; rw [Function.update_self] at hj; cases hj
      · rw [Function.update_of_ne e'] at hj; exact h.reading j m' p hj hm'
    · intro j m' p hj hm'
      by_cases e' : j = i
      · subst e'; rw [Function.update_self] at hj; cases hj
      · rw [Function.update_of_ne e'] at hj; exact h.silent j m' p hj hm'
    · intro j
      have := h.results j
      by_cases e' : j = i
      · subst e'; rw [Function.update_self]; rw [e] at this; exact this
      · rw [Function.update_of_ne e']; exact this
    · intro j
      have := h.program j
      by_cases e' : j = i
      · subst e'; rw [Function.update_self]; rw [e] at this
        simp only [asked_idle, asked_waiting] at this ⊢
        rw [← this]
        simp [locked, hm]
      · rw [Function.update_of_ne e']; exact this
  | @lock i m rest res e hr =>
    have hgood : ∀ j, (∀ x ∈ (Function.update c.thr i ⟨rest, .inside m (body m), res⟩ j).todo, A x) ∧
        ∀ x, (Function.update c.thr i ⟨rest, .inside m (body m), res⟩ j).phase = .waiting x → A x := by
      intro j
      have := h.good j
      by_cases e' : j = i
      · subst e'; rw [Function.update_self]; rw [e] at this
        exact ⟨this.1, fun x hx => by cases hx⟩
      · rw [Function.update_of_ne e']; exact this
    have hm := h.lock.waits i m (by rw [e])
    have hA := (h.good i).2 m (by rw [e])
    have hrun := hC.run m hA _ h.inv
    have hnw := h.lock.no_writer' (j := i) (m' := m) (by rw [e])
    have hnr := h.lock.no_reader hr
    have hmat := h.still hnw
    refine ⟨hlock, hgood, ?_, fun hn => ?_, ?_, ?_, ?_, ?_, ?_⟩ <;> dsimp only [Conf.put] at *
    · rw [serial_append]; exact hC.keep m hA hm _ h.inv
    · exact absurd hm (hn i m (body m) (by rw [Function.update_self]))
    · intro j m' p hj hm'
      rw [serial_append, ← hrun, ← hmat]
      by_cases e' : j = i
      · subst e'; rw [Function.update_self] at hj; cases hj; rfl
      · rw [Function.update_of_ne e'] at hj; exact absurd hm' (hnw j m' p hj)
    · intro j m' p hj hm'
      by_cases e' : j = i
      · subst e'; rw [Function.update_self] at hj; cases hj; rw [hm] at hm'; cases hm'
      · rw [Function.update_of_ne e'] at hj; exact absurd hm' (hnr j m' p hj)
    · intro j m' p hj hm'
      by_cases e' : j = i
      · subst e'; rw [Function.update_self] at hj; cases hj; rw [hm] at hm'; cases hm'
      · rw [Function.update_of_ne e'] at hj; exact h.silent j m' p hj hm'
    · intro j
      have := h.results j
      rw [serial_append, ofThread_append, ← this, ← hrun]
      by_cases e' : j = i
      · subst e'
        rw [Function.update_self, e, if_pos rfl, ahead_inside, if_neg (by rw [hm]; simp), ahead_waiting, ← hmat,
          List.append_nil]
      · rw [Function.update_of_ne e', if_neg (fun h => e' h.symm), List.append_nil]
    · intro j
      have := h.program j
      rw [List.filter_append, List.map_append]
      by_cases e' : j = i
      · subst e'; rw [Function.update_self]; rw [e] at this
        rw [← this]
        simp [asked]
      · rw [Function.update_of_ne e', ← this]
        simp [Ne.symm e']
  | @rlock i m rest res e hm hp =>
    have hgood : ∀ j, (∀ x ∈ (Function.update c.thr i ⟨rest, .inside m (body m), res⟩ j).todo, A x) ∧
        ∀ x, (Function.update c.thr i ⟨rest, .inside m (body m), res⟩ j).phase = .waiting x → A x := by
      intro j
      have := h.good j
      by_cases e' : j = i
      · subst e'; rw [Function.update_self]; rw [e] at this
        exact ⟨fun x hx => this.1 x (List.mem_cons_of_mem _ hx), fun x hx => by cases hx⟩
      · rw [Function.update_of_ne e']; exact this
    have hnw := h.lock.no_writer hp
    have hmat := h.still hnw
    have hA := (h.good i).1 m (by rw [e]; exact List.mem_cons_self)
    have hrun := hC.run m hA _ h.inv
    have hq := hC.quiet m hA hm _ h.inv
    have hF : (f0 m (serial f0 s0 c.order).1).2 = (serial f0 s0 c.order).1 := by rw [← hrun]; exact hq.run
    refine ⟨hlock, hgood, ?_, fun hn => ?_, ?_, ?_, ?_, ?_, ?_⟩ <;> dsimp only [Conf.put] at *
    · rw [serial_append, hF]; exact h.inv
    · rw [serial_append, hF]; exact hmat
    · intro j m' p hj hm'
      by_cases e' : j = i
      · subst e'; rw [Function.update_self] at hj; cases hj; rw [hm] at hm'; cases hm'
      · rw [Function.update_of_ne e'] at hj; exact absurd hm' (hnw j m' p hj)
    · intro j m' p hj hm'
      by_cases e' : j = i
      · subst e'; rw [Function.update_self] at hj; cases hj; rw [hmat]; exact hq
      · rw [Function.update_of_ne e'] at hj; exact h.reading j m' p hj hm'
    · intro j m' p hj hm'
      by_cases e' : j = i
      · subst e'; rw [Function.update_self] at hj; cases hj; rw [hm] at hm'; cases hm'
      · rw [Function.update_of_ne e'] at hj; exact h.silent j m' p hj hm'
    · intro j
      have := h.results j
      rw [serial_append, ofThread_append, ← this, ← hrun]
      by_cases e' : j = i
      · subst e'
        rw [Function.update_self, e, if_pos rfl, ahead_inside, if_neg (by rw [hm]; simp), ahead_idle, ← hmat,
          List.append_nil]
      · rw [Function.update_of_ne e', if_neg (fun h => e' h.symm), List.append_nil]
    · intro j
      have := h.program j
      rw [List.filter_append, List.map_append]
      by_cases e' : j = i
      · subst e'; rw [Function.update_self]; rw [e] at this
        rw [← this]
        simp [asked, locked, hm]
      · rw [Function.update_of_ne e', ← this]
        simp [Ne.symm e']
  | @enter i m rest res e hm =>
    have hgood : ∀ j, (∀ x ∈ (Function.update c.thr i ⟨rest, .inside m (body m), res⟩ j).todo, A x) ∧
        ∀ x, (Function.update c.thr i ⟨rest, .inside m (body m), res⟩ j).phase = .waiting x → A x := by
      intro j
      have := h.good j
      by_cases e' : j = i
      · subst e'; rw [Function.update_self]; rw [e] at this
        exact ⟨fun x hx => this.1 x (List.mem_cons_of_mem _ hx), fun x hx => by cases hx⟩
      · rw [Function.update_of_ne e']; exact this
    refine ⟨hlock, hgood, h.inv, fun hn => h.still ?_, ?_, ?_, ?_, ?_, ?_⟩ <;> dsimp only [Conf.put] at *
    · intro j m' p hj
      by_cases e' : j = i
      · subst e'; rw [e] at hj; cases hj
      · exact hn j m' p (by rw [Function.update_of_ne e']; exact hj)
    · intro j m' p hj hm'
      by_cases e' : j = i
      · subst e'; rw [Function.update_self] at hj; cases hj; rw [hm] at hm'; cases hm'
      · rw [Function.update_of_ne e'] at hj; exact h.moving j m' p hj hm'
    · intro j m' p hj hm'
      by_cases e' : j = i
      · subst e'; rw [Function.update_self] at hj; cases hj; rw [hm] at hm'; cases hm'
      · rw [Function.update_of_ne e'] at hj; exact h.reading j m' p hj hm'
    · intro j m' p hj hm'
      by_cases e' : j = i
      · subst e'; rw [Function.update_self] at hj; cases hj; exact hC.silent m ((h.good j).1 m (by rw [e]; exact List.mem_cons_self)) hm
      · rw [Function.update_of_ne e'] at hj; exact h.silent j m' p hj hm'
    · intro j
      have := h.results j
      by_cases e' : j = i
      · subst e'; rw [Function.update_self]; rw [e] at this
        rw [← this]
        simp [ahead, hm]
      · rw [Function.update_of_ne e']; exact this
    · intro j
      have := h.program j
      by_cases e' : j = i
      · subst e'; rw [Function.update_self]; rw [e] at this
        rw [← this]
        simp [asked, locked, hm]
      · rw [Function.update_of_ne e']; exact this
  | @act i m rest res f k e =>
    have hgood : ∀ j, (∀ x ∈ (Function.update c.thr i ⟨rest, .inside m (k c.mat), res⟩ j).todo, A x) ∧
        ∀ x, (Function.update c.thr i ⟨rest, .inside m (k c.mat), res⟩ j).phase = .waiting x → A x := by
      intro j
      have := h.good j
      by_cases e' : j = i
      · subst e'; rw [Function.update_self]; rw [e] at this
        exact ⟨this.1, fun x hx => by cases hx⟩
      · rw [Function.update_of_ne e']; exact this
    have hphase : (c.thr i).phase = .inside m (.act f k) := by rw [e]
    -- either `i` writes, and nobody else reads or writes, or the state stays
    by_cases hm : mode m = .write
    · have hother : ∀ j m' p, j ≠ i → (c.thr j).phase = .inside m' p → mode m' = .free :=
        fun j m' p hne hj => h.lock.alone ⟨_, hphase⟩ hm ⟨p, hj⟩ hne
      refine ⟨hlock, hgood, h.inv, fun hn => ?_, ?_, ?_, ?_, ?_, ?_⟩ <;> dsimp only [Conf.put] at *
      · exact absurd hm (hn i m (k c.mat) (by rw [Function.update_self]))
      · intro j m' p hj hm'
        by_cases e' : j = i
        · subst e'; rw [Function.update_self] at hj; cases hj
          exact h.moving j m _ hphase hm
        · rw [Function.update_of_ne e'] at hj
          rw [hother j m' p e' hj] at hm'; cases hm'
      · intro j m' p hj hm'
        by_cases e' : j = i
        · subst e'; rw [Function.update_self] at hj; cases hj; rw [hm] at hm'; cases hm'
        · rw [Function.update_of_ne e'] at hj
          rw [hother j m' p e' hj] at hm'; cases hm'
      · intro j m' p hj hm'
        by_cases e' : j = i
        · subst e'; rw [Function.update_self] at hj; cases hj; rw [hm] at hm'; cases hm'
        · rw [Function.update_of_ne e'] at hj; exact h.silent j m' p hj hm'
      · intro j
        have := h.results j
        by_cases e' : j = i
        · subst e'; rw [Function.update_self]; rw [e] at this; exact this
        · rw [Function.update_of_ne e', ← this]
          cases hph : (c.thr j).phase with
          | inside m' p => rw [ahead_inside, ahead_inside, if_pos (hother j m' p e' hph), if_pos (hother j m' p e' hph)]
          | _ => rfl
      · intro j
        have := h.program j
        by_cases e' : j = i
        · subst e'; rw [Function.update_self]; rw [e] at this; exact this
        · rw [Function.update_of_ne e']; exact this
    · have hq : f c.mat = c.mat ∧ (mode m = .read → (k c.mat).Quiet c.mat) ∧ (mode m = .free → (k c.mat).Silent) := by
        cases hm' : mode m with
        | write => exact absurd hm' hm
        | read =>
          obtain ⟨q1, q2⟩ := h.reading i m _ hphase hm'
          exact ⟨q1, fun _ => q2, fun h => by cases h⟩
        | free =>
          have q := h.silent i m _ hphase hm'
          refine ⟨?_, fun h => (by cases h), fun _ => ?_⟩
          · exact q.1 _
          · exact q.2 _
      obtain ⟨hf, hq1, hq2⟩ := hq
      rw [hf] at hlock ⊢
      refine ⟨hlock, hgood, h.inv, fun hn => h.still ?_, ?_, ?_, ?_, ?_, ?_⟩ <;> dsimp only [Conf.put] at *
      · intro j m' p hj
        by_cases e' : j = i
        · subst e'; rw [e] at hj; cases hj; exact hm
        · exact hn j m' p (by rw [Function.update_of_ne e']; exact hj)
      · intro j m' p hj hm'
        by_cases e' : j = i
        · subst e'; rw [Function.update_self] at hj; cases hj; exact absurd hm' hm
        · rw [Function.update_of_ne e'] at hj; exact h.moving j m' p hj hm'
      · intro j m' p hj hm'
        by_cases e' : j = i
        · subst e'; rw [Function.update_self] at hj; cases hj; exact hq1 hm'
        · rw [Function.update_of_ne e'] at hj; exact h.reading j m' p hj hm'
      · intro j m' p hj hm'
        by_cases e' : j = i
        · subst e'; rw [Function.update_self] at hj; cases hj; exact hq2 hm'
        · rw [Function.update_of_ne e'] at hj; exact h.silent j m' p hj hm'
      · intro j
        have := h.results j
        by_cases e' : j = i
        · subst e'; rw [Function.update_self]; rw [e] at this
          rw [← this, ahead_inside, ahead_inside]
          show _ = lockedRes mode res ++ if mode m = .free then [] else [(m, ((k c.mat).run (f c.mat)).1)]
          rw [hf]
        · rw [Function.update_of_ne e']; exact this
      · intro j
        have := h.program j
        by_cases e' : j = i
        · subst e'; rw [Function.update_self]; rw [e] at this; exact this
        · rw [Function.update_of_ne e']; exact this
  | @leave i m rest res r e =>
    have hgood : ∀ j, (∀ x ∈ (Function.update c.thr i ⟨rest, .idle, res ++ [(m, r)]⟩ j).todo, A x) ∧
        ∀ x, (Function.update c.thr i ⟨rest, .idle, res ++ [(m, r)]⟩ j).phase = .waiting x → A x := by
      intro j
      have := h.good j
      by_cases e' : j = i
      · subst e'; rw [Function.update_self]; rw [e] at this
        exact ⟨this.1, fun x hx => by cases hx⟩
      · rw [Function.update_of_ne e']; exact this
    have hphase : (c.thr i).phase = .inside m (.done r) := by rw [e]
    have r1 : (c.release (mode m)).mat = c.mat := by cases mode m <;> rfl
    have r2 : (c.release (mode m)).order = c.order := by cases mode m <;> rfl
    have r3 : (c.release (mode m)).thr = c.thr := by cases mode m <;> rfl
    have hstill : (∀ j m' p, j ≠ i → (c.thr j).phase = .inside m' p → mode m' ≠ .write) →
        c.mat = (serial f0 s0 c.order).1 := by
      intro hn
      by_cases hm : mode m = .write
      · exact h.moving i m _ hphase hm
      · refine h.still (fun j m' p hj => ?_)
        by_cases e' : j = i
        · subst e'; rw [e] at hj; cases hj; exact hm
        · exact hn j m' p e' hj
    refine ⟨hlock, by rw [← r3] at hgood; exact hgood, ?_, fun hn => ?_, ?_, ?_, ?_, ?_, ?_⟩ <;> dsimp only [Conf.put] at * <;> (try rw [r2]) <;>
      (try rw [r3] at hn) <;> (try rw [r3]) <;> (try rw [r1])
    · exact h.inv
    · refine hstill (fun j m' p e' hj => hn j m' p ?_)
      rw [Function.update_of_ne e']; exact hj
    · intro j m' p hj hm'
      by_cases e' : j = i
      · subst e'; rw [Function.update_self] at hj; cases hj
      · rw [Function.update_of_ne e'] at hj; exact h.moving j m' p hj hm'
    · intro j m' p hj hm'
      by_cases e' : j = i
      · subst e'; rw [Function.update_self] at hj; cases hj
      · rw [Function.update_of_ne e'] at hj; exact h.reading j m' p hj hm'
    · intro j m' p hj hm'
      by_cases e' : j = i
      · subst e'; rw [Function.update_self] at hj; cases hj
      · rw [Function.update_of_ne e'] at hj; exact h.silent j m' p hj hm'
    · intro j
      have := h.results j
      by_cases e' : j = i
      · subst e'; rw [Function.update_self]; rw [e] at this
        rw [← this]
        simp only [ahead_inside, ahead_idle, lockedRes, List.filter_append, List.append_nil, Prog.run]
        by_cases hm : mode m = .free <;> simp [hm]
      · rw [Function.update_of_ne e']; exact this
    · intro j
      have := h.program j
      by_cases e' : j = i
      · subst e'; rw [Function.update_self]; rw [e] at this; exact this
      · rw [Function.update_of_ne e']; exact this

theorem Serial.steps (hC : Calls mode body f0 A I) {c c' : Conf n μ S R} (hs : Steps mode body c c')
    (h : Serial mode f0 A I s0 calls c) : Serial mode f0 A I s0 calls c' := by
  induction hs with
  | refl => exact h
  | tail _ h2 ih => exact ih.step hC h2

/-! ## Executions end -/

/-- Closer to the end of a call. -/
inductive Closer : Phase μ S R → Phase μ S R → Prop
  | leave {m r} : Closer .idle (.inside m (.done r))
  | act {m f k s} : Closer (.inside m (k s)) (.inside m (.act f k))
  | lock {m p} : Closer (.inside m p) (.waiting m)

theorem closer_wf : WellFounded (Closer : Phase μ S R → Phase μ S R → Prop) := by
  have h0 : Acc (Closer : Phase μ S R → Phase μ S R → Prop) .idle := ⟨_, fun y h => by cases h⟩
  have h1 : ∀ (m : μ) (p : Prog S R), Acc Closer (.inside m p) := by
    intro m p
    induction p with
    | done r => exact ⟨_, fun y h => by cases h; exact h0⟩
    | act f k ih => exact ⟨_, fun y h => by cases h; exact ih _⟩
  refine ⟨fun x => ?_⟩
  cases x with
  | idle => exact h0
  | inside m p => exact h1 m p
  | waiting m => exact ⟨_, fun y h => by cases h; exact h1 _ _⟩

/-- Closer to the end of a goroutine. -/
def Nearer (t t' : Thread μ S R) : Prop :=
  Prod.Lex (· < ·) Closer (t.todo.length, t.phase) (t'.todo.length, t'.phase)

theorem nearer_wf : WellFounded (Nearer : Thread μ S R → Thread μ S R → Prop) :=
  InvImage.wf (fun t : Thread μ S R => (t.todo.length, t.phase)) (WellFounded.prod_lex Nat.lt_wfRel.wf closer_wf)

theorem step_wf : WellFounded (fun c' c : Conf n μ S R => Step mode body c c') := by
  have hw : WellFounded (Pi.Lex (ι := Fin n) (β := fun _ => Thread μ S R) (· < ·) (fun {_} => Nearer)) :=
    Pi.Lex.wellFounded _ (fun _ => nearer_wf)
  refine Subrelation.wf (r := InvImage _ (fun c : Conf n μ S R => c.thr)) ?_ (InvImage.wf _ hw)
  intro c' c hs
  have key : ∀ (i : Fin n) (t t' : Thread μ S R), c.thr i = t → Nearer t' t →
      Pi.Lex (ι := Fin n) (β := fun _ => Thread μ S R) (· < ·) (fun {_} => Nearer) (Function.update c.thr i t') c.thr := by
    intro i t t' h1 h2
    refine ⟨i, fun j hj => ?_, ?_⟩
    · exact Function.update_of_ne (ne_of_lt hj) _ _
    · rw [Function.update_self, h1]; exact h2
  cases hs with
  | announce i e => exact key i _ _ e (Prod.Lex.left _ _ (Nat.lt_succ_self _))
  | lock i e => exact key i _ _ e (Prod.Lex.right _ .lock)
  | rlock i e => exact key i _ _ e (Prod.Lex.left _ _ (Nat.lt_succ_self _))
  | enter i e => exact key i _ _ e (Prod.Lex.left _ _ (Nat.lt_succ_self _))
  | act i e => exact key i _ _ e (Prod.Lex.right _ .act)
  | @leave i m rest res r e =>
    have r3 : (c.release (mode m)).thr = c.thr := by cases mode m <;> rfl
    show Pi.Lex _ _ (Function.update (c.release (mode m)).thr i _) c.thr
    rw [r3]
    exact key i _ _ e (Prod.Lex.right _ .leave)

end Mutex
end GB
