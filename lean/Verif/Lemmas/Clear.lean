import Verif.Lemmas.Mutex3
import Verif.SpecClear

/-!
# `Clear` among concurrent calls
-/

namespace GB
namespace Mutex

set_option linter.unusedSectionVars false
set_option linter.unusedSimpArgs false

variable {n : Nat} {μ S R : Type} {mode : μ → Mode} {body : μ → Prog S R}

/-- What is assumed of a call `w` that resets the state under the lock for reading. `V t s p`: the call has `p`
left to do, in state `s`, on the way to state `t`. -/
structure Wipe (mode : μ → Mode) (body : μ → Prog S R) (f0 : μ → S → R × S) (I : S → Prop) (w : μ) (u : R)
    (V : S → S → Prog S R → Prop) : Prop where
  mode : mode w = .read
  start : ∀ s, V (f0 w s).2 s (body w)
  runs : ∀ s, ((body w).run s).2 = (f0 w s).2
  act : ∀ {t s f k}, V t s (.act f k) → V t (f s) (k s)
  stay : ∀ {t s f k q}, V t s (.act f k) → V t s q → V t (f s) q
  res : ∀ {t s p}, V t s p → (p.run s).1 = u
  same : ∀ {t s p}, V t s p → (f0 w s).2 = t
  covers : ∀ {t s f k q}, V t s (.act f k) → V t s q → (q.run s).2 = t →
    (q.run (f s)).2 = t ∨ ((k s).run (f s)).2 = t
  fix : ∀ {t q}, V t t q → (q.run t).2 = t
  ret : ∀ s, (f0 w s).1 = u
  idem : ∀ s, (f0 w (f0 w s).2).2 = (f0 w s).2
  keep : ∀ s, I s → I (f0 w s).2

/-- The invariant: the acquired calls, made one after the other, explain everything, except that while
calls of `w` are inside the state may be on its way to the one they explain, and then one of them will get it there. -/
structure SerialW (mode : μ → Mode) (f0 : μ → S → R × S) (A : μ → Prop) (I : S → Prop) (w : μ)
    (V : S → S → Prog S R → Prop) (s0 : S) (calls : Fin n → List μ) (c : Conf n μ S R) : Prop where
  lock : Locked mode c
  good : ∀ i, (∀ m ∈ (c.thr i).todo, A m ∨ m = w) ∧ ∀ m, (c.thr i).phase = .waiting m → A m
  inv : I (serial f0 s0 c.order).1
  still : (∀ i m p, (c.thr i).phase = .inside m p → mode m ≠ .write ∧ m ≠ w) → c.mat = (serial f0 s0 c.order).1
  moving : ∀ i m p, (c.thr i).phase = .inside m p → mode m = .write → (p.run c.mat).2 = (serial f0 s0 c.order).1
  wiping : ∀ i p, (c.thr i).phase = .inside w p → V (serial f0 s0 c.order).1 c.mat p ∧
    ∃ i p, (c.thr i).phase = .inside w p ∧ (p.run c.mat).2 = (serial f0 s0 c.order).1
  reading : ∀ i m p, (c.thr i).phase = .inside m p → mode m = .read → m ≠ w → p.Quiet c.mat
  silent : ∀ i m p, (c.thr i).phase = .inside m p → mode m = .free → p.Silent
  results : ∀ i, lockedRes mode (c.thr i).res ++ ahead mode c.mat (c.thr i).phase =
    ofThread i (serial f0 s0 c.order).2
  program : ∀ i, ((c.order.filter (fun x => x.1 = i)).map (fun x => x.2)) ++ asked (c.thr i).phase ++
    locked mode (c.thr i).todo = locked mode (calls i)

variable {f0 : μ → S → R × S} {A : μ → Prop} {I : S → Prop} {s0 : S} {calls : Fin n → List μ}
  {w : μ} {u : R} {V : S → S → Prog S R → Prop}

theorem SerialW.init (h : I s0) (hA : ∀ i, ∀ m ∈ calls i, A m ∨ m = w) :
    SerialW mode f0 A I w V s0 calls (Conf.init s0 calls) where
  lock := Locked.init _ _
  good := fun i => ⟨hA i, fun m h => by simp [Conf.init] at h⟩
  inv := h
  still := fun _ => rfl
  moving := fun i m p h => by simp [Conf.init] at h
  wiping := fun i p h => by simp [Conf.init] at h
  reading := fun i m p h => by simp [Conf.init] at h
  silent := fun i m p h => by simp [Conf.init] at h
  results := fun i => by simp [Conf.init, lockedRes, ahead, ofThread, serial]
  program := fun i => by simp [Conf.init, asked]

/-- The calls of `w` that are inside are alone among the readers. -/
def Solo (mode : μ → Mode) (w : μ) (c : Conf n μ S R) : Prop :=
  ∀ i j m, c.Inside i w → c.Inside j m → mode m = .read → m = w

/-- The state is on its way to the one explained, or there. -/
theorem SerialW.fits (hW : Wipe mode body f0 I w u V) (h : SerialW mode f0 A I w V s0 calls c)
    (hnw : ∀ i m p, (c.thr i).phase = .inside m p → mode m ≠ .write) :
    c.mat = (serial f0 s0 c.order).1 ∨
      (∃ i p, (c.thr i).phase = .inside w p) ∧ (f0 w c.mat).2 = (serial f0 s0 c.order).1 := by
  by_cases hw : ∃ i p, (c.thr i).phase = .inside w p
  · exact .inr ⟨hw, by obtain ⟨i, p, hi⟩ := hw; exact hW.same (h.wiping i p hi).1⟩
  · refine .inl (h.still (fun i m p hi => ⟨hnw i m p hi, ?_⟩))
    rintro rfl
    exact hw ⟨i, p, hi⟩

theorem SerialW.step (hC : Calls mode body f0 A I) (hW : Wipe mode body f0 I w u V) (hAw : ¬ A w)
    {c c' : Conf n μ S R} (h : SerialW mode f0 A I w V s0 calls c)
    (hs : Step mode body c c') (hp1 : Solo mode w c) (hp2 : Solo mode w c') :
    SerialW mode f0 A I w V s0 calls c' := by
  have hlock := h.lock.step hs
  cases hs with
  | @announce i m rest res e hm hp =>
    have hmw : m ≠ w := by rintro rfl; rw [hW.mode] at hm; cases hm
    have hgood : ∀ j, (∀ x ∈ (Function.update c.thr i ⟨rest, .waiting m, res⟩ j).todo, A x ∨ x = w) ∧
        ∀ x, (Function.update c.thr i ⟨rest, .waiting m, res⟩ j).phase = .waiting x → A x := by
      intro j
      have := h.good j
      by_cases e' : j = i
      · subst e'; rw [Function.update_self]; rw [e] at this
        exact ⟨fun x hx => this.1 x (List.mem_cons_of_mem _ hx),
          fun x hx => by cases hx; exact (this.1 _ List.mem_cons_self).resolve_right hmw⟩
      · rw [Function.update_of_ne e']; exact this
    refine ⟨hlock, hgood, h.inv, fun hn => h.still ?_, ?_, ?_, ?_, ?_, ?_, ?_⟩ <;>
      dsimp only [Conf.put] at *
    · intro j m' p hj
      by_cases e' : j = i
      · subst e'; rw [e] at hj; cases hj
      · exact hn j m' p (by rw [Function.update_of_ne e']; exact hj)
    · intro j m' p hj hm'
      by_cases e' : j = i
      · subst e'; rw [Function.update_self] at hj; cases hj
      · rw [Function.update_of_ne e'] at hj; exact h.moving j m' p hj hm'
    · intro j p hj
      by_cases e' : j = i
      · subst e'; rw [Function.update_self] at hj; cases hj
      · rw [Function.update_of_ne e'] at hj
        obtain ⟨v, i', p', hi', hc⟩ := h.wiping j p hj
        have hne : i' ≠ i := by rintro rfl; rw [e] at hi'; cases hi'
        exact ⟨v, i', p', by rw [Function.update_of_ne hne]; exact hi', hc⟩
    · intro j m' p hj hm'
      by_cases e' : j = i
      · subst e'; rw [Function.update_self] at hj; cases hj
      · rw [Function.update_of_ne e'] at hj; exact h.reading j m' p hj hm'
    · intro j m' p hj hm'
      by_cases e' : j = i
      · subst e'; rw [Function.update_self] at hj; cases hj
      · rw [Function.update_of_ne e'] at hj; exact h.silent j m' p hj hm'
    · intro j
      have := h.results j
      by_cases e' : j = i
      · subst e'; rw [Function.update_self]; rw [e] at this; exact this
      · rw [Function.update_of_ne e']; exact this
    · intro j
      have := h.program j
      by_cases e' : j = i
      · subst e'; rw [Function.update_self]; rw [e] at this
        simp only [asked_idle, asked_waiting] at this ⊢
        rw [← this]
        simp [locked, hm]
      · rw [Function.update_of_ne e']; exact this
  | @lock i m rest res e hr =>
    have hgood : ∀ j, (∀ x ∈ (Function.update c.thr i ⟨rest, .inside m (body m), res⟩ j).todo, A x ∨ x = w) ∧
        ∀ x, (Function.update c.thr i ⟨rest, .inside m (body m), res⟩ j).phase = .waiting x → A x := by
      intro j
      have := h.good j
      by_cases e' : j = i
      · subst e'; rw [Function.update_self]; rw [e] at this
        exact ⟨this.1, fun x hx => by cases hx⟩
      · rw [Function.update_of_ne e']; exact this
    have hm := h.lock.waits i m (by rw [e])
    have hmw : m ≠ w := by rintro rfl; rw [hW.mode] at hm; cases hm
    have hA := (h.good i).2 m (by rw [e])
    have hrun := hC.run m hA _ h.inv
    have hnw := h.lock.no_writer' (j := i) (m' := m) (by rw [e])
    have hnr := h.lock.no_reader hr
    have hmat := h.still (fun j m' p hj => ⟨hnw j m' p hj, by rintro rfl; exact hnr j _ p hj hW.mode⟩)
    refine ⟨hlock, hgood, ?_, fun hn => ?_, ?_, ?_, ?_, ?_, ?_, ?_⟩ <;> dsimp only [Conf.put] at *
    · rw [serial_append]; exact hC.keep m hA hm _ h.inv
    · exact absurd hm (hn i m (body m) (by rw [Function.update_self])).1
    · intro j m' p hj hm'
      rw [serial_append, ← hrun, ← hmat]
      by_cases e' : j = i
      · subst e'; rw [Function.update_self] at hj; cases hj; rfl
      · rw [Function.update_of_ne e'] at hj; exact absurd hm' (hnw j m' p hj)
    · intro j p hj
      by_cases e' : j = i
      · subst e'; rw [Function.update_self] at hj; cases hj; exact absurd rfl hmw
      · rw [Function.update_of_ne e'] at hj; exact absurd hW.mode (hnr j _ p hj)
    · intro j m' p hj hm'
      by_cases e' : j = i
      · subst e'; rw [Function.update_self] at hj; cases hj; rw [hm] at hm'; cases hm'
      · rw [Function.update_of_ne e'] at hj; exact absurd hm' (hnr j m' p hj)
    · intro j m' p hj hm'
      by_cases e' : j = i
      · subst e'; rw [Function.update_self] at hj; cases hj; rw [hm] at hm'; cases hm'
      · rw [Function.update_of_ne e'] at hj; exact h.silent j m' p hj hm'
    · intro j
      have := h.results j
      rw [serial_append, ofThread_append, ← this, ← hrun]
      by_cases e' : j = i
      · subst e'
        rw [Function.update_self, e, if_pos rfl, ahead_inside, if_neg (by rw [hm]; simp), ahead_waiting, ← hmat,
          List.append_nil]
      · rw [Function.update_of_ne e', if_neg (fun h => e' h.symm), List.append_nil]
    · intro j
      have := h.program j
      rw [List.filter_append, List.map_append]
      by_cases e' : j = i
      · subst e'; rw [Function.update_self]; rw [e] at this
        rw [← this]
        simp [asked]
      · rw [Function.update_of_ne e', ← this]
        simp [Ne.symm e']
  | @rlock i m rest res e hm hp =>
    have hgood : ∀ j, (∀ x ∈ (Function.update c.thr i ⟨rest, .inside m (body m), res⟩ j).todo, A x ∨ x = w) ∧
        ∀ x, (Function.update c.thr i ⟨rest, .inside m (body m), res⟩ j).phase = .waiting x → A x := by
      intro j
      have := h.good j
      by_cases e' : j = i
      · subst e'; rw [Function.update_self]; rw [e] at this
        exact ⟨fun x hx => this.1 x (List.mem_cons_of_mem _ hx), fun x hx => by cases hx⟩
      · rw [Function.update_of_ne e']; exact this
    have hnw := h.lock.no_writer hp
    have hprog : ∀ j, (((c.order ++ [(i, m)]).filter (fun x => x.1 = j)).map (fun x => x.2)) ++
        asked (Function.update c.thr i ⟨rest, .inside m (body m), res⟩ j).phase ++
        locked mode (Function.update c.thr i ⟨rest, .inside m (body m), res⟩ j).todo = locked mode (calls j) := by
      intro j
      have := h.program j
      rw [List.filter_append, List.map_append]
      by_cases e' : j = i
      · subst e'; rw [Function.update_self]; rw [e] at this
        rw [← this]
        simp [asked, locked, hm]
      · rw [Function.update_of_ne e', ← this]
        simp [Ne.symm e']
    by_cases hmw : m = w
    · -- a call of `w`
      subst hmw
      have hnr : ∀ j m' p, (c.thr j).phase = .inside m' p → mode m' = .read → m' = m := by
        intro j m' p hj hm'
        have hne : j ≠ i := by rintro rfl; rw [e] at hj; cases hj
        refine hp2 i j m' ⟨body m, ?_⟩ ⟨p, ?_⟩ hm'
        · dsimp only [Conf.put]; rw [Function.update_self]
        · dsimp only [Conf.put]; rw [Function.update_of_ne hne]; exact hj
      have hto : (f0 m c.mat).2 = (f0 m (serial f0 s0 c.order).1).2 := by
        rcases h.fits hW hnw with h1 | ⟨-, h1⟩
        · rw [h1]
        · rw [← h1, hW.idem]
      have hothers : ∀ j p, (c.thr j).phase = .inside m p →
          (serial f0 s0 c.order).1 = (f0 m (serial f0 s0 c.order).1).2 := by
        intro j p hj
        rw [← hto]; exact (hW.same (h.wiping j p hj).1).symm
      refine ⟨hlock, hgood, ?_, fun hn => ?_, ?_, ?_, ?_, ?_, ?_, hprog⟩ <;> dsimp only [Conf.put] at *
      · rw [serial_append]; exact hW.keep _ h.inv
      · exact absurd rfl (hn i m (body m) (by rw [Function.update_self])).2
      · intro j m' p hj hm'
        by_cases e' : j = i
        · subst e'; rw [Function.update_self] at hj; cases hj; rw [hm] at hm'; cases hm'
        · rw [Function.update_of_ne e'] at hj; exact absurd hm' (hnw j m' p hj)
      · intro j p hj
        rw [serial_append]
        dsimp only
        rw [← hto]
        refine ⟨?_, i, body m, by rw [Function.update_self], hW.runs _⟩
        by_cases e' : j = i
        · subst e'; rw [Function.update_self] at hj; cases hj; exact hW.start _
        · rw [Function.update_of_ne e'] at hj
          rw [hto, ← hothers j p hj]; exact (h.wiping j p hj).1
      · intro j m' p hj hm' hmw
        by_cases e' : j = i
        · subst e'; rw [Function.update_self] at hj; cases hj; exact absurd rfl hmw
        · rw [Function.update_of_ne e'] at hj; exact absurd (hnr j m' p hj hm') hmw
      · intro j m' p hj hm'
        by_cases e' : j = i
        · subst e'; rw [Function.update_self] at hj; cases hj; rw [hm] at hm'; cases hm'
        · rw [Function.update_of_ne e'] at hj; exact h.silent j m' p hj hm'
      · intro j
        have := h.results j
        rw [serial_append, ofThread_append, ← this, hW.ret]
        by_cases e' : j = i
        · subst e'
          rw [Function.update_self, e, if_pos rfl, ahead_inside, if_neg (by rw [hm]; simp), ahead_idle,
            hW.res (hW.start c.mat), List.append_nil]
        · rw [Function.update_of_ne e', if_neg (fun h => e' h.symm), List.append_nil]
    · -- a reader
      have hnowipe : ∀ j p, (c.thr j).phase ≠ .inside w p := by
        intro j p hj
        have hne : j ≠ i := by rintro rfl; rw [e] at hj; cases hj
        refine hmw (hp2 j i m ⟨p, ?_⟩ ⟨body m, ?_⟩ hm)
        · dsimp only [Conf.put]; rw [Function.update_of_ne hne]; exact hj
        · dsimp only [Conf.put]; rw [Function.update_self]
      have hmat := h.still (fun j m' p hj => ⟨hnw j m' p hj, by rintro rfl; exact hnowipe j p hj⟩)
      have hA := ((h.good i).1 m (by rw [e]; exact List.mem_cons_self)).resolve_right hmw
      have hrun := hC.run m hA _ h.inv
      have hq := hC.quiet m hA hm _ h.inv
      have hF : (f0 m (serial f0 s0 c.order).1).2 = (serial f0 s0 c.order).1 := by rw [← hrun]; exact hq.run
      refine ⟨hlock, hgood, ?_, fun hn => ?_, ?_, ?_, ?_, ?_, ?_, hprog⟩ <;> dsimp only [Conf.put] at *
      · rw [serial_append, hF]; exact h.inv
      · rw [serial_append, hF]; exact hmat
      · intro j m' p hj hm'
        by_cases e' : j = i
        · subst e'; rw [Function.update_self] at hj; cases hj; rw [hm] at hm'; cases hm'
        · rw [Function.update_of_ne e'] at hj; exact absurd hm' (hnw j m' p hj)
      · intro j p hj
        by_cases e' : j = i
        · subst e'; rw [Function.update_self] at hj; cases hj; exact absurd rfl hmw
        · rw [Function.update_of_ne e'] at hj; exact absurd hj (hnowipe j p)
      · intro j m' p hj hm' hw'
        by_cases e' : j = i
        · subst e'; rw [Function.update_self] at hj; cases hj; rw [hmat]; exact hq
        · rw [Function.update_of_ne e'] at hj; exact h.reading j m' p hj hm' hw'
      · intro j m' p hj hm'
        by_cases e' : j = i
        · subst e'; rw [Function.update_self] at hj; cases hj; rw [hm] at hm'; cases hm'
        · rw [Function.update_of_ne e'] at hj; exact h.silent j m' p hj hm'
      · intro j
        have := h.results j
        rw [serial_append, ofThread_append, ← this, ← hrun]
        by_cases e' : j = i
        · subst e'
          rw [Function.update_self, e, if_pos rfl, ahead_inside, if_neg (by rw [hm]; simp), ahead_idle, ← hmat,
            List.append_nil]
        · rw [Function.update_of_ne e', if_neg (fun h => e' h.symm), List.append_nil]
  | @enter i m rest res e hm =>
    have hmw : m ≠ w := by rintro rfl; rw [hW.mode] at hm; cases hm
    have hgood : ∀ j, (∀ x ∈ (Function.update c.thr i ⟨rest, .inside m (body m), res⟩ j).todo, A x ∨ x = w) ∧
        ∀ x, (Function.update c.thr i ⟨rest, .inside m (body m), res⟩ j).phase = .waiting x → A x := by
      intro j
      have := h.good j
      by_cases e' : j = i
      · subst e'; rw [Function.update_self]; rw [e] at this
        exact ⟨fun x hx => this.1 x (List.mem_cons_of_mem _ hx), fun x hx => by cases hx⟩
      · rw [Function.update_of_ne e']; exact this
    refine ⟨hlock, hgood, h.inv, fun hn => h.still ?_, ?_, ?_, ?_, ?_, ?_, ?_⟩ <;> dsimp only [Conf.put] at *
    · intro j m' p hj
      by_cases e' : j = i
      · subst e'; rw [e] at hj; cases hj
      · exact hn j m' p (by rw [Function.update_of_ne e']; exact hj)
    · intro j m' p hj hm'
      by_cases e' : j = i
      · subst e'; rw [Function.update_self] at hj; cases hj; rw [hm] at hm'; cases hm'
      · rw [Function.update_of_ne e'] at hj; exact h.moving j m' p hj hm'
    · intro j p hj
      by_cases e' : j = i
      · subst e'; rw [Function.update_self] at hj; cases hj; exact absurd rfl hmw
      · rw [Function.update_of_ne e'] at hj
        obtain ⟨v, i', p', hi', hc⟩ := h.wiping j p hj
        have hne : i' ≠ i := by rintro rfl; rw [e] at hi'; cases hi'
        exact ⟨v, i', p', by rw [Function.update_of_ne hne]; exact hi', hc⟩
    · intro j m' p hj hm'
      by_cases e' : j = i
      · subst e'; rw [Function.update_self] at hj; cases hj; rw [hm] at hm'; cases hm'
      · rw [Function.update_of_ne e'] at hj; exact h.reading j m' p hj hm'
    · intro j m' p hj hm'
      by_cases e' : j = i
      · subst e'; rw [Function.update_self] at hj; cases hj
        exact hC.silent m (((h.good j).1 m (by rw [e]; exact List.mem_cons_self)).resolve_right hmw) hm
      · rw [Function.update_of_ne e'] at hj; exact h.silent j m' p hj hm'
    · intro j
      have := h.results j
      by_cases e' : j = i
      · subst e'; rw [Function.update_self]; rw [e] at this
        rw [← this]
        simp [ahead, hm]
      · rw [Function.update_of_ne e']; exact this
    · intro j
      have := h.program j
      by_cases e' : j = i
      · subst e'; rw [Function.update_self]; rw [e] at this
        rw [← this]
        simp [asked, locked, hm]
      · rw [Function.update_of_ne e']; exact this
  | @act i m rest res f k e =>
    have hgood : ∀ j, (∀ x ∈ (Function.update c.thr i ⟨rest, .inside m (k c.mat), res⟩ j).todo, A x ∨ x = w) ∧
        ∀ x, (Function.update c.thr i ⟨rest, .inside m (k c.mat), res⟩ j).phase = .waiting x → A x := by
      intro j
      have := h.good j
      by_cases e' : j = i
      · subst e'; rw [Function.update_self]; rw [e] at this
        exact ⟨this.1, fun x hx => by cases hx⟩
      · rw [Function.update_of_ne e']; exact this
    have hphase : (c.thr i).phase = .inside m (.act f k) := by rw [e]
    have hprog : ∀ j, ((c.order.filter (fun x => x.1 = j)).map (fun x => x.2)) ++
        asked (Function.update c.thr i ⟨rest, .inside m (k c.mat), res⟩ j).phase ++
        locked mode (Function.update c.thr i ⟨rest, .inside m (k c.mat), res⟩ j).todo = locked mode (calls j) := by
      intro j
      have := h.program j
      by_cases e' : j = i
      · subst e'; rw [Function.update_self]; rw [e] at this; exact this
      · rw [Function.update_of_ne e']; exact this
    by_cases hm : mode m = .write
    · have hmw : m ≠ w := by rintro rfl; rw [hW.mode] at hm; cases hm
      have hother : ∀ j m' p, j ≠ i → (c.thr j).phase = .inside m' p → mode m' = .free :=
        fun j m' p hne hj => h.lock.alone ⟨_, hphase⟩ hm ⟨p, hj⟩ hne
      refine ⟨hlock, hgood, h.inv, fun hn => ?_, ?_, ?_, ?_, ?_, ?_, hprog⟩ <;> dsimp only [Conf.put] at *
      · exact absurd hm (hn i m (k c.mat) (by rw [Function.update_self])).1
      · intro j m' p hj hm'
        by_cases e' : j = i
        · subst e'; rw [Function.update_self] at hj; cases hj
          exact h.moving j m _ hphase hm
        · rw [Function.update_of_ne e'] at hj
          rw [hother j m' p e' hj] at hm'; cases hm'
      · intro j p hj
        by_cases e' : j = i
        · subst e'; rw [Function.update_self] at hj; cases hj; exact absurd rfl hmw
        · rw [Function.update_of_ne e'] at hj
          have := hother j w p e' hj
          rw [hW.mode] at this; cases this
      · intro j m' p hj hm'
        by_cases e' : j = i
        · subst e'; rw [Function.update_self] at hj; cases hj; rw [hm] at hm'; cases hm'
        · rw [Function.update_of_ne e'] at hj
          rw [hother j m' p e' hj] at hm'; cases hm'
      · intro j m' p hj hm'
        by_cases e' : j = i
        · subst e'; rw [Function.update_self] at hj; cases hj; rw [hm] at hm'; cases hm'
        · rw [Function.update_of_ne e'] at hj; exact h.silent j m' p hj hm'
      · intro j
        have := h.results j
        by_cases e' : j = i
        · subst e'; rw [Function.update_self]; rw [e] at this; exact this
        · rw [Function.update_of_ne e', ← this]
          cases hph : (c.thr j).phase with
          | inside m' p => rw [ahead_inside, ahead_inside, if_pos (hother j m' p e' hph), if_pos (hother j m' p e' hph)]
          | _ => rfl
    by_cases hmw : m = w
    · -- an access of a call of `w`
      subst hmw
      obtain ⟨w1, i', p', hi', hc⟩ := h.wiping i _ hphase
      have hnr : ∀ j m' p, (c.thr j).phase = .inside m' p → mode m' = .read → m' = m :=
        fun j m' p hj hm' => hp1 i j m' ⟨_, hphase⟩ ⟨p, hj⟩ hm'
      have hnw : ∀ j m' p, (c.thr j).phase = .inside m' p → mode m' ≠ .write := by
        intro j m' p hj hm'
        have hne : i ≠ j := by rintro rfl; rw [hphase] at hj; cases hj; exact hm hm'
        have := h.lock.alone ⟨p, hj⟩ hm' ⟨_, hphase⟩ hne
        rw [hW.mode] at this; cases this
      refine ⟨hlock, hgood, h.inv, fun hn => ?_, ?_, ?_, ?_, ?_, ?_, hprog⟩ <;> dsimp only [Conf.put] at *
      · exact absurd rfl (hn i m (k c.mat) (by rw [Function.update_self])).2
      · intro j m' p hj hm'
        by_cases e' : j = i
        · subst e'; rw [Function.update_self] at hj; cases hj; exact absurd hm' hm
        · rw [Function.update_of_ne e'] at hj; exact absurd hm' (hnw j m' p hj)
      · intro j p hj
        refine ⟨?_, ?_⟩
        · by_cases e' : j = i
          · subst e'; rw [Function.update_self] at hj; cases hj; exact hW.act w1
          · rw [Function.update_of_ne e'] at hj
            exact hW.stay w1 (h.wiping j p hj).1
        · by_cases hne : i' = i
          · subst hne
            rw [hphase] at hi'; cases hi'
            exact ⟨i', _, by rw [Function.update_self], hc⟩
          · rcases hW.covers w1 (h.wiping i' p' hi').1 hc with h1 | h1
            · exact ⟨i', p', by rw [Function.update_of_ne hne]; exact hi', h1⟩
            · exact ⟨i, _, by rw [Function.update_self], h1⟩
      · intro j m' p hj hm' hw'
        by_cases e' : j = i
        · subst e'; rw [Function.update_self] at hj; cases hj; exact absurd rfl hw'
        · rw [Function.update_of_ne e'] at hj; exact absurd (hnr j m' p hj hm') hw'
      · intro j m' p hj hm'
        by_cases e' : j = i
        · subst e'; rw [Function.update_self] at hj; cases hj; rw [hW.mode] at hm'; cases hm'
        · rw [Function.update_of_ne e'] at hj; exact h.silent j m' p hj hm'
      · intro j
        have := h.results j
        by_cases e' : j = i
        · subst e'; rw [Function.update_self]; rw [e] at this
          rw [← this, ahead_inside, ahead_inside]
          rfl
        · rw [Function.update_of_ne e', ← this]
          cases hph : (c.thr j).phase with
          | inside m' p =>
            rw [ahead_inside, ahead_inside]
            by_cases hf : mode m' = .free
            · rw [if_pos hf, if_pos hf]
            · have hr : mode m' = .read := by
                cases hx : mode m' with
                | write => exact absurd hx (hnw j m' p hph)
                | read => rfl
                | free => exact absurd hx hf
              have := hnr j m' p hph hr
              subst this
              have q := (h.wiping j p hph).1
              rw [if_neg hf, if_neg hf, hW.res q, hW.res (hW.stay w1 q)]
          | _ => rfl
    · -- the state stays
      have hq : f c.mat = c.mat ∧ (mode m = .read → (k c.mat).Quiet c.mat) ∧ (mode m = .free → (k c.mat).Silent) := by
        cases hm' : mode m with
        | write => exact absurd hm' hm
        | read =>
          obtain ⟨q1, q2⟩ := h.reading i m _ hphase hm' hmw
          exact ⟨q1, fun _ => q2, fun h => by cases h⟩
        | free =>
          have q := h.silent i m _ hphase hm'
          refine ⟨?_, fun h => (by cases h), fun _ => ?_⟩
          · exact q.1 _
          · exact q.2 _
      obtain ⟨hf, hq1, hq2⟩ := hq
      rw [hf] at hlock ⊢
      refine ⟨hlock, hgood, h.inv, fun hn => h.still ?_, ?_, ?_, ?_, ?_, ?_, hprog⟩ <;> dsimp only [Conf.put] at *
      · intro j m' p hj
        by_cases e' : j = i
        · subst e'; rw [e] at hj; cases hj; exact ⟨hm, hmw⟩
        · exact hn j m' p (by rw [Function.update_of_ne e']; exact hj)
      · intro j m' p hj hm'
        by_cases e' : j = i
        · subst e'; rw [Function.update_self] at hj; cases hj; exact absurd hm' hm
        · rw [Function.update_of_ne e'] at hj; exact h.moving j m' p hj hm'
      · intro j p hj
        by_cases e' : j = i
        · subst e'; rw [Function.update_self] at hj; cases hj; exact absurd rfl hmw
        · rw [Function.update_of_ne e'] at hj
          obtain ⟨v, i', p', hi', hc⟩ := h.wiping j p hj
          have hne : i' ≠ i := by rintro rfl; rw [e] at hi'; cases hi'; exact hmw rfl
          exact ⟨v, i', p', by rw [Function.update_of_ne hne]; exact hi', hc⟩
      · intro j m' p hj hm' hw'
        by_cases e' : j = i
        · subst e'; rw [Function.update_self] at hj; cases hj; exact hq1 hm'
        · rw [Function.update_of_ne e'] at hj; exact h.reading j m' p hj hm' hw'
      · intro j m' p hj hm'
        by_cases e' : j = i
        · subst e'; rw [Function.update_self] at hj; cases hj; exact hq2 hm'
        · rw [Function.update_of_ne e'] at hj; exact h.silent j m' p hj hm'
      · intro j
        have := h.results j
        by_cases e' : j = i
        · subst e'; rw [Function.update_self]; rw [e] at this
          rw [← this, ahead_inside, ahead_inside]
          show _ = lockedRes mode res ++ if mode m = .free then [] else [(m, ((k c.mat).run (f c.mat)).1)]
          rw [hf]
        · rw [Function.update_of_ne e']; exact this
  | @leave i m rest res r e =>
    have hgood : ∀ j, (∀ x ∈ (Function.update c.thr i ⟨rest, .idle, res ++ [(m, r)]⟩ j).todo, A x ∨ x = w) ∧
        ∀ x, (Function.update c.thr i ⟨rest, .idle, res ++ [(m, r)]⟩ j).phase = .waiting x → A x := by
      intro j
      have := h.good j
      by_cases e' : j = i
      · subst e'; rw [Function.update_self]; rw [e] at this
        exact ⟨this.1, fun x hx => by cases hx⟩
      · rw [Function.update_of_ne e']; exact this
    have hphase : (c.thr i).phase = .inside m (.done r) := by rw [e]
    have r1 : (c.release (mode m)).mat = c.mat := by cases mode m <;> rfl
    have r2 : (c.release (mode m)).order = c.order := by cases mode m <;> rfl
    have r3 : (c.release (mode m)).thr = c.thr := by cases mode m <;> rfl
    have hstill : (∀ j m' p, j ≠ i → (c.thr j).phase = .inside m' p → mode m' ≠ .write ∧ m' ≠ w) →
        c.mat = (serial f0 s0 c.order).1 := by
      intro hn
      by_cases hm : mode m = .write
      · exact h.moving i m _ hphase hm
      · by_cases hmw : m = w
        · subst hmw
          obtain ⟨-, i', p', hi', hc⟩ := h.wiping i _ hphase
          by_cases hne : i' = i
          · subst hne; rw [hphase] at hi'; cases hi'; exact hc
          · exact absurd rfl (hn i' m p' hne hi').2
        · refine h.still (fun j m' p hj => ?_)
          by_cases e' : j = i
          · subst e'; rw [e] at hj; cases hj; exact ⟨hm, hmw⟩
          · exact hn j m' p e' hj
    refine ⟨hlock, by rw [← r3] at hgood; exact hgood, ?_, fun hn => ?_, ?_, ?_, ?_, ?_, ?_, ?_⟩ <;> dsimp only [Conf.put] at * <;> (try rw [r2]) <;>
      (try rw [r3] at hn) <;> (try rw [r3]) <;> (try rw [r1])
    · exact h.inv
    · refine hstill (fun j m' p e' hj => hn j m' p ?_)
      rw [Function.update_of_ne e']; exact hj
    · intro j m' p hj hm'
      by_cases e' : j = i
      · subst e'; rw [Function.update_self] at hj; cases hj
      · rw [Function.update_of_ne e'] at hj; exact h.moving j m' p hj hm'
    · intro j p hj
      by_cases e' : j = i
      · subst e'; rw [Function.update_self] at hj; cases hj
      · rw [Function.update_of_ne e'] at hj
        obtain ⟨v, i', p', hi', hc⟩ := h.wiping j p hj
        by_cases hne : i' = i
        · subst hne
          rw [hphase] at hi'; cases hi'
          have hc : c.mat = (serial f0 s0 c.order).1 := hc
          refine ⟨v, j, p, by rw [Function.update_of_ne e']; exact hj, ?_⟩
          rw [← hc] at v ⊢
          exact hW.fix v
        · exact ⟨v, i', p', by rw [Function.update_of_ne hne]; exact hi', hc⟩
    · intro j m' p hj hm'
      by_cases e' : j = i
      · subst e'; rw [Function.update_self] at hj; cases hj
      · rw [Function.update_of_ne e'] at hj; exact h.reading j m' p hj hm'
    · intro j m' p hj hm'
      by_cases e' : j = i
      · subst e'; rw [Function.update_self] at hj; cases hj
      · rw [Function.update_of_ne e'] at hj; exact h.silent j m' p hj hm'
    · intro j
      have := h.results j
      by_cases e' : j = i
      · subst e'; rw [Function.update_self]; rw [e] at this
        rw [← this]
        simp only [ahead_inside, ahead_idle, lockedRes, List.filter_append, List.append_nil, Prog.run]
        by_cases hm : mode m = .free <;> simp [hm]
      · rw [Function.update_of_ne e']; exact this
    · intro j
      have := h.program j
      by_cases e' : j = i
      · subst e'; rw [Function.update_self]; rw [e] at this; exact this
      · rw [Function.update_of_ne e']; exact this

theorem StepsIn.last {P : Conf n μ S R → Prop} {c c' : Conf n μ S R} (h : StepsIn mode body P c c') : P c' := by
  cases h with
  | refl h => exact h
  | tail _ _ h => exact h

theorem StepsIn.steps {P : Conf n μ S R → Prop} {c c' : Conf n μ S R} (h : StepsIn mode body P c c') :
    Steps mode body c c' := by
  induction h with
  | refl _ => exact .refl
  | tail _ h2 _ ih => exact .tail ih h2

theorem SerialW.steps (hC : Calls mode body f0 A I) (hW : Wipe mode body f0 I w u V) (hAw : ¬ A w)
    {c c' : Conf n μ S R} (hs : StepsIn mode body (Solo mode w) c c')
    (h : SerialW mode f0 A I w V s0 calls c) : SerialW mode f0 A I w V s0 calls c' := by
  induction hs with
  | refl => exact h
  | tail h1 h2 h3 ih => exact ih.step hC hW hAw h2 h1.last h3

/-! ## The `Clear` of the package -/

variable {T : Type} [GoNum T]

/-- Some of the fields that `Clear` resets are reset, nothing else is changed. (Not for dense matrices, whose
`Clear` first takes the rows away.) -/
def Wiped : Mat T → Mat T → Prop
  | .csr s, .csr s' => s'.r = s.r ∧ s'.c = s.c ∧ (s'.values = s.values ∨ s'.values = []) ∧
      (s'.cols = s.cols ∨ s'.cols = []) ∧ (s'.rowStart = s.rowStart ∨ s'.rowStart = List.replicate (s.r + 1) 0)
  | .csc s, .csc s' => s'.r = s.r ∧ s'.c = s.c ∧ (s'.values = s.values ∨ s'.values = []) ∧
      (s'.rows = s.rows ∨ s'.rows = []) ∧ (s'.colStart = s.colStart ∨ s'.colStart = List.replicate (s.c + 1) 0)
  | .dvec s, .dvec s' => s'.l = s.l ∧ (s'.values = s.values ∨ s'.values = List.replicate s.l 0)
  | .svec s, .svec s' => s'.l = s.l ∧ (s'.values = s.values ∨ s'.values = []) ∧ (s'.indices = s.indices ∨ s'.indices = [])
  | _, _ => False

/-- From `s`, and whatever has been done in the sense of `rel` before each access, the call only does
things in the sense of `rel`, ends in `t` and returns `u`. -/
def Prog.Wipes (rel : S → S → Prop) (u : R) (t : S) : Prog S R → S → Prop
  | .done r, s => r = u ∧ s = t
  | .act f k, s => ∀ s', rel s s' → rel s' (f s') ∧ (k s').Wipes rel u t (f s')

theorem Prog.Wipes.later {rel : S → S → Prop} (ht : ∀ a b c, rel a b → rel b c → rel a c) {u : R} {t : S}
    (hf : ∀ a, rel t a → a = t) {p : Prog S R} {s s' : S} (h : p.Wipes rel u t s) (hr : rel s s') :
    p.Wipes rel u t s' := by
  cases p with
  | done r => exact ⟨h.1, by have := h.2; subst this; exact hf _ hr⟩
  | act f k => exact fun a ha => h a (ht _ _ _ hr ha)

theorem Prog.Wipes.result {rel : S → S → Prop} {u : R} {t : S} {p : Prog S R} {s : S} (hr : rel s s)
    (hr' : ∀ a b, rel a b → rel b b) (h : p.Wipes rel u t s) : p.run s = (u, t) := by
  induction p generalizing s with
  | done r => exact congrArg₂ _ h.1 h.2
  | act f k ih => exact ih s (hr' _ _ (h s hr).1) (h s hr).2

theorem clear_clear (s : Mat T) : s.clear.clear = s.clear := by
  cases s <;> simp [Mat.clear, CSR.clear, CSC.clear, Dense.clear, DVec.clear, SVec.clear]

theorem wiped_right (a b : Mat T) (h : Wiped a b) : Wiped b b := by
  cases a <;> cases b <;> simp_all [Wiped]

theorem wiped_left (a b : Mat T) (h : Wiped a b) : Wiped a a := by
  cases a <;> cases b <;> simp_all [Wiped]

theorem wiped_trans (a b c : Mat T) (h1 : Wiped a b) (h2 : Wiped b c) : Wiped a c := by
  cases a <;> cases b <;> cases c <;> simp only [Wiped] at * <;>
    first
    | (obtain ⟨a1, a2, a3, a4, a5⟩ := h1
       obtain ⟨b1, b2, b3, b4, b5⟩ := h2
       refine ⟨by omega, by omega, ?_, ?_, ?_⟩
       · rcases b3 with b3 | b3 <;> rcases a3 with a3 | a3 <;> simp [a3, b3]
       · rcases b4 with b4 | b4 <;> rcases a4 with a4 | a4 <;> simp [a4, b4]
       · rcases b5 with b5 | b5 <;> rcases a5 with a5 | a5 <;> simp [a5, b5, a1, a2])
    | (obtain ⟨a1, a3, a4⟩ := h1
       obtain ⟨b1, b3, b4⟩ := h2
       refine ⟨by omega, ?_, ?_⟩
       · rcases b3 with b3 | b3 <;> rcases a3 with a3 | a3 <;> simp [a3, b3]
       · rcases b4 with b4 | b4 <;> rcases a4 with a4 | a4 <;> simp [a4, b4])
    | (obtain ⟨a1, a3⟩ := h1
       obtain ⟨b1, b3⟩ := h2
       refine ⟨by omega, ?_⟩
       rcases b3 with b3 | b3 <;> rcases a3 with a3 | a3 <;> simp [a1, a3, b3])

theorem wiped_clear (s : Mat T) (h : Wiped s s) : Wiped s s.clear := by
  cases s <;> simp [Wiped, Mat.clear, CSR.clear, CSC.clear, DVec.clear, SVec.clear] at *

theorem wiped_same (a b : Mat T) (h : Wiped a b) : b.clear = a.clear := by
  cases a <;> cases b <;> simp only [Wiped] at h <;>
    first
    | (obtain ⟨h1, h2, -, -, -⟩ := h; simp [Mat.clear, CSR.clear, CSC.clear, h1, h2])
    | (obtain ⟨h1, -⟩ := h; simp [Mat.clear, DVec.clear, SVec.clear, h1])

theorem wiped_fixed (s a : Mat T) (h : Wiped s.clear a) : a = s.clear := by
  cases s with
  | csr s =>
    cases a with
    | csr a =>
      obtain ⟨h1, h2, h3, h4, h5⟩ := h
      simp only [CSR.clear, or_self] at h1 h2 h3 h4 h5
      cases a; simp_all [Mat.clear, CSR.clear]
    | _ => cases h
  | csc s =>
    cases a with
    | csc a =>
      obtain ⟨h1, h2, h3, h4, h5⟩ := h
      simp only [CSC.clear, or_self] at h1 h2 h3 h4 h5
      cases a; simp_all [Mat.clear, CSC.clear]
    | _ => cases h
  | dense s => cases h
  | dvec s =>
    cases a with
    | dvec a =>
      obtain ⟨h1, h2⟩ := h
      simp only [DVec.clear, or_self] at h1 h2
      cases a; simp_all [Mat.clear, DVec.clear]
    | _ => cases h
  | svec s =>
    cases a with
    | svec a =>
      obtain ⟨h1, h2, h3⟩ := h
      simp only [SVec.clear, or_self] at h1 h2 h3
      cases a; simp_all [Mat.clear, SVec.clear]
    | _ => cases h

theorem atomic_wipes (gas : Nat) (s : Mat T) :
    (Method.clear.atomic gas).Wipes Wiped (.ok .unit) s.clear s :=
  fun a ha => ⟨wiped_clear a (wiped_right _ _ ha), rfl, wiped_same _ _ ha⟩

theorem clearing_wipes (gas : Nat) (s : Mat T) (h : Wiped s s) :
    (Method.clearing gas).Wipes Wiped (.ok .unit) s.clear s := by
  intro s' h
  refine ⟨wiped_right _ _ h, ?_⟩
  dsimp only [id]
  cases s with
  | csr s =>
    cases s' with
    | csr s' =>
      intro a ha
      cases a with
      | csr a =>
        refine ⟨by simp [Wiped], fun b hb => ?_⟩
        cases b with
        | csr b =>
          refine ⟨by simp [Wiped], fun c hc => ?_⟩
          cases c with
          | csr c =>
            refine ⟨by simp [Wiped], rfl, ?_⟩
            simp only [Wiped] at h ha hb hc
            simp only [or_self] at hb hc
            cases c
            simp_all [Mat.clear, CSR.clear]
          | _ => cases hc
        | _ => cases hb
      | _ => cases ha
    | _ => cases h
  | csc s =>
    cases s' with
    | csc s' =>
      intro a ha
      cases a with
      | csc a =>
        refine ⟨by simp [Wiped], fun b hb => ?_⟩
        cases b with
        | csc b =>
          refine ⟨by simp [Wiped], fun c hc => ?_⟩
          cases c with
          | csc c =>
            refine ⟨by simp [Wiped], rfl, ?_⟩
            simp only [Wiped] at h ha hb hc
            simp only [or_self] at hb hc
            cases c
            simp_all [Mat.clear, CSC.clear]
          | _ => cases hc
        | _ => cases hb
      | _ => cases ha
    | _ => cases h
  | dense s => cases s' <;> cases h
  | dvec s =>
    cases s' with
    | dvec s' => exact fun a ha => ⟨wiped_clear a (wiped_right _ _ ha), rfl,
        (wiped_same _ _ ha).trans (wiped_same _ _ h)⟩
    | _ => cases h
  | svec s =>
    cases s' with
    | svec s' =>
      intro a ha
      cases a with
      | svec a =>
        refine ⟨by simp [Wiped], fun b hb => ?_⟩
        cases b with
        | svec b =>
          refine ⟨by simp [Wiped], rfl, ?_⟩
          simp only [Wiped] at h ha hb
          simp only [or_self] at hb
          cases b
          simp_all [Mat.clear, SVec.clear]
        | _ => cases hb
      | _ => cases ha
    | _ => cases h

/-! ### Dense matrices -/

/-- What a call of `Clear` on a dense matrix may have left to do. -/
inductive WipeD (gas : Nat) (s : Dense T) : Prog (Mat T) (Out (Val T)) → Prop
  | one : WipeD gas s (Method.clear.atomic gas)
  | call : WipeD gas s (Method.clearing gas)
  | reset : WipeD gas s (clearProgD s.r)
  | fill (n i : Nat) : s.data.length = s.r → i + n = s.r → WipeD gas s (fillProgD n i)

theorem fillProgD_run (n i : Nat) (s : Dense T) (hl : s.data.length = i + n) :
    (fillProgD n i).run (.dense s) =
      (.ok .unit, .dense { s with data := s.data.take i ++ List.replicate n (List.replicate s.c 0) }) := by
  induction n generalizing i s with
  | zero => simp only [fillProgD, Prog.run, List.replicate_zero, List.append_nil]
            rw [List.take_of_length_le (by omega)]
  | succ n ih =>
    have hi : i < s.data.length := by omega
    simp only [fillProgD, wrDense, Prog.run, setIdx_ok hi, Out.ok_bind]
    rw [ih (i + 1) _ (by simp; omega)]
    congr 3
    rw [List.replicate_succ, List.append_cons, List.take_add_one, List.take_set_of_le (Nat.le_refl i)]
    simp [hi]

theorem clearProgD_run (s : Dense T) : (clearProgD s.r).run (.dense s) = (.ok .unit, .dense s.clear) := by
  refine (fillProgD_run s.r 0 { s with data := List.replicate s.r [] } (by simp)).trans ?_
  simp [Dense.clear]

theorem WipeD.run_ok {gas : Nat} {s : Dense T} {p : Prog (Mat T) (Out (Val T))} (h : WipeD gas s p) :
    (p.run (.dense s)).1 = .ok .unit := by
  cases h with
  | one => rfl
  | call => exact congrArg (·.1) (clearProgD_run s)
  | reset => exact congrArg (·.1) (clearProgD_run s)
  | fill n i hl hi => rw [fillProgD_run n i s (by omega)]

/-- What one access does: it takes the rows away and then the same call will restore them all, or resets
one row, or nothing. -/
structure StepD (gas : Nat) (s s' : Dense T) (f : Mat T → Mat T) (k : Mat T → Prog (Mat T) (Out (Val T))) : Prop where
  state : f (.dense s) = .dense s'
  rows : s'.r = s.r
  cols : s'.c = s.c
  len : s.data.length = s.r → s'.data.length = s.r
  next : WipeD gas s' (k (.dense s))
  how : ((k (.dense s)).run (.dense s')).2 = .dense s.clear ∨ s' = s ∨
    ∃ j, s'.data = s.data.set j (List.replicate s.c 0)

theorem WipeD.step {gas : Nat} {s : Dense T} {p : Prog (Mat T) (Out (Val T))} (h : WipeD gas s p)
    {f : Mat T → Mat T} {k : Mat T → Prog (Mat T) (Out (Val T))} (hp : p = .act f k) : ∃ s', StepD gas s s' f k := by
  cases h with
  | one =>
    injection hp with h1 h2
    subst h1; subst h2
    exact ⟨s.clear, rfl, rfl, rfl, fun _ => by simp [Dense.clear],
      .fill 0 s.r (by simp [Dense.clear]) rfl, .inl rfl⟩
  | call =>
    injection hp with h1 h2
    subst h1; subst h2
    exact ⟨s, rfl, rfl, rfl, id, .reset, .inr (.inl rfl)⟩
  | reset =>
    injection hp with h1 h2
    subst h1; subst h2
    exact ⟨{ s with data := List.replicate s.r [] }, rfl, rfl, rfl, fun _ => by simp,
      .fill s.r 0 (by simp) (by simp), .inl (congrArg (·.2) (clearProgD_run s))⟩
  | fill n i hl hi =>
    cases n with
    | zero => cases hp
    | succ n =>
      injection hp with h1 h2
      subst h1; subst h2
      have hlt : i < s.data.length := by omega
      refine ⟨{ s with data := s.data.set i (List.replicate s.c 0) }, ?_, rfl, rfl, fun _ => by simp [hl], ?_,
        .inr (.inr ⟨i, rfl⟩)⟩
      · simp only [setIdx_ok hlt, Out.ok_bind]
      · simp only [setIdx_ok hlt, Out.ok_bind]
        exact .fill n (i + 1) (by simp [hl]) (by dsimp only; omega)

theorem WipeD.stay {gas : Nat} {s s' : Dense T} {q : Prog (Mat T) (Out (Val T))} (hr : s'.r = s.r)
    (hl : s.data.length = s.r → s'.data.length = s.r) (h : WipeD gas s q) : WipeD gas s' q := by
  cases h with
  | one => exact .one
  | call => exact .call
  | reset => rw [← hr]; exact .reset
  | fill n i h1 h2 => exact .fill n i ((hl h1).trans hr.symm) (h2.trans hr.symm)

theorem WipeD.covers {gas : Nat} {s s' : Dense T} {q : Prog (Mat T) (Out (Val T))} (hr : s'.r = s.r) (hc : s'.c = s.c)
    (h : WipeD gas s q) (hs : s' = s ∨ ∃ j, s'.data = s.data.set j (List.replicate s.c 0))
    (hq : (q.run (.dense s)).2 = .dense s.clear) : (q.run (.dense s')).2 = .dense s.clear := by
  have he : s'.clear = s.clear := by simp [Dense.clear, hr, hc]
  cases h with
  | one => exact congrArg Mat.dense he
  | call => exact (congrArg (·.2) (clearProgD_run s')).trans (congrArg Mat.dense he)
  | reset => rw [← hr]; exact (congrArg (·.2) (clearProgD_run s')).trans (congrArg Mat.dense he)
  | fill n i h1 h2 =>
    rcases hs with rfl | ⟨j, hj⟩
    · exact hq
    · rw [fillProgD_run n i s (by omega)] at hq
      rw [fillProgD_run n i s' (by rw [hj]; simp; omega), ← hq]
      rw [hr, hc, hj]
      congr 3
      have : s.data.take i = List.replicate i (List.replicate s.c 0) := by
        simp only [Dense.clear, Mat.dense.injEq, Dense.mk.injEq, true_and] at hq
        rw [← h2, List.replicate_add] at hq
        exact List.append_inj_left hq (by simp; omega)
      rw [List.take_set, this]
      congr 2
      refine List.ext_getElem (List.length_set ..) fun x h1 h2 => ?_
      simp [List.getElem_set]

/-! ### All formats -/

/-- What a call of `Clear` may have left to do in state `s`, on the way to `t`. -/
def Left (gas : Nat) (t : Mat T) : Mat T → Prog (Mat T) (Out (Val T)) → Prop
  | .dense s, p => t = .dense s.clear ∧ WipeD gas s p
  | s, p => t = s.clear ∧ p.Wipes Wiped (.ok .unit) t s

theorem left_of {gas : Nat} {t s : Mat T} (h : Wiped s s) {p : Prog (Mat T) (Out (Val T))} :
    Left gas t s p ↔ t = s.clear ∧ p.Wipes Wiped (.ok .unit) t s := by
  cases s <;> first | exact Iff.rfl | cases h

theorem wiped_or (s : Mat T) : Wiped s s ∨ ∃ d, s = .dense d := by
  cases s <;> simp [Wiped]

theorem Left.same {gas : Nat} {t s : Mat T} {p : Prog (Mat T) (Out (Val T))} (h : Left gas t s p) : s.clear = t := by
  rcases wiped_or s with hs | ⟨d, rfl⟩
  · exact ((left_of hs).1 h).1.symm
  · exact h.1.symm

/-- One access, seen by the call itself and by the others. -/
theorem Left.step {gas : Nat} {t s : Mat T} {f : Mat T → Mat T} {k : Mat T → Prog (Mat T) (Out (Val T))}
    (h : Left gas t s (.act f k)) : Left gas t (f s) (k s) ∧ ∀ q, Left gas t s q → Left gas t (f s) q ∧
      ((q.run s).2 = t → (q.run (f s)).2 = t ∨ ((k s).run (f s)).2 = t) := by
  rcases wiped_or s with hs | ⟨d, rfl⟩
  · obtain ⟨h1, h2⟩ := (left_of hs).1 h
    obtain ⟨h3, h4⟩ := h2 s hs
    have h5 := wiped_right _ _ h3
    have h6 : t = (f s).clear := h1.trans (wiped_same _ _ h3).symm
    have hfix : ∀ a, Wiped t a → a = t := by rw [h1]; exact wiped_fixed s
    refine ⟨(left_of h5).2 ⟨h6, h4⟩, fun q hq => ?_⟩
    obtain ⟨-, h7⟩ := (left_of hs).1 hq
    have h8 := h7.later wiped_trans hfix h3
    exact ⟨(left_of h5).2 ⟨h6, h8⟩, fun _ => .inl (congrArg (·.2) (h8.result h5 wiped_right))⟩
  · obtain ⟨h1, h2⟩ := h
    obtain ⟨s', h3⟩ := h2.step rfl
    have he : s'.clear = d.clear := by simp [Dense.clear, h3.rows, h3.cols]
    rw [h3.state]
    refine ⟨⟨by rw [he]; exact h1, h3.next⟩, fun q hq => ⟨⟨by rw [he]; exact h1, hq.2.stay h3.rows h3.len⟩, ?_⟩⟩
    rw [h1]
    intro hc
    rcases h3.how with h4 | h4
    · exact .inr h4
    · exact .inl (hq.2.covers h3.rows h3.cols h4 hc)

theorem Left.res {gas : Nat} {t s : Mat T} {p : Prog (Mat T) (Out (Val T))} (h : Left gas t s p) :
    (p.run s).1 = .ok .unit := by
  rcases wiped_or s with hs | ⟨d, rfl⟩
  · exact congrArg (·.1) (((left_of hs).1 h).2.result hs wiped_right)
  · exact h.2.run_ok

theorem Left.fix {gas : Nat} {t : Mat T} {p : Prog (Mat T) (Out (Val T))} (h : Left gas t t p) : (p.run t).2 = t := by
  rcases wiped_or t with hs | ⟨d, rfl⟩
  · exact congrArg (·.2) (((left_of hs).1 h).2.result hs wiped_right)
  · obtain ⟨h1, h2⟩ := h
    injection h1 with h1
    cases h2 with
    | one => exact congrArg Mat.dense h1.symm
    | call => exact (congrArg (·.2) (clearProgD_run d)).trans (congrArg Mat.dense h1.symm)
    | reset => exact (congrArg (·.2) (clearProgD_run d)).trans (congrArg Mat.dense h1.symm)
    | fill n i h2 h3 =>
      rw [fillProgD_run n i d (by omega)]
      have : d.data = List.replicate d.r (List.replicate d.c 0) := by
        have := congrArg Dense.data h1
        exact this
      dsimp only
      rw [this, List.take_replicate, ← List.replicate_add, Nat.min_eq_left (by omega), h3, ← this]

theorem clear_wipe {gas : Nat} {body : Method T → Prog (Mat T) (Out (Val T))}
    (hb : body = Method.atomic gas ∨ body = Method.fine gas) :
    Wipe Method.mode body (Method.alone gas) Reach .clear (.ok .unit) (Left gas) where
  mode := rfl
  start := fun s => by
    have h1 : Left gas s.clear s (body .clear) := by
      rcases wiped_or s with hs | ⟨d, rfl⟩
      · rw [left_of hs]
        refine ⟨rfl, ?_⟩
        rcases hb with rfl | rfl
        · exact atomic_wipes gas s
        · exact clearing_wipes gas s hs
      · refine ⟨rfl, ?_⟩
        rcases hb with rfl | rfl
        · exact .one
        · exact .call
    exact h1
  runs := fun s => by
    rcases hb with rfl | rfl
    · rfl
    · rcases wiped_or s with hs | ⟨d, rfl⟩
      · exact congrArg (·.2) ((clearing_wipes gas s hs).result hs wiped_right)
      · exact congrArg (·.2) (clearProgD_run d)
  act := fun h => h.step.1
  stay := fun h hq => (h.step.2 _ hq).1
  res := Left.res
  same := Left.same
  covers := fun h hq => (h.step.2 _ hq).2
  fix := Left.fix
  ret := fun _ => rfl
  idem := clear_clear
  keep := fun s hs => .call .clear hs rfl

end Mutex
end GB
