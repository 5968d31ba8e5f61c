import Verif.Lemmas.Race2

/-!
# Goroutines that do not change the state
-/

namespace GB
namespace Mutex

set_option linter.unusedSectionVars false

section
variable {n : Nat} {μ S R : Type} {mode : μ → Mode} {body : μ → Prog S R} {s0 : S} {calls : Fin n → List μ}

/-- The call a goroutine is in. -/
def Phase.now : Phase μ S R → List μ
  | .idle => []
  | .waiting m => [m]
  | .inside m _ => [m]

/-- The state is as it was, the calls are made in the order of the program, and `P` holds of what is left of each, `Q` of each result. -/
structure Still (s0 : S) (calls : Fin n → List μ) (P : μ → Prog S R → Prop) (Q : μ → R → Prop) (c : Conf n μ S R) : Prop where
  mat : c.mat = s0
  prog : ∀ i, (c.thr i).res.map Prod.fst ++ (c.thr i).phase.now ++ (c.thr i).todo = calls i
  left : ∀ i m p, (c.thr i).phase = .inside m p → P m p
  got : ∀ i, ∀ x ∈ (c.thr i).res, Q x.1 x.2

theorem Still.steps {P : μ → Prog S R → Prop} {Q : μ → R → Prop} (h0 : ∀ i, ∀ m ∈ calls i, P m (body m))
    (h1 : ∀ m f k, P m (.act f k) → f s0 = s0 ∧ P m (k s0)) (h2 : ∀ m r, P m (.done r) → Q m r)
    {c : Conf n μ S R} (h : Steps mode body (Conf.init s0 calls) c) : Still s0 calls P Q c := by
  generalize hc0 : (Conf.init s0 calls : Conf n μ S R) = c0 at h
  induction h with
  | refl =>
    subst hc0
    exact ⟨rfl, fun i => by simp [Conf.init, Phase.now], fun i m p h => by simp [Conf.init] at h,
      fun i x h => by simp [Conf.init] at h⟩
  | @tail d e hd hs ih =>
    obtain ⟨i1, i2, i3, i4⟩ := ih
    have upd : ∀ (i : Fin n) (t : Thread μ S R) (x : Conf n μ S R), x.mat = s0 → x.thr = Function.update d.thr i t →
        t.res.map Prod.fst ++ t.phase.now ++ t.todo = calls i → (∀ m p, t.phase = .inside m p → P m p) →
        (∀ x ∈ t.res, Q x.1 x.2) → Still s0 calls P Q x := by
      intro i t x e0 e1 g1 g2 g3
      refine ⟨e0, fun j => ?_, fun j => ?_, fun j => ?_⟩ <;> rw [e1] <;> by_cases e : j = i
      · subst e; rw [Function.update_self]; exact g1
      · rw [Function.update_of_ne e]; exact i2 j
      · subst e; rw [Function.update_self]; exact g2
      · rw [Function.update_of_ne e]; exact i3 j
      · subst e; rw [Function.update_self]; exact g3
      · rw [Function.update_of_ne e]; exact i4 j
    have mem : ∀ {i m rest res ph}, d.thr i = ⟨m :: rest, ph, res⟩ → m ∈ calls i := by
      intro i m rest res ph he
      rw [← i2 i, he]; simp
    cases hs with
    | @announce i m rest res he _ _ =>
      have p2 := i2 i; have p4 := i4 i; rw [he] at p2 p4
      exact upd i _ _ i1 rfl (by simpa [Phase.now] using p2) (fun x p hx => by cases hx) p4
    | @lock i m rest res he _ =>
      have p2 := i2 i; have p4 := i4 i; rw [he] at p2 p4
      refine upd i _ _ i1 rfl (by simpa [Phase.now] using p2) (fun x p hx => ?_) p4
      cases hx
      exact h0 i m (by rw [← p2]; simp [Phase.now])
    | @rlock i m rest res he _ _ =>
      have p2 := i2 i; have p4 := i4 i; rw [he] at p2 p4
      refine upd i _ _ i1 rfl (by simpa [Phase.now] using p2) (fun x p hx => ?_) p4
      cases hx
      exact h0 i m (mem he)
    | @enter i m rest res he _ =>
      have p2 := i2 i; have p4 := i4 i; rw [he] at p2 p4
      refine upd i _ _ i1 rfl (by simpa [Phase.now] using p2) (fun x p hx => ?_) p4
      cases hx
      exact h0 i m (mem he)
    | @act i m rest res f k he =>
      have p2 := i2 i; have p3 := i3 i; have p4 := i4 i; rw [he] at p2 p3 p4
      obtain ⟨q1, q2⟩ := h1 m f k (p3 _ _ rfl)
      refine upd i _ _ (by rw [i1]; exact q1) rfl p2 (fun x p hx => ?_) p4
      cases hx
      rw [i1]; exact q2
    | @leave i m rest res r he =>
      have p2 := i2 i; have p3 := i3 i; have p4 := i4 i; rw [he] at p2 p3 p4
      refine upd i ⟨rest, .idle, res ++ [(m, r)]⟩ _ ?_ ?_ (by simpa [Phase.now] using p2) (fun x p hx => by cases hx) (fun x hx => ?_)
      · show (d.release (mode m)).mat = s0
        cases mode m <;> exact i1
      · show Function.update (d.release (mode m)).thr i _ = _
        cases mode m <;> rfl
      · rcases List.mem_append.1 hx with hx | hx
        · exact p4 x hx
        · rw [List.mem_singleton] at hx; subst hx
          exact h2 m r (p3 _ _ rfl)

end

variable {T : Type} [GoNum T]

/-- What is left of a call that reads. -/
structure Reading (gas : Nat) (s0 : Mat T) (D : Prop) (m : Method T) (p : Prog (Mat T) (Out (Val T))) : Prop where
  quiet : p.Quiet s0
  run : (p.run s0).1 = (m.alone gas s0).1
  fits : D → ∀ y ∈ p.trace s0, Fits s0 m y

theorem Reading.act {gas : Nat} {s0 : Mat T} {D : Prop} {m : Method T} {f : Mat T → Mat T} {k : Mat T → Prog (Mat T) (Out (Val T))}
    (h : Reading gas s0 D m (.act f k)) : f s0 = s0 ∧ Reading gas s0 D m (k s0) := by
  obtain ⟨⟨h1, h2⟩, h3, h4⟩ := h
  refine ⟨h1, h2, ?_, fun hD y hy => h4 hD y (List.mem_cons_of_mem _ hy)⟩
  rw [← h3]
  show _ = ((k s0).run (f s0)).1
  rw [h1]

theorem silent_quiet {S R : Type} : ∀ {p : Prog S R} (s : S), p.Silent → p.Quiet s
  | .done _, _, _ => trivial
  | .act _ _, s, h => ⟨h.1 s, silent_quiet s (h.2 s)⟩

variable [GoStore T]

theorem reading_fine {gas : Nat} {s0 : Mat T} (hs : Reach s0) {D : Prop} {m : Method T} (hk : D → m.Direct ∧ s0.kind ≠ .svec)
    (hm : m.Sound) (hw : m.mode ≠ .write) : Reading gas s0 D m (m.fine gas) := by
  have h := fine_splits (T := T) gas
  refine ⟨?_, by rw [h.run m hm s0 hs], fun hD => fine_fits gas (hk hD).1 hw hs (hk hD).2⟩
  cases e : m.mode with
  | write => exact absurd e hw
  | read => exact h.quiet m hm e s0 hs
  | free => exact silent_quiet s0 (h.silent m hm e)

end Mutex
end GB
