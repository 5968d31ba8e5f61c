import Verif.Lemmas.Race
import Verif.Props.Dims

/-!
# Which accesses of a `MutexMatrix` can come together
-/

namespace GB
namespace Mutex

set_option linter.unusedSectionVars false

variable {T : Type} [GoNum T]

/-- Place `p` of `values` is the one of the cell `(r, c)` of a compressed matrix, and the cell is not 0. -/
def Holds (m : Mat T) (r c : Int) (p : Nat) : Prop :=
  match m with
  | .csr s => CellAt s r c p
  | .csc s => CellAt (CSC.mir s) c r p
  | _ => False

theorem val_mir (s : CSC T) (i j : Nat) : (Mat.csr (CSC.mir s)).val j i = (Mat.csc s).val i j := by
  simp only [Mat.val, Mat.at', CSC.at_eq]
  cases (CSC.mir s).at' j i <;> rfl

theorem Holds.spec {m : Mat T} {r c : Int} {p : Nat} (h : Holds m r c p) :
    (m.kind = .csr ∨ m.kind = .csc) ∧ m.Valid r c ∧ isZero (m.val r.toNat c.toNat) = false := by
  cases m with
  | csr s => exact ⟨.inl rfl, ⟨(inRange_iff.1 h.row).1, (inRange_iff.1 h.row).2, inRange_iff.1 h.col⟩, h.nz⟩
  | csc s =>
    refine ⟨.inr rfl, ⟨(inRange_iff.1 h.col).1, (inRange_iff.1 h.col).2, inRange_iff.1 h.row⟩, ?_⟩
    rw [← val_mir]; exact h.nz
  | _ => exact h.elim

theorem Holds.unique [GoStore T] {m : Mat T} (hm : Reach m) {r c r' c' : Int} {p : Nat} (h1 : Holds m r c p)
    (h2 : Holds m r' c' p) : r = r' ∧ c = c' := by
  cases m with
  | csr s =>
    obtain ⟨rows, h⟩ := hm.wf (by simp [Mat.kind])
    exact CellAt.unique h h1 h2
  | csc s =>
    obtain ⟨rows, h⟩ := hm.wf (by simp [Mat.kind])
    exact (CellAt.unique (s := CSC.mir s) h h1 h2).symm
  | _ => exact h1.elim

theorem conj_trace {R : Type} (p : Prog (Mat T) R) (s : Mat T) :
    p.conj.trace s = (p.trace (swap s)).map (fun y => (fun s => swap (y.1 (swap s)), fun s => (y.2 (swap s)).conj)) := by
  induction p generalizing s with
  | done r => rfl
  | act f k ih => simp only [Prog.conj, Prog.trace, List.map_cons, ih]

/-- What an access of the call `m` may do to the matrix `s`. -/
def Fits (s : Mat T) (m : Method T) (y : (Mat T → Mat T) × (Mat T → Prog (Mat T) (Out (Val T)))) : Prop :=
  (s.kind = .csr ∨ s.kind = .csc → ∀ r c, m.Looks r c → Mild s (Holds s r c) y) ∧
  (¬ (s.kind = .csr ∨ s.kind = .csc) ∨ (∀ r c, ¬ m.Looks r c) → ∀ l, ¬ Puts s y.1 l)

theorem byFormat_mild {gas : Nat} {m : Method T} {s : Mat T} {p q : Prog (Mat T) (Out (Val T))} {P : Nat → Prop} {f0 k0}
    (e : m.byFormat gas p q = .act f0 k0) : Mild s P (f0, k0) ∧ ∀ l, ¬ Puts s f0 l := by
  cases e
  have h0 : ∀ l, ¬ Puts s id l := fun l => puts_id fun _ _ => rfl
  refine ⟨⟨fun l hl => absurd hl (h0 l), fun x hx => absurd hx (takes_id (fun _ _ => rfl) ?_)⟩, h0⟩
  intro t t' h1 h2 _
  have hh := h1.1.trans h2.1.symm
  cases t <;> cases t' <;> simp only [Mat.kind, reduceCtorEq] at hh <;> rfl

section
variable [GoStore T]

/-- The accesses of `At` and `Element`. -/
theorem updating_trace {β : Type} {gas : Nat} {m : Method T} {s : Mat T} (hs : Reach s)
    {r c : Int} {f : T → β × T} (hf : ∀ v, (f v).2 = v) (val : β → Val T) (hm : m.Looks r c)
    (ha : ∀ t : Mat T, t.kind = .dense ∨ t.kind = .dvec → (m.alone gas t).2 = t) (hk : s.kind ≠ .svec) :
    ∀ y ∈ (m.updating gas r c f val).trace s, Fits s m y := by
  have uniq : ∀ r' c', m.Looks r' c' → r' = r ∧ c' = c := by
    intro r' c' h
    rcases hm with rfl | rfl <;> rcases h with h | h <;> cases h <;> exact ⟨rfl, rfl⟩
  have hcons : (m.updating gas r c f val).trace s = (id, _) :: _ := rfl
  obtain ⟨f0, k0, e0⟩ : ∃ f0 k0, m.updating gas r c f val = .act f0 k0 := ⟨_, _, rfl⟩
  have hfirst : Fits s m (f0, k0) := ⟨fun _ _ _ _ => (byFormat_mild e0).1, fun _ => (byFormat_mild (P := fun _ => False) e0).2⟩
  have htr : (m.updating gas r c f val).trace s = (f0, k0) :: (k0 s).trace s := by rw [e0]; rfl
  rw [htr]
  refine List.forall_mem_cons.2 ⟨hfirst, ?_⟩
  cases e0
  cases s with
  | csr s =>
    obtain ⟨rows, h⟩ := hs.wf (by simp [Mat.kind])
    intro y hy
    refine ⟨fun _ r' c' h' => ?_, fun h' => ?_⟩
    · obtain ⟨rfl, rfl⟩ := uniq r' c' h'
      exact (updateProg_trace h hf val).1 y hy
    · rcases h' with h' | h'
      · exact absurd (.inl rfl) h'
      · exact absurd hm (h' r c)
  | csc s =>
    obtain ⟨rows, h⟩ := hs.wf (by simp [Mat.kind])
    intro y hy
    refine ⟨fun _ r' c' h' => ?_, fun h' => ?_⟩
    · obtain ⟨rfl, rfl⟩ := uniq r' c' h'
      dsimp only at hy
      rw [updateProg_conj, conj_trace] at hy
      obtain ⟨⟨f1, k1⟩, hy', rfl⟩ := List.mem_map.1 hy
      exact Mild.conj (m := .csc s) ((updateProg_trace (s := CSC.mir s) h hf val).1 _ hy')
    · rcases h' with h' | h'
      · exact absurd (.inr rfl) h'
      · exact absurd hm (h' r c)
  | svec s => exact absurd rfl hk
  | dense s =>
    intro y hy
    simp only [Method.atomic, Prog.trace, List.mem_singleton] at hy
    subst hy
    refine ⟨fun h' => by simp [Mat.kind] at h', fun _ l => puts_id fun t ht => ha t (.inl ht.1)⟩
  | dvec s =>
    intro y hy
    simp only [Method.atomic, Prog.trace, List.mem_singleton] at hy
    subst hy
    refine ⟨fun h' => by simp [Mat.kind] at h', fun _ l => puts_id fun t ht => ha t (.inr ht.1)⟩

theorem fine_trace (gas : Nat) {m : Method T} (hD : m.Direct) (hr : m.mode = .read) {s : Mat T} (hs : Reach s)
    (hk : s.kind ≠ .svec) : ∀ y ∈ (m.fine gas).trace s, Fits s m y := by
  have h3 : ∀ {α : Type} (t : Mat T) (val : α → Val T) (x : Out α),
      (effect t val (do let v ← x; .ok (v, t))).2 = t := by
    intro α t val x; cases x <;> rfl
  have other : (∀ r c, ¬ m.Looks r c) → (∀ t, (m.alone gas t).2 = t) → ∀ y ∈ (m.atomic gas).trace s, Fits s m y := by
    intro h1 h2 y hy
    simp only [Method.atomic, Prog.trace, List.mem_singleton] at hy
    subst hy
    exact ⟨fun _ r c h => absurd h (h1 r c), fun _ l => puts_id fun t _ => h2 t⟩
  cases m <;> simp only [Method.mode, reduceCtorEq, Method.Direct] at hr hD
  case at' r c =>
    refine updating_trace hs (fun _ => rfl) _ (.inl rfl) (fun t ht => ?_) hk
    cases t <;> simp only [Mat.kind, reduceCtorEq, or_self, or_true, or_false] at ht
    · exact h3 _ _ _
    · exact h3 _ _ _
  case element r c =>
    refine updating_trace hs (fun _ => rfl) _ (.inr rfl) (fun t ht => ?_) hk
    cases t <;> simp only [Mat.kind, reduceCtorEq, or_self, or_true, or_false] at ht
    · exact h3 _ _ _
    · exact h3 _ _ _
  case columnsAt c => exact other (by intro r c h; rcases h with h | h <;> cases h) (fun t => h3 _ _ _)
  case rowsAt c => exact other (by intro r c h; rcases h with h | h <;> cases h) (fun t => h3 _ _ _)
  case rowsAtToArray c => exact other (by intro r c h; rcases h with h | h <;> cases h) (fun t => h3 _ _ _)
  case copy => exact other (by intro r c h; rcases h with h | h <;> cases h) (fun t => h3 _ _ _)

/-- The access touches nothing. -/
def NoTouch (f : Mat T → Mat T) (k : Mat T → Prog (Mat T) (Out (Val T))) : Prop :=
  ∀ m l, ¬ Puts m f l ∧ ¬ Takes m f k l

theorem fine_free (gas : Nat) {m : Method T} (hD : m.Direct) (hr : m.mode = .free) : (m.fine gas).All NoTouch := by
  have key : ∀ g : Mat T → Val T, (∀ s s', Mat.Same s s' → g s = g s') → NoTouch id (fun s => .done (.ok (g s))) := by
    intro g hg m l
    refine ⟨puts_id fun _ _ => rfl, takes_id (fun _ _ => rfl) fun s s' h1 h2 _ => ?_⟩
    rw [hg s m h1, hg s' m h2]
  cases m <;> simp only [Method.mode, reduceCtorEq, Method.Direct] at hr hD
  · exact ⟨key (fun s => .nat s.cols) (fun s s' h => by rw [h.2.2]), fun _ => trivial⟩
  · exact ⟨key (fun s => .nat s.rows) (fun s s' h => by rw [h.2.1]), fun _ => trivial⟩
  · refine ⟨key (fun s => .int s.size) (fun s s' h => ?_), fun _ => trivial⟩
    obtain ⟨h1, h2, h3⟩ := h
    cases s <;> cases s' <;> simp only [Mat.kind, reduceCtorEq] at h1 <;>
      simp only [Mat.rows, Mat.cols] at h2 h3 <;> simp [Mat.size, h2, h3]

/-- The accesses of a call that does not change the matrix. -/
theorem fine_fits (gas : Nat) {m : Method T} (hD : m.Direct) (hr : m.mode ≠ .write) {s : Mat T} (hs : Reach s)
    (hk : s.kind ≠ .svec) : ∀ y ∈ (m.fine gas).trace s, Fits s m y := by
  cases h : m.mode with
  | write => exact absurd h hr
  | read => exact fine_trace gas hD h hs hk
  | free =>
    have := fine_free gas hD h
    have hl : ∀ r c, ¬ m.Looks r c := by
      intro r c hl
      rcases hl with rfl | rfl <;> cases h
    cases m <;> simp only [Method.mode, reduceCtorEq, Method.Direct] at h hD <;>
    · intro y hy
      simp only [Method.fine, Method.atomic, Prog.trace, List.mem_singleton] at hy
      subst hy
      exact ⟨fun _ r c h' => absurd h' (hl r c), fun _ l => (this.1 s l).1⟩

/-- What is known of the goroutines. -/
structure Watched {n : Nat} (c : Conf n (Method T) (Mat T) (Out (Val T))) : Prop where
  reads : ∀ i m p, (c.thr i).phase = .inside m p → m.mode = .read → ∀ y ∈ p.trace c.mat, Fits c.mat m y
  free : ∀ i m p, (c.thr i).phase = .inside m p → m.mode = .free → p.All NoTouch

theorem Watched.step {n gas : Nat} {s0 : Mat T} {calls : Fin n → List (Method T)}
    {c c' : Conf n (Method T) (Mat T) (Out (Val T))}
    (hS : Serial Method.mode (Method.alone gas) Method.Direct Reach s0 calls c) (hk : c.mat.kind ≠ .svec)
    (h : Watched c) (hs : Step Method.mode (Method.fine gas) c c') : Watched c' := by
  obtain ⟨h1, h2⟩ := h
  -- only the phase of `i` changes, to one that is in order
  have upd : ∀ (i : Fin n) (t : Thread (Method T) (Mat T) (Out (Val T))) (d : Conf n (Method T) (Mat T) (Out (Val T))),
      d.mat = c.mat → d.thr = Function.update c.thr i t →
      (∀ m p, t.phase = .inside m p → m.mode = .read → ∀ y ∈ p.trace c.mat, Fits c.mat m y) →
      (∀ m p, t.phase = .inside m p → m.mode = .free → p.All NoTouch) → Watched d := by
    intro i t d e1 e2 g1 g2
    refine ⟨fun j m p hj => ?_, fun j m p hj => ?_⟩
    · rw [e2] at hj
      rw [e1]
      by_cases e : j = i
      · subst e; rw [Function.update_self] at hj; exact g1 m p hj
      · rw [Function.update_of_ne e] at hj; exact h1 j m p hj
    · rw [e2] at hj
      by_cases e : j = i
      · subst e; rw [Function.update_self] at hj; exact g2 m p hj
      · rw [Function.update_of_ne e] at hj; exact h2 j m p hj
  cases hs with
  | announce i _ _ _ =>
    exact upd i _ _ rfl rfl (fun m p h => by cases h) (fun m p h => by cases h)
  | @lock i m rest res e _ =>
    have hm := hS.lock.waits i m (by rw [e])
    refine upd i _ _ rfl rfl (fun m p h hr => ?_) (fun m p h hr => ?_) <;> cases h <;> rw [hm] at hr <;> cases hr
  | @rlock i m rest res e hm hp =>
    have hD := (hS.good i).1 m (by rw [e]; exact List.mem_cons_self)
    have hmat := hS.still (hS.lock.no_writer hp)
    refine upd i _ _ rfl rfl (fun m p h hr => ?_) (fun m p h hr => ?_)
    · cases h
      exact fine_trace gas hD hm (by rw [hmat]; exact hS.inv) hk
    · cases h
      rw [hm] at hr; cases hr
  | @enter i m rest res e hm =>
    have hD := (hS.good i).1 m (by rw [e]; exact List.mem_cons_self)
    refine upd i _ _ rfl rfl (fun m p h hr => ?_) (fun m p h hr => ?_)
    · cases h
      rw [hm] at hr; cases hr
    · cases h
      exact fine_free gas hD hm
  | @act i m rest res f k e =>
    have hphase : (c.thr i).phase = .inside m (.act f k) := by rw [e]
    by_cases hm : m.mode = .write
    · have hother : ∀ j m' p, j ≠ i → (c.thr j).phase = .inside m' p → m'.mode = .free :=
        fun j m' p hne hj => hS.lock.alone ⟨_, hphase⟩ hm ⟨p, hj⟩ hne
      refine ⟨fun j m' p hj hr => ?_, fun j m' p hj hr => ?_⟩ <;> dsimp only [Conf.put] at hj ⊢
      · by_cases e' : j = i
        · subst e'; rw [Function.update_self] at hj; cases hj; rw [hm] at hr; cases hr
        · rw [Function.update_of_ne e'] at hj
          rw [hother j m' p e' hj] at hr; cases hr
      · by_cases e' : j = i
        · subst e'; rw [Function.update_self] at hj; cases hj; rw [hm] at hr; cases hr
        · rw [Function.update_of_ne e'] at hj; exact h2 j m' p hj hr
    · have hf : f c.mat = c.mat := by
        cases hm' : m.mode with
        | write => exact absurd hm' hm
        | read => exact (hS.reading i m _ hphase hm').1
        | free => exact (hS.silent i m _ hphase hm').1 _
      refine upd i _ _ hf rfl (fun m' p h hr => ?_) (fun m' p h hr => ?_)
      · cases h
        exact fun y hy => h1 i m _ hphase hr y (List.mem_cons_of_mem _ hy)
      · cases h
        exact (h2 i m _ hphase hr).2 _
  | @leave i m rest res r e =>
    refine upd i ⟨rest, .idle, res ++ [(m, r)]⟩ _ ?_ ?_ (fun m p h => by cases h) (fun m p h => by cases h)
    · show (c.release m.mode).mat = c.mat
      cases m.mode <;> rfl
    · show Function.update (c.release m.mode).thr i _ = _
      cases m.mode <;> rfl

theorem Method.Direct.sound {m : Method T} (h : m.Direct) : m.Sound := by
  cases m <;> simp only [Method.Direct, Method.Sound] at h ⊢

theorem direct_calls (gas : Nat) : Calls Method.mode (Method.fine gas : Method T → _) (Method.alone gas) Method.Direct Reach :=
  have h := (fine_splits (T := T) gas).calls
  ⟨fun m hm => h.run m hm.sound, fun m hm => h.keep m hm.sound, fun m hm => h.quiet m hm.sound,
    fun m hm => h.silent m hm.sound⟩

theorem Watched.steps {n gas : Nat} {s0 : Mat T} (hs : Reach s0) (hk : s0.kind ≠ .svec)
    {calls : Fin n → List (Method T)} (hA : ∀ i, ∀ m ∈ calls i, m.Direct)
    {c : Conf n (Method T) (Mat T) (Out (Val T))} (h : Steps Method.mode (Method.fine gas) (Conf.init s0 calls) c) :
    Watched c := by
  generalize hc0 : (Conf.init s0 calls : Conf n (Method T) (Mat T) (Out (Val T))) = c0 at h
  induction h with
  | refl =>
    subst hc0
    exact ⟨fun i m p h => by simp [Conf.init] at h, fun i m p h => by simp [Conf.init] at h⟩
  | @tail d e hd hde ih =>
    subst hc0
    refine ih.step (Serial.steps (direct_calls gas) hd (Serial.init hs hA)) ?_ hde
    rw [(C85_mutex (.inr rfl) hd).1.kind]
    exact hk

/-! ## Reaching an access -/

theorem Steps.trans {n : Nat} {μ S R : Type} {mode : μ → Mode} {body : μ → Prog S R} {a b c : Conf n μ S R}
    (h1 : Steps mode body a b) (h2 : Steps mode body b c) : Steps mode body a c := by
  induction h2 with
  | refl => exact h1
  | tail _ h ih => exact ih.tail h

theorem trace_steps {n : Nat} {μ S R : Type} {mode : μ → Mode} {body : μ → Prog S R} {i : Fin n} {m : μ} {rest : List μ}
    {res : List (μ × R)} (p : Prog S R) : ∀ {c : Conf n μ S R}, c.thr i = ⟨rest, .inside m p, res⟩ → p.Quiet c.mat →
    ∀ y ∈ p.trace c.mat, Steps mode body c (c.put i ⟨rest, .inside m (.act y.1 y.2), res⟩) := by
  induction p with
  | done r => intro c _ _ y hy; cases hy
  | act f k ih =>
    intro c e hq y hy
    rcases List.mem_cons.1 hy with rfl | hy
    · have : c.put i ⟨rest, .inside m (.act f k), res⟩ = c := by
        simp only [Conf.put, ← e, Function.update_eq_self]
      rw [this]; exact .refl
    · obtain ⟨q1, q2⟩ := hq
      have h1 : Step mode body c (c.put i ⟨rest, .inside m (k c.mat), res⟩) := by
        have := Step.act (mode := mode) (body := body) i e
        rw [q1] at this
        exact this
      have h2 := ih c.mat (c := c.put i ⟨rest, .inside m (k c.mat), res⟩) (by simp [Conf.put]) q2 y hy
      have e3 : (c.put i ⟨rest, .inside m (k c.mat), res⟩).put i ⟨rest, .inside m (.act y.1 y.2), res⟩ =
          c.put i ⟨rest, .inside m (.act y.1 y.2), res⟩ := by simp [Conf.put]
      rw [e3] at h2
      exact (Steps.tail .refl h1).trans h2

/-- A call that does not take the lock for writing can be finished. -/
theorem finish_steps {n : Nat} {μ S R : Type} {mode : μ → Mode} {body : μ → Prog S R} {i : Fin n} {m : μ} {rest : List μ}
    {res : List (μ × R)} (hm : mode m ≠ .write) (p : Prog S R) : ∀ {c : Conf n μ S R},
    c.thr i = ⟨rest, .inside m p, res⟩ → p.Quiet c.mat →
    ∃ c' res', Steps mode body c c' ∧ c'.mat = c.mat ∧ c'.pending = c.pending ∧
      c'.thr = Function.update c.thr i ⟨rest, .idle, res'⟩ := by
  induction p with
  | done r =>
    intro c e _
    refine ⟨_, res ++ [(m, r)], .tail .refl (.leave i e), ?_, ?_, ?_⟩ <;> cases h : mode m <;>
      first | exact absurd h hm | rfl
  | act f k ih =>
    intro c e hq
    obtain ⟨q1, q2⟩ := hq
    have h1 : Step mode body c (c.put i ⟨rest, .inside m (k c.mat), res⟩) := by
      have := Step.act (mode := mode) (body := body) i e
      rw [q1] at this
      exact this
    obtain ⟨c', res', g1, g2, g3, g4⟩ := ih c.mat (c := c.put i ⟨rest, .inside m (k c.mat), res⟩) (by simp [Conf.put]) q2
    exact ⟨c', res', (Steps.tail .refl h1).trans g1, g2, g3, by rw [g4]; simp [Conf.put]⟩

/-- A call that does not take the lock for writing can begin. -/
theorem begin_step {n : Nat} {μ S R : Type} {mode : μ → Mode} {body : μ → Prog S R} {i : Fin n} {m : μ} {rest : List μ}
    {res : List (μ × R)} {c : Conf n μ S R} (e : c.thr i = ⟨m :: rest, .idle, res⟩) (hm : mode m ≠ .write)
    (hp : c.pending = false) : ∃ c', Step mode body c c' ∧ c'.mat = c.mat ∧ c'.pending = false ∧
      c'.thr = Function.update c.thr i ⟨rest, .inside m (body m), res⟩ := by
  cases h : mode m with
  | write => exact absurd h hm
  | read => exact ⟨_, .rlock i e h hp, rfl, hp, rfl⟩
  | free => exact ⟨_, .enter i e h, rfl, hp, rfl⟩

/-- A goroutine can make the readings before a call. -/
theorem skip_steps {n : Nat} {μ S R : Type} {mode : μ → Mode} {body : μ → Prog S R} {i : Fin n} (pre : List μ) :
    ∀ {c : Conf n μ S R} {rest : List μ} {res : List (μ × R)}, c.thr i = ⟨pre ++ rest, .idle, res⟩ → c.pending = false →
    (∀ m ∈ pre, mode m ≠ .write ∧ (body m).Quiet c.mat) →
    ∃ c' res', Steps mode body c c' ∧ c'.mat = c.mat ∧ c'.pending = false ∧
      c'.thr = Function.update c.thr i ⟨rest, .idle, res'⟩ := by
  induction pre with
  | nil =>
    intro c rest res e hp _
    exact ⟨c, res, .refl, rfl, hp, by simp only [List.nil_append] at e; rw [← e, Function.update_eq_self]⟩
  | cons m pre ih =>
    intro c rest res e hp hq
    obtain ⟨hm, hq1⟩ := hq m List.mem_cons_self
    obtain ⟨c0, h1, b1, b2, b3⟩ := begin_step (body := body) e hm hp
    obtain ⟨c1, res1, g1, g2, g3, g4⟩ := finish_steps (body := body) (rest := pre ++ rest) (i := i) (res := res) hm (body m)
      (c := c0) (by rw [b3, Function.update_self]; rfl) (by rw [b1]; exact hq1)
    have g4' : c1.thr = Function.update c.thr i ⟨pre ++ rest, .idle, res1⟩ := by rw [g4, b3]; simp
    have g2' : c1.mat = c.mat := g2.trans b1
    obtain ⟨c2, res2, k1, k2, k3, k4⟩ := ih (c := c1) (rest := rest) (res := res1) (by rw [g4', Function.update_self])
      (by rw [g3]; exact b2) (by rw [g2']; exact fun x hx => hq x (List.mem_cons_of_mem _ hx))
    exact ⟨c2, res2, ((Steps.tail .refl h1).trans g1).trans k1, k2.trans g2', k3, by rw [k4, g4']; simp⟩

/-- A goroutine can get to any access of a call that reads, if the calls before it read. -/
theorem reach_access {n : Nat} {μ S R : Type} {mode : μ → Mode} {body : μ → Prog S R} {i : Fin n} {c : Conf n μ S R}
    {todo : List μ} {res : List (μ × R)} (e : c.thr i = ⟨todo, .idle, res⟩) (hp : c.pending = false)
    (hq : ∀ m ∈ todo, mode m ≠ .write ∧ (body m).Quiet c.mat) {m : μ} (hm : m ∈ todo) {y} (hy : y ∈ (body m).trace c.mat) :
    ∃ c' rest res', Steps mode body c c' ∧ c'.mat = c.mat ∧ c'.pending = false ∧
      c'.thr = Function.update c.thr i ⟨rest, .inside m (.act y.1 y.2), res'⟩ := by
  obtain ⟨pre, rest, rfl⟩ := List.append_of_mem hm
  obtain ⟨c1, res1, g1, g2, g3, g4⟩ := skip_steps (body := body) pre e hp (fun x hx => hq x (List.mem_append_left _ hx))
  obtain ⟨hr, hq1⟩ := hq m hm
  have e1 : c1.thr i = ⟨m :: rest, .idle, res1⟩ := by rw [g4, Function.update_self]
  obtain ⟨c0, h1, b1, b2, b3⟩ := begin_step (body := body) e1 hr g3
  have hmat : c0.mat = c.mat := b1.trans g2
  have h2 := trace_steps (mode := mode) (body := body) (body m) (c := c0) (i := i) (rest := rest) (res := res1) (m := m)
    (by rw [b3, Function.update_self]) (by rw [hmat]; exact hq1) y (by rw [hmat]; exact hy)
  exact ⟨_, rest, res1, (g1.tail h1).trans h2, hmat, b2, by simp [Conf.put, b3, g4]⟩

/-- Two goroutines can get to any accesses of calls that read. -/
theorem reach_two {n : Nat} {μ S R : Type} {mode : μ → Mode} {body : μ → Prog S R} {s0 : S} {calls : Fin n → List μ}
    (hq : ∀ i, ∀ m ∈ calls i, mode m ≠ .write ∧ (body m).Quiet s0) {i j : Fin n} (hne : i ≠ j) {m m' : μ}
    (mi : m ∈ calls i) (mj : m' ∈ calls j) {y y'} (hy : y ∈ (body m).trace s0) (hy' : y' ∈ (body m').trace s0) :
    ∃ c : Conf n μ S R, Steps mode body (Conf.init s0 calls) c ∧ c.mat = s0 ∧
      (c.thr i).phase = .inside m (.act y.1 y.2) ∧ (c.thr j).phase = .inside m' (.act y'.1 y'.2) := by
  obtain ⟨c1, rest1, res1, g1, g2, g3, g4⟩ := reach_access (mode := mode) (body := body) (i := i)
    (c := Conf.init s0 calls) (todo := calls i) (res := []) rfl rfl (hq i) mi hy
  have g2' : c1.mat = s0 := g2
  obtain ⟨c2, rest2, res2, k1, k2, k3, k4⟩ := reach_access (mode := mode) (body := body) (i := j)
    (c := c1) (todo := calls j) (res := []) (by rw [g4, Function.update_of_ne (Ne.symm hne)]; rfl) g3
    (by rw [g2']; exact hq j) mj (by rw [g2']; exact hy')
  refine ⟨c2, g1.trans k1, k2.trans g2', ?_, ?_⟩
  · rw [k4, Function.update_of_ne hne, g4, Function.update_self]
  · rw [k4, Function.update_self]

/-- Calls made and to be made are from the program. -/
def Owned {n : Nat} {μ S R : Type} (calls : Fin n → List μ) (c : Conf n μ S R) : Prop :=
  ∀ i, (∀ m ∈ (c.thr i).todo, m ∈ calls i) ∧ (∀ m, (c.thr i).phase = .waiting m → m ∈ calls i) ∧
    ∀ m p, (c.thr i).phase = .inside m p → m ∈ calls i

theorem Owned.steps {n : Nat} {μ S R : Type} {mode : μ → Mode} {body : μ → Prog S R} {s0 : S} {calls : Fin n → List μ}
    {c : Conf n μ S R} (h : Steps mode body (Conf.init s0 calls) c) : Owned calls c := by
  generalize hc0 : (Conf.init s0 calls : Conf n μ S R) = c0 at h
  induction h with
  | refl => subst hc0; exact fun i => ⟨fun m h => h, fun m h => by simp [Conf.init] at h, fun m p h => by simp [Conf.init] at h⟩
  | @tail d e _ hs ih =>
    have upd : ∀ (i : Fin n) (t : Thread μ S R) (x : Conf n μ S R), x.thr = Function.update d.thr i t →
        (∀ m ∈ t.todo, m ∈ calls i) → (∀ m, t.phase = .waiting m → m ∈ calls i) →
        (∀ m p, t.phase = .inside m p → m ∈ calls i) → Owned calls x := by
      intro i t x e1 g1 g2 g3 j
      rw [e1]
      by_cases e : j = i
      · subst e; rw [Function.update_self]; exact ⟨g1, g2, g3⟩
      · rw [Function.update_of_ne e]; exact ih j
    cases hs with
    | @announce i m rest res he _ _ =>
      have := ih i; rw [he] at this
      exact upd i _ _ rfl (fun x hx => this.1 x (List.mem_cons_of_mem _ hx))
        (fun x hx => by cases hx; exact this.1 _ List.mem_cons_self) (fun x p hx => by cases hx)
    | @lock i m rest res he _ =>
      have := ih i; rw [he] at this
      exact upd i _ _ rfl this.1 (fun x hx => by cases hx) (fun x p hx => by cases hx; exact this.2.1 _ rfl)
    | @rlock i m rest res he _ _ =>
      have := ih i; rw [he] at this
      exact upd i _ _ rfl (fun x hx => this.1 x (List.mem_cons_of_mem _ hx)) (fun x hx => by cases hx)
        (fun x p hx => by cases hx; exact this.1 _ List.mem_cons_self)
    | @enter i m rest res he _ =>
      have := ih i; rw [he] at this
      exact upd i _ _ rfl (fun x hx => this.1 x (List.mem_cons_of_mem _ hx)) (fun x hx => by cases hx)
        (fun x p hx => by cases hx; exact this.1 _ List.mem_cons_self)
    | @act i m rest res f k he =>
      have := ih i; rw [he] at this
      exact upd i _ _ rfl this.1 (fun x hx => by cases hx) (fun x p hx => by cases hx; exact this.2.2 _ _ rfl)
    | @leave i m rest res r he =>
      have := ih i; rw [he] at this
      refine upd i ⟨rest, .idle, res ++ [(m, r)]⟩ _ ?_ this.1 (fun x hx => by cases hx) (fun x p hx => by cases hx)
      show Function.update (d.release (mode m)).thr i _ = _
      cases mode m <;> rfl

end

/-- `At` and `Element` of a non-zero cell write its place. -/
theorem looks_puts [GoStore T] {gas : Nat} {s0 : Mat T} {r q : Int} (hs : Reach s0) (hc : s0.kind = .csr ∨ s0.kind = .csc)
    (hv : s0.Valid r q) (hz : isZero (s0.val r.toNat q.toNat) = false) :
    ∃ p, ∀ a : Method T, a.Looks r q → ∃ y ∈ (a.fine gas).trace s0, PutsNow s0 y.1 (.elem 2 p) := by
  cases s0 with
  | csr s =>
    obtain ⟨rows, h⟩ := hs.wf (by simp [Mat.kind])
    have one : ∀ (β : Type) (f : T → β × T) (_ : ∀ v, (f v).2 = v) (val : β → Val T),
        ∃ p, (∃ e, s.columnIndex r.toNat q.toNat = .ok (p, e)) ∧
        ∃ y ∈ (updateProg r q f val).trace (.csr s), PutsNow (.csr s) y.1 (.elem 2 p) := by
      intro β f hf val
      obtain ⟨p, v, g1, -, g3, g4, y, g5, g6⟩ := (updateProg_trace h hf val).2
        (inRange_iff.2 ⟨hv.1, hv.2.1⟩) (inRange_iff.2 hv.2.2) hz
      exact ⟨p, g1, y, g5, g6.puts isZero_zero g4 g3⟩
    obtain ⟨p, ⟨e, he⟩, y, hy, py⟩ := one T (fun v => (v, v)) (fun _ => rfl) .num
    obtain ⟨p', ⟨e', he'⟩, y', hy', py'⟩ := one Bool (fun v => (GoNum.glt 0 v, v)) (fun _ => rfl) .bool
    rw [he] at he'; cases he'
    refine ⟨p, fun a ha => ?_⟩
    rcases ha with rfl | rfl
    · exact ⟨y, List.mem_cons_of_mem _ hy, py⟩
    · exact ⟨y', List.mem_cons_of_mem _ hy', py'⟩
  | csc s =>
    obtain ⟨rows, h⟩ := hs.wf (by simp [Mat.kind])
    have one : ∀ (β : Type) (f : T → β × T) (_ : ∀ v, (f v).2 = v) (val : β → Val T),
        ∃ p, (∃ e, (CSC.mir s).columnIndex q.toNat r.toNat = .ok (p, e)) ∧
        ∃ y ∈ (updateProgC r q f val).trace (.csc s), PutsNow (.csc s) y.1 (.elem 2 p) := by
      intro β f hf val
      obtain ⟨p, v, g1, -, g3, g4, y, g5, g6⟩ := (updateProg_trace (s := CSC.mir s) h hf val).2
        (inRange_iff.2 hv.2.2) (inRange_iff.2 ⟨hv.1, hv.2.1⟩) (by rw [val_mir]; exact hz)
      refine ⟨p, g1, (fun s => swap (y.1 (swap s)), fun s => (y.2 (swap s)).conj), ?_,
        putsNow_swap (m := .csc s) (g6.puts isZero_zero g4 g3)⟩
      · rw [updateProg_conj, conj_trace]
        exact List.mem_map.2 ⟨y, g5, rfl⟩
    obtain ⟨p, ⟨e, he⟩, y, hy, py⟩ := one T (fun v => (v, v)) (fun _ => rfl) .num
    obtain ⟨p', ⟨e', he'⟩, y', hy', py'⟩ := one Bool (fun v => (GoNum.glt 0 v, v)) (fun _ => rfl) .bool
    rw [he] at he'; cases he'
    refine ⟨p, fun a ha => ?_⟩
    rcases ha with rfl | rfl
    · exact ⟨y, List.mem_cons_of_mem _ hy, py⟩
    · exact ⟨y', List.mem_cons_of_mem _ hy', py'⟩
  | _ => simp [Mat.kind] at hc

end Mutex
end GB
