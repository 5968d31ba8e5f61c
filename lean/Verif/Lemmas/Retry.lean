import Verif.SpecRetry
import Verif.Lemmas.Cancelled

/-!
# What a sequence of cancelled calls leaves
-/

namespace GB

set_option linter.unusedSectionVars false
set_option linter.unusedSimpArgs false

open M

variable {T : Type} [GoNum T] [GoStore T] {w : World T} {out : Ref} {mask : Mask}

theorem callsOf_upd (call : OpCall T) (hap : ∀ p ∈ call.operands, p ≠ out) (hmo : mask ≠ .ref out) (m : Mat T) (c : Option Nat) :
    call.callsOf (w.upd out m c) mask = call.callsOf w mask := by
  have hb : ∀ i j, mask.bit (w.upd out m c) i j = mask.bit w i j := by
    intro i j
    cases mask with
    | ref p =>
      have : p ≠ out := fun h => hmo (by rw [h])
      simp [Mask.bit, World.upd_ne _ _ _ this]
    | _ => rfl
  have ht : call.turns (w.upd out m c) mask = call.turns w mask := by
    cases call
    case apply s u | transpose s =>
      simp only [OpCall.operands, List.mem_cons, List.not_mem_nil, or_false, forall_eq] at hap
      simp only [OpCall.turns, hb, World.upd_ne _ _ _ hap]
    case negative => rfl
    all_goals
      simp only [OpCall.operands, List.mem_cons, List.not_mem_nil, or_false, forall_eq_or_imp, forall_eq] at hap
      simp only [OpCall.turns, lead, follow, hb, World.upd_ne _ _ _ hap.1, World.upd_ne _ _ _ hap.2]
      try rfl
  have hp : call.pace (w.upd out m c) = call.pace w := by
    cases call <;>
      simp only [OpCall.operands, List.mem_cons, List.not_mem_nil, or_false, forall_eq_or_imp, forall_eq] at hap <;>
      simp only [OpCall.pace]
    all_goals simp only [World.upd_ne _ _ _ hap.1, World.upd_ne _ _ _ hap.2]
  funext c'
  cases c' with
  | none => exact calls_upd call hap hmo m c
  | some k =>
    simp only [OpCall.callsOf, OpCall.callsWithin, ht, hp, calls_upd call hap hmo m c]

theorem callsOf_subset (call : OpCall T) (c : Option Nat) : ∀ o ∈ call.callsOf w mask c, o ∈ call.calls w mask := by
  intro o ho
  cases c with
  | none => exact ho
  | some k => exact (callsWithin_prefix call k).subset ho

theorem made_callsOf (call : OpCall T) (c : Option Nat) : made c (call.doings w mask) = call.callsOf w mask c := by
  cases c with
  | none => rw [made_none, doings_calls]; rfl
  | some k => exact made_callsWithin call k

/-- A sequence of calls, each cancelled at a point of its own, does what the lists of calls do one after the other. -/
theorem tries_run (call : OpCall T) : ∀ (cs : List (Option Nat)) (w : World T), call.Ready w mask out →
    ∃ m' c, call.tries mask out w cs = .ok () (w.upd out m' c) ∧
      (w.heap out).run (cs.flatMap (call.callsOf w mask)) = .ok m'
  | [], w, h => ⟨w.heap out, w.cancel, by simp [OpCall.tries, World.upd], rfl⟩
  | c :: cs, w, h => by
    obtain ⟨m', h1, hi, hS, h2⟩ := replay_aux call (h.cancel c)
    have h1 : (w.heap out).run (made c (call.doings { w with cancel := c } mask)) = .ok m' := h1
    have hS : Mat.Same m' (w.heap out) := hS
    have hcalls : call.callsOf { w with cancel := c } mask = call.callsOf w mask := by
      have := callsOf_upd (w := w) call h.apart h.masked (w.heap out) c
      rwa [show w.upd out (w.heap out) c = { w with cancel := c } by simp [World.upd]] at this
    rw [made_callsOf, hcalls] at h1
    have hw : ∀ c', World.upd { w with cancel := c } out m' c' = w.upd out m' c' := fun _ => rfl
    rw [hw] at h2
    generalize (rest ({ w with cancel := c } : World T).cancel (call.doings { w with cancel := c } mask)).getD (some 0) = c' at h2
    obtain ⟨m2, c2, g1, g2⟩ := tries_run call cs (w.upd out m' c') (h.upd hi hS c')
    rw [World.upd_upd] at g1
    rw [World.upd_out, callsOf_upd call h.apart h.masked] at g2
    refine ⟨m2, c2, ?_, ?_⟩
    · unfold OpCall.tries
      rw [h2]; exact g1
    · rw [List.flatMap_cons, Mat.run_append, h1, Out.ok_bind, g2]

/-- Updates of a cell by one and the same function apply it so many times. -/
theorem specRun_times {k g : T → T} {i j : Nat} : ∀ (ops : List (Op T)) (f : Nat → Nat → T),
    (∀ o ∈ ops, ∃ a b g', o = .update a b g' ∧ (a = i → b = j → g' = g)) →
    specRun k f ops i j = (fun v => k (g v))^[times ops i j] (f i j)
  | [], f, _ => rfl
  | o :: ops, f, h => by
    obtain ⟨a, b, g', rfl, hg⟩ := h o (by simp)
    show specRun k (put2 f a b (k (g' (f a b)))) ops i j = _
    rw [specRun_times ops _ (fun o ho => h o (by simp [ho]))]
    by_cases e : a = i ∧ b = j
    · obtain ⟨rfl, rfl⟩ := e
      have : times (Op.update a b g' :: ops) a b = times ops a b + 1 := by simp [times, Op.cell]
      rw [this, Function.iterate_succ_apply, hg rfl rfl]
      simp [put2]
    · have : times (Op.update a b g' :: ops) i j = times ops i j := by
        have : ((Op.update a b g' : Op T).cell == some (i, j)) = false := by
          simp only [Op.cell, beq_eq_false_iff_ne, ne_eq, Option.some.injEq, Prod.mk.injEq]; exact e
        simp [times, this]
      rw [this]
      have : put2 f a b (k (g' (f a b))) i j = f i j := by
        unfold put2
        rw [if_neg fun e' => e ⟨e'.1.symm, e'.2.symm⟩]
      rw [this]

/-- The calls of `Subtract`: each cell is subtracted from what the first operand has there. -/
theorem subtract_calls {s m : Ref} (hs : (w.heap s).kind ≠ .svec) (i j : Nat) :
    ∀ o ∈ (OpCall.subtract s m : OpCall T).calls w mask, ∃ a b g', o = .update a b g' ∧
      (a = i → b = j → g' = fun v => (w.heap s).val i j - v) := by
  intro o ho
  simp only [OpCall.calls, List.mem_flatMap] at ho
  obtain ⟨e, he, ho⟩ := ho
  split at ho
  · simp at ho
  · refine ⟨_, _, _, List.mem_singleton.1 ho, ?_⟩
    rintro rfl rfl
    have : e.2.2 = (w.heap s).val e.1 e.2.1 := by
      generalize w.heap s = x at he hs
      cases x with
      | svec v => exact absurd rfl hs
      | _ =>
        simp only [Mat.entries, List.mem_map] at he
        obtain ⟨p, -, rfl⟩ := he
        rfl
    rw [this]

theorem times_count (i j : Nat) : ∀ ops : List (Op T), times ops i j = (ops.filterMap Op.cell).count (i, j)
  | [] => rfl
  | o :: ops => by
    have ih := times_count i j ops
    unfold times at ih ⊢
    cases hc : o.cell with
    | none => simp [hc, ih]
    | some p =>
      by_cases e : p = (i, j)
      · subst e; simp [hc, ih]
      · simp [hc, ih, e]

theorem Mat.scan_nodup (m : Mat T) : m.scan.Nodup := by
  unfold Mat.scan
  split
  · exact (cells_nodup _ _).map Prod.swap_injective
  · exact cells_nodup _ _

/-- `Subtract` writes no cell twice. -/
theorem subtract_once {s m : Ref} (hs : (w.heap s).kind ≠ .svec) (i j : Nat) :
    times ((OpCall.subtract s m : OpCall T).calls w mask) i j ≤ 1 := by
  rw [times_count]
  refine List.nodup_iff_count_le_one.1 ?_ _
  have hl : ((OpCall.subtract s m : OpCall T).calls w mask).filterMap Op.cell =
      ((w.heap s).entries.filter fun e => !mask.bit w e.1 e.2.1).map fun e => (e.1, e.2.1) := by
    simp only [OpCall.calls]
    generalize (w.heap s).entries = es
    induction es with
    | nil => rfl
    | cons e es ih =>
      rw [List.flatMap_cons, List.filterMap_append, ih]
      cases hb : mask.bit w e.1 e.2.1 <;> simp [hb, Op.cell]
  rw [hl]
  have hn : ((w.heap s).entries.map fun e => (e.1, e.2.1)).Nodup := by
    generalize w.heap s = x at hs
    cases x with
    | svec v => exact absurd rfl hs
    | _ =>
      simp only [Mat.entries, List.map_map]
      refine (((Mat.scan_nodup _).filter _).map ?_)
      rintro ⟨a, b⟩ ⟨c, d⟩ h
      exact h
  exact hn.sublist (List.filter_sublist.map _)

theorem times_le {a b : List (Op T)} (h : a <+: b) (i j : Nat) : times a i j ≤ times b i j :=
  (h.sublist.filter _).length_le

theorem times_append (a b : List (Op T)) (i j : Nat) : times (a ++ b) i j = times a i j + times b i j := by
  simp [times]

theorem entries_once {m : Mat T} (h : m.kind ≠ .svec) : (m.entries.map fun e => (e.1, e.2.1)).Nodup := by
  cases m with
  | svec v => exact absurd rfl h
  | _ =>
    simp only [Mat.entries, List.map_map]
    refine (((Mat.scan_nodup _).filter _).map ?_)
    rintro ⟨a, b⟩ ⟨c, d⟩ h
    exact h

/-- Calls made for some of the elements of a list, each for a cell of its own. -/
theorem flatMap_once {α β : Type} (l : List α) (c : α → β) (g : α → List β) (hl : (l.map c).Nodup)
    (hg : ∀ a, g a = [] ∨ g a = [c a]) : (l.flatMap g).Nodup := by
  have : (l.flatMap g).Sublist (l.map c) := by
    clear hl
    induction l with
    | nil => exact List.Sublist.refl _
    | cons a l ih =>
      rw [List.flatMap_cons, List.map_cons]
      rcases hg a with h | h <;> rw [h]
      · exact ih.cons _
      · exact ih.cons_cons _
  exact hl.sublist this

theorem grid_once (r c : Nat) (g : Nat → Nat → List (Nat × Nat)) (hg : ∀ i j, g i j = [] ∨ g i j = [(i, j)]) :
    ((List.range r).flatMap fun i => (List.range c).flatMap fun j => g i j).Nodup := by
  have : ((List.range r).flatMap fun i => (List.range c).flatMap fun j => g i j) = (cells r c).flatMap fun p => g p.1 p.2 := by
    simp only [cells, List.flatMap_assoc, List.flatMap_map]
  rw [this]
  refine flatMap_once _ id _ ?_ fun p => hg p.1 p.2
  rw [List.map_id]
  exact cells_nodup r c

theorem calls_once (call : OpCall T) (h : call.Single w) : ((call.calls w mask).filterMap Op.cell).Nodup := by
  cases call <;> simp only [OpCall.Single] at h <;> simp only [OpCall.calls, List.filterMap_flatMap]
  case mxm | mxv | vxm =>
    refine grid_once _ _ _ fun i j => ?_
    split <;> simp [Op.cell]
  case negative => simp
  case apply | transpose =>
    have := (entries_once h).map Prod.swap_injective
    rw [List.map_map] at this
    refine flatMap_once _ _ _ this fun e => ?_
    split <;> simp [Op.cell]
  all_goals
    refine flatMap_once _ _ _ (entries_once h) fun e => ?_
    split <;> simp [Op.cell]

/-- The positions an operator of this kind writes in a sparse vector are all different. -/
theorem written_once (call : OpCall T) (h : call.Ready w mask out) (hsub : ∀ s m, call ≠ .subtract s m) (h1 : call.Single w)
    {v : SVec T} (hv : w.heap out = .svec v) : (((call.calls w mask).filterMap Op.written).map Prod.fst).Nodup := by
  have hs := calls_set call h hsub hv
  have h2 := calls_once (mask := mask) call h1
  have key : ∀ ops : List (Op T), (∀ o ∈ ops, ∃ i v', o = .set i 0 v' ∧ i < v.l) →
      ops.filterMap Op.cell = ((ops.filterMap Op.written).map Prod.fst).map fun i => (i, 0) := by
    intro ops
    induction ops with
    | nil => intro _; rfl
    | cons o ops ih =>
      intro ho
      obtain ⟨i, x, rfl, -⟩ := ho o (by simp)
      have := ih fun o ho' => ho o (by simp [ho'])
      simp [Op.cell, Op.written] at this ⊢
      exact this
  rw [key _ hs] at h2
  exact h2.of_map _

end GB
