import Verif.Lemmas.ReplayOps

/-!
# The calls a cancelled operator has made
-/

namespace GB

set_option linter.unusedSectionVars false
set_option linter.unusedSimpArgs false

open M

variable {T : Type} [GoNum T] [GoStore T] {w : World T} {out : Ref} {mask : Mask}

theorem made_calls {α : Type} (c : Option Nat) (l : List α) : made c (l.map some) = l := by
  induction l with
  | nil => rcases c with _ | _ | c <;> rfl
  | cons a l ih => rcases c with _ | _ | c <;> simp only [List.map_cons, made, ih]

theorem rest_calls {α : Type} (c : Option Nat) (l : List α) : rest c (l.map some) = some c := by
  induction l with
  | nil => rcases c with _ | _ | c <;> rfl
  | cons a l ih => rcases c with _ | _ | c <;> simp only [List.map_cons, rest, ih]

theorem made_looks {α : Type} : ∀ (n : Nat) (c : Option Nat), made c (List.replicate n (none : Option α)) = []
  | 0, c => by rcases c with _ | _ | c <;> rfl
  | n + 1, none => made_looks n none
  | n + 1, some 0 => rfl
  | n + 1, some (k + 1) => made_looks n (some k)

theorem rest_looks {α : Type} : ∀ (n k : Nat), rest (some k) (List.replicate n (none : Option α)) =
    if n ≤ k then some (some (k - n)) else none
  | 0, k => by simp [rest]
  | n + 1, 0 => by simp [List.replicate_succ, rest]
  | n + 1, k + 1 => by
    rw [List.replicate_succ, rest, rest_looks n k]
    simp

/-- The calls made with `k` looks, if every turn looks `n` times first. -/
theorem made_turns {α : Type} {n : Nat} (hn : 0 < n) : ∀ (ts : List (List α)) (k : Nat),
    made (some k) (ts.flatMap fun t => List.replicate n none ++ t.map some) = (ts.take (k / n)).flatten
  | [], k => by simp [made]
  | t :: ts, k => by
    rw [List.flatMap_cons, List.append_assoc, made_append, made_looks, rest_looks, List.nil_append]
    by_cases hk : n ≤ k
    · simp only [hk, if_true]
      rw [made_append, made_calls, rest_calls]
      simp only
      rw [made_turns hn ts (k - n), Nat.div_eq_sub_div hn hk, List.take_succ_cons, List.flatten_cons]
    · simp only [hk, if_false]
      rw [Nat.div_eq_of_lt (by omega)]; rfl

theorem doings_turns (call : OpCall T) :
    call.doings w mask = (call.turns w mask).flatMap fun t => List.replicate (call.pace w) none ++ t.map some := by
  cases call <;>
    simp only [OpCall.doings, OpCall.turns, OpCall.pace, List.flatMap_map, List.flatMap_assoc, List.flatMap_nil]
  case mxm | mxv | vxm =>
    refine List.flatMap_congr fun i _ => List.flatMap_congr fun j _ => ?_
    split <;> rfl
  all_goals
    refine List.flatMap_congr fun e _ => ?_
    split <;> rfl

theorem turns_calls (call : OpCall T) : (call.turns w mask).flatten = call.calls w mask := by
  rw [← doings_calls, doings_turns, List.filterMap_flatMap, ← List.flatMap_id]
  refine List.flatMap_congr fun t _ => ?_
  have rep : ∀ n, (List.replicate n (none : Option (Op T))).filterMap id = [] := by
    intro n; induction n <;> simp_all [List.replicate_succ]
  rw [List.filterMap_append, rep, List.filterMap_map]
  simp

theorem made_callsWithin (call : OpCall T) (k : Nat) : made (some k) (call.doings w mask) = call.callsWithin w mask k := by
  unfold OpCall.callsWithin
  rw [doings_turns]
  split
  · rename_i h
    rw [h, ← turns_calls, ← made_calls (some k) (call.turns w mask).flatten, List.map_flatten, List.flatMap_def]
    congr 2
  · exact made_turns (by omega) _ _

theorem callsWithin_prefix (call : OpCall T) (k : Nat) : call.callsWithin w mask k <+: call.calls w mask := by
  unfold OpCall.callsWithin
  split
  · exact List.prefix_refl _
  · rw [← turns_calls]
    exact ⟨((call.turns w mask).drop (k / call.pace w)).flatten, by rw [← List.flatten_append, List.take_append_drop]⟩

/-- What the operator will do does not depend on the output. -/
theorem calls_upd (call : OpCall T) (hap : ∀ p ∈ call.operands, p ≠ out) (hmo : mask ≠ .ref out) (m : Mat T) (c : Option Nat) :
    call.calls (w.upd out m c) mask = call.calls w mask := by
  have hb : ∀ i j, mask.bit (w.upd out m c) i j = mask.bit w i j := by
    intro i j
    cases mask with
    | ref p =>
      have : p ≠ out := fun h => hmo (by rw [h])
      simp [Mask.bit, World.upd_ne _ _ _ this]
    | _ => rfl
  cases call
  case apply s u | transpose s =>
    simp only [OpCall.operands, List.mem_cons, List.not_mem_nil, or_false, forall_eq] at hap
    simp only [OpCall.calls, hb, World.upd_ne _ _ _ hap]
  case negative => rfl
  all_goals
    simp only [OpCall.operands, List.mem_cons, List.not_mem_nil, or_false, forall_eq_or_imp, forall_eq] at hap
    simp only [OpCall.calls, lead, follow, hb, World.upd_ne _ _ _ hap.1, World.upd_ne _ _ _ hap.2]
    try rfl

theorem OpCall.Ready.upd {call : OpCall T} (h : call.Ready w mask out) {m : Mat T} (hm : m.Inv) (hS : Mat.Same m (w.heap out))
    (c : Option Nat) : call.Ready (w.upd out m c) mask out := by
  have hne : ∀ p ∈ call.operands, (w.upd out m c).heap p = w.heap p := fun p hp => World.upd_ne _ _ _ (h.apart p hp)
  have hr : ((w.upd out m c).heap out).rows = (w.heap out).rows := by rw [World.upd_out]; exact hS.2.1
  have hcl : ((w.upd out m c).heap out).cols = (w.heap out).cols := by rw [World.upd_out]; exact hS.2.2
  refine ⟨fun p hp => by rw [hne p hp]; exact h.operands p hp, by rw [World.upd_out]; exact hm, ?_, h.writes, h.apart, ?_, ?_,
    h.masked, fun p hp => by rw [hne p hp]; exact h.gas p hp⟩
  · have hsh := h.shapes
    cases call
    case apply s u =>
      have h1 := hne s (by simp [OpCall.operands])
      rcases hsh with hsh | hsh
      · exact Or.inl hsh
      · right
        unfold OpCall.Shapes.Crossed at hsh ⊢
        rw [hr, hcl, h1]; exact hsh
    case transpose s =>
      have h1 := hne s (by simp [OpCall.operands])
      simp only [OpCall.Shapes, OpCall.Shapes.Crossed] at hsh ⊢
      rw [hr, hcl, h1]; exact hsh
    case negative s => exact hsh
    all_goals
      rename_i s m'
      have h1 := hne s (by simp [OpCall.operands])
      have h2 := hne m' (by simp [OpCall.operands])
      simp only [OpCall.Shapes, SameShape] at hsh ⊢
      rw [h1, h2, hr, hcl]; exact hsh
  · have hF := h.fits
    cases mask with
    | ref p =>
      have hp : p ≠ out := fun e => h.masked (by rw [e])
      have h1 : (w.upd out m c).heap p = w.heap p := World.upd_ne _ _ _ hp
      simp only [Mask.Fits] at hF ⊢
      rw [h1, hr, hcl]; exact hF
    | empty a b | given a b el =>
      simp only [Mask.Fits] at hF ⊢
      rw [hr, hcl]; exact hF
    | nil => trivial
  · have hF := h.sound
    cases mask with
    | ref p =>
      have hp : p ≠ out := fun e => h.masked (by rw [e])
      have h1 : (w.upd out m c).heap p = w.heap p := World.upd_ne _ _ _ hp
      simp only [Mask.Sound] at hF ⊢
      rw [h1]; exact hF
    | given a b el => exact hF
    | _ => trivial

theorem OpCall.Ready.cancel {call : OpCall T} (h : call.Ready w mask out) (c : Option Nat) :
    call.Ready { w with cancel := c } mask out := by
  have := h.upd h.output (Mat.Same.refl _) c
  rwa [show w.upd out (w.heap out) c = { w with cancel := c } by simp [World.upd]] at this

/-- Writes only. -/
def Op.IsSet : Op T → Prop
  | .set _ _ _ => True
  | _ => False

theorem calls_isSet (call : OpCall T) (hsub : ∀ s m, call ≠ .subtract s m) : ∀ o ∈ call.calls w mask, o.IsSet := by
  intro o ho
  cases call <;> simp only [OpCall.calls, List.mem_flatMap] at ho
  case subtract s m => exact absurd rfl (hsub s m)
  case negative => simp at ho
  all_goals
    first
    | (obtain ⟨i, -, j, -, ho⟩ := ho
       split at ho
       · simp at ho
       · rw [List.mem_singleton.1 ho]; trivial)
    | (obtain ⟨e, -, ho⟩ := ho
       split at ho
       · first | simp at ho; done | rw [List.mem_singleton.1 ho]; trivial
       · first | rw [List.mem_singleton.1 ho]; trivial | simp at ho; done)

/-- What a list of writes leaves in a cell it writes does not depend on what was there. -/
theorem specRun_sets {k : T → T} {i j : Nat} : ∀ (ops : List (Op T)) (f g : Nat → Nat → T), (∀ o ∈ ops, o.IsSet) →
    (f i j = g i j ∨ ∃ o ∈ ops, o.Touches i j) → specRun k f ops i j = specRun k g ops i j
  | [], f, g, _, h => by
    rcases h with h | ⟨o, ho, -⟩
    · exact h
    · simp at ho
  | o :: ops, f, g, hset, h => by
    have hs := hset o (by simp)
    cases o with
    | set a b v =>
      show specRun k (put2 f a b (k v)) ops i j = specRun k (put2 g a b (k v)) ops i j
      refine specRun_sets ops _ _ (fun o ho => hset o (by simp [ho])) ?_
      by_cases e : i = a ∧ j = b
      · left; simp [put2, e]
      · rcases h with h | ⟨o, ho, ht⟩
        · left; simp [put2, e, h]
        · rcases List.mem_cons.1 ho with rfl | ho
          · exact absurd ⟨ht.1.symm, ht.2.symm⟩ e
          · exact Or.inr ⟨o, ho, ht⟩
    | _ => exact absurd hs id

theorem Mat.Same.keep_eq {m m' : Mat T} (h : Mat.Same m' m) : m'.keep = m.keep := by
  funext v; unfold Mat.keep; rw [h.1]

theorem tries_aux (call : OpCall T) (hsub : ∀ s m, call ≠ .subtract s m) : ∀ (cs : List (Option Nat)) (w : World T),
    call.Ready w mask out → (w.heap out).kind ≠ .svec →
    ∃ m2 c, call.tries mask out w (cs ++ [none]) = .ok () (w.upd out m2 c) ∧ m2.WF ∧ Mat.Same m2 (w.heap out) ∧
      ∀ i j, i < (w.heap out).rows → j < (w.heap out).cols →
        m2.val i j = specRun (w.heap out).keep (w.heap out).val (call.calls w mask) i j
  | [], w, h, hk => by
    have h0 := h.cancel none
    obtain ⟨m', h1, -, -, h2⟩ := replay_aux call h0
    have h1 : (w.heap out).run (made none (call.doings { w with cancel := none } mask)) = .ok m' := h1
    rw [made_none, doings_calls] at h1
    have hcalls : call.calls { w with cancel := none } mask = call.calls w mask := by
      have := calls_upd (w := w) call h.apart h.masked (w.heap out) none
      rwa [show w.upd out (w.heap out) none = { w with cancel := none } by simp [World.upd]] at this
    rw [hcalls] at h1
    obtain ⟨m1, f1, f2, f3, f4⟩ := Mat.run_ok (call.calls w mask) (h.output.wf hk) hk (calls_in_range call h)
      (f := (w.heap out).val) (fun i j _ _ => rfl)
    obtain rfl : m' = m1 := Out.ok.inj (h1.symm.trans f1)
    refine ⟨m', (rest (none : Option Nat) (call.doings { w with cancel := none } mask)).getD (some 0), ?_, f2, f3, f4⟩
    show OpCall.tries mask out call w [none] = _
    unfold OpCall.tries
    rw [h2]; rfl
  | c :: cs, w, h, hk => by
    have h0 := h.cancel c
    obtain ⟨m', h1, hi, hS, h2⟩ := replay_aux call h0
    have h1 : (w.heap out).run (made c (call.doings { w with cancel := c } mask)) = .ok m' := h1
    have hS : Mat.Same m' (w.heap out) := hS
    have hcalls : call.calls { w with cancel := c } mask = call.calls w mask := by
      have := calls_upd (w := w) call h.apart h.masked (w.heap out) c
      rwa [show w.upd out (w.heap out) c = { w with cancel := c } by simp [World.upd]] at this
    have hpre : ∀ o ∈ made c (call.doings { w with cancel := c } mask), o ∈ call.calls w mask := by
      intro o ho
      rw [← hcalls]
      cases c with
      | none => rwa [made_none, doings_calls] at ho
      | some k => rw [made_callsWithin] at ho; exact (callsWithin_prefix call k).subset ho
    obtain ⟨m1, f1, f2, f3, f4⟩ := Mat.run_ok _ (h.output.wf hk) hk (fun o ho => calls_in_range call h o (hpre o ho))
      (f := (w.heap out).val) (fun i j _ _ => rfl)
    obtain rfl : m' = m1 := Out.ok.inj (h1.symm.trans f1)
    have hw : ∀ c', World.upd { w with cancel := c } out m' c' = w.upd out m' c' := fun _ => rfl
    rw [hw] at h2
    generalize hc' : (rest ({ w with cancel := c } : World T).cancel (call.doings { w with cancel := c } mask)).getD (some 0) = c' at h2
    obtain ⟨m2, c2, g1, g2, g3, g4⟩ := tries_aux call hsub cs (w.upd out m' c') (h.upd hi hS c')
      (by rw [World.upd_out, hS.1]; exact hk)
    rw [World.upd_out] at g3 g4
    rw [World.upd_upd] at g1
    refine ⟨m2, c2, ?_, g2, g3.trans hS, fun i j hi hj => ?_⟩
    · show OpCall.tries mask out call w (c :: (cs ++ [none])) = _
      unfold OpCall.tries
      rw [h2]; exact g1
    · rw [g4 i j (by rw [hS.2.1]; exact hi) (by rw [hS.2.2]; exact hj), calls_upd call h.apart h.masked, hS.keep_eq]
      have hset := calls_isSet (w := w) (mask := mask) call hsub
      refine specRun_sets _ _ _ hset ?_
      by_cases ht : ∃ o ∈ call.calls w mask, o.Touches i j
      · exact Or.inr ht
      · left
        rw [f4 i j hi hj]
        exact specRun_untouched _ _ _ i j (fun o ho e => ht ⟨o, hpre o ho, e⟩)

end GB
