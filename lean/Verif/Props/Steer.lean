import Verif.Lemmas.Steer
import Verif.KernelRfl
import Mathlib.Tactic.IntervalCases

/-!
# C108: a search whose predicate writes the vector or the graph, panics, or never returns

The claim: `Search` calls the predicate once per round and at most `Rows()` times, always on the vector it will return; a
call that answers false is followed by a round that starts from the vector and the graph as the predicate left them; a call
that answers true, panics or does not return ends the search in the same way, at once.
-/

namespace GB

set_option linter.unusedSectionVars false

section ring
variable {T : Type} [GoRing T] [GoLawful T]

/-- C108: every source, every square graph that multiplication reads right, every predicate that keeps it so. `Rounds` says
what happens, round by round. -/
theorem C108_search {w : World T} {a : Ref} {s : Nat} {c : Ref → M T Bool} (han : a < w.next)
    (hw : (w.heap a).WF) (hsq : (w.heap a).cols = (w.heap a).rows) (hfit : (w.heap a).RowsFit)
    (hs : s < (w.heap a).rows) (hc : w.cancel = none) (hg : (w.heap a).rows ≤ w.gas)
    (hciv : BFS.Civil c w a (w.heap a).rows) :
    ∃ p, w.next ≤ p ∧ Rounds c a p w.next (w.heap a).rows (w.heap a).rows (fun i => if i = s then 1 else 0)
      (fun i => if i = s then 1 else 0) w (BFS.searchBy a s c w) := by
  obtain ⟨w3, frontier, visited, result, hrun, hold, hst⟩ := BFS.startBy (n := (w.heap a).rows) han ⟨hw, rfl, hsq, hfit⟩ hs hc
  refine ⟨result, hst.oR, ?_⟩
  rw [hrun c]
  exact BFS.turnsBy_ok hciv hg _ w3 w frontier _ _ hst hold

omit [GoLawful T] in
/-- C108: a search returns if its predicate always does. -/
theorem C108_returns {c : Ref → M T Bool} {a p : Ref} {own n k : Nat} {f seen : Nat → T} {last : World T} {r : Res T Ref}
    (h : Rounds c a p own n k f seen last r) (hc : ∀ w, ∃ b u, c p w = .ok b u) : ∃ u, r = .ok p u := by
  induction h with
  | over => exact ⟨_, rfl⟩
  | found => exact ⟨_, rfl⟩
  | panics _ e => obtain ⟨b, u, h⟩ := hc _; rw [e] at h; cases h
  | hangs _ e => obtain ⟨b, u, h⟩ := hc _; rw [e] at h; cases h
  | next _ _ _ ih => exact ih

omit [GoLawful T] in
/-- C108: a search panics only if its predicate did, and the program is then in the state the predicate left. -/
theorem C108_panics {c : Ref → M T Bool} {a p : Ref} {own n k : Nat} {f seen : Nat → T} {last : World T} {r : Res T Ref}
    (h : Rounds c a p own n k f seen last r) {u : World T} (hr : r = .panic u) : ∃ v, c p v = .panic u := by
  induction h with
  | over => cases hr
  | found => cases hr
  | panics _ e => cases hr; exact ⟨_, e⟩
  | hangs => cases hr
  | next _ _ _ ih => exact ih hr

/-- A predicate that sets the vector to 0 at the vertices `B`, writes nothing else, and answers whether the vector then is
non-zero at `t`. -/
def Erases (c : Ref → M T Bool) (B : Nat → Bool) (t n : Nat) : Prop :=
  ∀ p (w : World T), (w.heap p).WF → (w.heap p).kind = .dvec → (w.heap p).rows = n →
    ∃ v b, c p w = .ok b { w with heap := Function.update w.heap p v } ∧ v.WF ∧ v.kind = .dvec ∧ v.rows = n ∧
      (∀ i, i < n → v.val i 0 = if B i then 0 else (w.heap p).val i 0) ∧ (b = true ↔ v.val t 0 ≠ 0)

/-- C108, a use of it: search around obstacles. With a predicate that erases the vertices `B` and stops at `t`, the search
stops after the number of edges of a shortest walk to `t` that does not enter `B`, and the result holds at `t` the sum over
those walks; when there is none, the result is 0 everywhere. (As in C36, no such sum may fail to be positive.) -/
theorem C108_obstacles {w : World T} {a : Ref} {s t : Nat} {c : Ref → M T Bool} {B : Nat → Bool} (han : a < w.next)
    (hw : (w.heap a).WF) (hsq : (w.heap a).cols = (w.heap a).rows) (hfit : (w.heap a).RowsFit)
    (hs : s < (w.heap a).rows) (hc : w.cancel = none) (hg : (w.heap a).rows ≤ w.gas) (hz : GoNum.glt (0 : T) 0 = false)
    (ht : t < (w.heap a).rows) (he : Erases c B t (w.heap a).rows)
    {W : Nat → Nat → T} (hW : W = fun l r => if B r then 0 else (w.heap a).val r l)
    {E : Nat → Nat → Prop} (hE : E = fun l r => l < (w.heap a).rows ∧ r < (w.heap a).rows ∧ B r = false ∧ (w.heap a).val r l ≠ 0)
    (hpos : ∀ k v, v < (w.heap a).rows → Dist E s k v → GoNum.glt 0 (walkSum W (w.heap a).rows s k v) = true) :
    ∃ p u, BFS.searchBy a s c w = .ok p u ∧ (∀ q, q < w.next → u.heap q = w.heap q) ∧
      ((∃ d, 0 < d ∧ Dist E s d t ∧ (u.heap p).val t 0 = walkSum W (w.heap a).rows s d t) ∨
       ((∀ d, 0 < d → ¬ Dist E s d t) ∧ ∀ i, i < (w.heap a).rows → (u.heap p).val i 0 = 0)) := by
  have hciv : BFS.Civil c w a (w.heap a).rows := by
    refine ⟨?_, ?_, ?_⟩
    · intro p x b u F hp hpx e
      obtain ⟨v, b', e', h1, h2, h3, -, -⟩ := he p x F.vec.wf F.vec.kind F.vec.rows
      rw [e] at e'
      injection e' with _ e'
      subst e'
      refine ⟨?_, ?_, F.cancel, F.gas⟩
      · simp only [Function.update_of_ne (Nat.ne_of_lt (Nat.lt_of_lt_of_le han hp))]
        exact F.net
      · simp only [Function.update_self]
        exact ⟨h1, h2, h3⟩
    · intro p x b u F hp hpx e
      obtain ⟨v, b', e', -⟩ := he p x F.vec.wf F.vec.kind F.vec.rows
      rw [e] at e'
      injection e' with _ e'
      subst e'
      exact Nat.le_refl _
    · intro p x b u q F hp hpx e hq hqx hne
      obtain ⟨v, b', e', -⟩ := he p x F.vec.wf F.vec.kind F.vec.rows
      rw [e] at e'
      injection e' with _ e'
      subst e'
      simp only [Function.update_of_ne hne]
  obtain ⟨p, hp, hR⟩ := C108_search (s := s) han hw hsq hfit hs hc hg hciv
  have hEW : ∀ l r, E l r ↔ l < (w.heap a).rows ∧ r < (w.heap a).rows ∧ W l r ≠ 0 := by
    intro l r
    rw [hE, hW]
    cases B r <;> simp
  generalize hr : BFS.searchBy a s c w = r at hR
  clear hr hciv
  suffices key : ∀ k f seen last r, Rounds c a p w.next (w.heap a).rows k f seen last r → ∀ d, k + d = (w.heap a).rows →
      BFS.LevelF W E (w.heap a).rows s d f → BFS.SeenF W E (w.heap a).rows s d seen →
      (∀ q, q < w.next → last.heap q = w.heap q) → (∀ j, 0 < j → j ≤ d → ¬ Dist E s j t) →
      ∃ p u, r = .ok p u ∧ (∀ q, q < w.next → u.heap q = w.heap q) ∧
        ((∃ d, 0 < d ∧ Dist E s d t ∧ (u.heap p).val t 0 = walkSum W (w.heap a).rows s d t) ∨
         ((∀ d, 0 < d → ¬ Dist E s d t) ∧ ∀ i, i < (w.heap a).rows → (u.heap p).val i 0 = 0)) by
    refine key _ _ _ _ _ hR 0 rfl ?_ ?_ (fun _ _ => rfl) (fun j h1 h2 => by omega)
    · intro i hi
      refine ⟨fun _ => rfl, fun hc => ?_⟩
      refine if_neg ?_
      rintro rfl
      exact hc ⟨.zero, fun k hk => absurd hk (Nat.not_lt_zero k)⟩
    · intro i hi
      refine ⟨fun k hk h => ?_, fun hc => ?_⟩
      · obtain rfl : k = 0 := by omega
        rfl
      · refine if_neg ?_
        rintro rfl
        exact hc ⟨0, le_refl _, .zero⟩
  have call : ∀ {f seen : Nat → T} {last before : World T} {d : Nat}, Asked a p w.next (w.heap a).rows f seen last before →
      BFS.LevelF W E (w.heap a).rows s d f → BFS.SeenF W E (w.heap a).rows s d seen →
      (∀ q, q < w.next → last.heap q = w.heap q) →
      ∃ b u, c p before = .ok b u ∧ (∀ q, q < w.next → u.heap q = w.heap q) ∧
        BFS.LevelF W E (w.heap a).rows s (d + 1) (fun i => (u.heap p).val i 0) ∧ (b = true ↔ (u.heap p).val t 0 ≠ 0) := by
    intro f seen last before d hA hf hsn hold
    obtain ⟨v, b, e, -, -, -, hv, hb⟩ := he p before hA.wf hA.kind hA.rows
    refine ⟨b, _, e, fun q hq => ?_, ?_, by simpa using hb⟩
    · simp only [Function.update_of_ne (Nat.ne_of_lt (Nat.lt_of_lt_of_le hq hp))]
      rw [hA.old q hq, hold q hq]
    · intro i hi
      have := hf.step hEW hz hsn hpos i hi
      simp only [Function.update_self]
      rw [hv i hi, hA.vals i hi, hold a han]
      have hx : (if B i then 0 else nextLevel (w.heap a) f seen i) =
          if GoNum.glt 0 (seen i) then 0 else ∑ l ∈ Finset.range (w.heap a).rows, W l i * f l := by
        unfold nextLevel
        rw [hsq, hW]
        cases hB : B i <;> simp [hB]
      rw [hx]
      exact this
  have found : ∀ {d : Nat} {u : World T}, BFS.LevelF W E (w.heap a).rows s (d + 1) (fun i => (u.heap p).val i 0) →
      ((u.heap p).val t 0 ≠ 0 ↔ Dist E s (d + 1) t) := by
    intro d u h
    refine ⟨fun hne => ?_, fun hd => ?_⟩
    · by_contra hn
      exact hne ((h t ht).2 hn)
    · have h1 := (h t ht).1 hd
      intro h0
      have h2 := hpos _ t ht hd
      rw [← h1] at h2
      simp only [h0, hz] at h2
      cases h2
  intro k f seen last r h
  induction h with
  | @over f seen last x old kind rows zero =>
    intro d hd hf hsn hold hno
    refine ⟨p, x, rfl, fun q hq => (old q hq).trans (hold q hq), Or.inr ⟨fun j hj hD => ?_, zero⟩⟩
    have := hD.lt hs (fun u v huv => ((hEW u v).1 huv).2.1)
    exact hno j hj (by omega) hD
  | @found k f seen last before x hA hcx =>
    intro d hd hf hsn hold hno
    obtain ⟨b, u, e, h1, h2, h3⟩ := call hA hf hsn hold
    rw [hcx] at e
    injection e with e1 e2
    subst e1 e2
    have hD := (found h2).1 (h3.1 rfl)
    exact ⟨p, x, rfl, h1, Or.inl ⟨d + 1, Nat.succ_pos d, hD, (h2 t ht).1 hD⟩⟩
  | panics hA hcx =>
    intro d hd hf hsn hold hno
    obtain ⟨b, u, e, -⟩ := call hA hf hsn hold
    rw [hcx] at e; cases e
  | hangs hA hcx =>
    intro d hd hf hsn hold hno
    obtain ⟨b, u, e, -⟩ := call hA hf hsn hold
    rw [hcx] at e; cases e
  | @next k f seen last before x r hA hcx hn ih =>
    intro d hd hf hsn hold hno
    obtain ⟨b, u, e, h1, h2, h3⟩ := call hA hf hsn hold
    rw [hcx] at e
    injection e with e1 e2
    subst e1 e2
    refine ih (d + 1) (by omega) h2 (BFS.SeenF.step h2 hsn) h1 (fun j hj hj' hD => ?_)
    by_cases hjd : j = d + 1
    · subst hjd
      have := h3.2 ((found h2).2 hD)
      cases this
    · exact hno j hj (by omega) hD

end ring

section general
variable {T : Type} [GoNum T]

theorem BFS.turnsBy_plain {a visited result : Ref} {g : Mat T → Bool} : ∀ (n : Nat) (frontier : Ref) (tr : List (Mat T))
    (w : World T), BFS.turnsBy a visited result (fun p => BFS.look p >>= fun v => pure (g v)) n frontier w =
      (BFS.turns a visited result (fun calls => (calls.getLast?.map g).getD false) n frontier tr >>= fun _ => pure ()) w := by
  intro n
  induction n with
  | zero => intro _ _ _; rfl
  | succ n ih =>
    intro frontier tr w
    rw [BFS.turnsBy, BFS.turns]
    simp only [M.bind_apply]
    cases Ops.matrixVectorMultiply a frontier (.ref visited) result w with
    | panic => rfl
    | hang => rfl
    | ok _ w =>
      simp only [BFS.look, List.getLast?_append, List.getLast?_singleton, Option.some_or, Option.map_some, Option.getD_some]
      show (if g _ then _ else _ : M T Unit) w = _
      by_cases hb : g (w.heap result) = true
      · simp [hb, M.bind_apply]
      · simp only [hb, Bool.false_eq_true, if_false, M.bind_apply]
        cases Ops.elementWiseVectorAdd visited result .nil visited w with
        | panic => rfl
        | hang => rfl
        | ok _ w =>
          simp only []
          cases M.copy result w with
          | panic => rfl
          | hang => rfl
          | ok f w => exact ih f _ _

/-- C108: for a predicate that only looks at the vector this is the `Search` of C36. -/
theorem C108_plain {a : Ref} {s : Int} {g : Mat T → Bool} (w : World T) :
    BFS.searchBy a s (fun p => BFS.look p >>= fun v => pure (g v)) w =
      (BFS.search a s (fun calls => (calls.getLast?.map g).getD false) >>= fun r => pure r.1) w := by
  unfold BFS.searchBy BFS.search
  simp only [M.bind_apply, M.rowsOf_apply]
  cases hv : M.lift ((DVec.new (w.heap a).rows : DVec T).setVec s 1) w with
  | panic => rfl
  | hang => rfl
  | ok v w =>
    simp only []
    cases hf : M.alloc (.dvec v) w with
    | panic => rfl
    | hang => rfl
    | ok f w =>
      simp only []
      cases hc : M.copy f w with
      | panic => rfl
      | hang => rfl
      | ok vis w =>
        simp only []
        cases M.alloc (.dvec (DVec.new _)) w with
        | panic => rfl
        | hang => rfl
        | ok res w =>
          simp only []
          rw [BFS.turnsBy_plain _ _ [], M.bind_apply]
          cases BFS.turns a vis res _ _ f [] w <;> rfl

end general

/-! ## Concrete cases -/

/-- The cycle 0 → 1 → 2 → 0 with a path 0 → 3 → 4 → 2 beside it. -/
def ringRoad : Mat ℤ := .dense ⟨5, 5, [[0, 0, 1, 0, 0], [1, 0, 0, 0, 0], [0, 1, 0, 0, 1], [1, 0, 0, 0, 0], [0, 0, 0, 1, 0]]⟩

/-- `func(v Vector) bool { v.SetVec(1, 0); return v.AtVec(2) != 0 }`. -/
def avoid1 : Ref → M ℤ Bool := fun p w =>
  match w.heap p with
  | .dvec s =>
    match s.setVec 1 0 with
    | .ok s' => .ok (decide (s'.cell 2 ≠ 0)) { w with heap := Function.update w.heap p (.dvec s') }
    | _ => .panic w
  | _ => .panic w

/-- `func(v Vector) bool { return v.AtVec(2) != 0 }`. -/
def plain2 : Ref → M ℤ Bool := fun p w => .ok (decide ((w.heap p).val 2 0 ≠ 0)) w

/-- `func(v Vector) bool { if v.AtVec(2) != 0 { panic("found") }; return false }`. -/
def panic2 : Ref → M ℤ Bool := fun p w => if (w.heap p).val 2 0 ≠ 0 then .panic w else .ok false w

/-- `avoid1` is a predicate as in `C108_obstacles`. -/
theorem avoid1_erases : Erases avoid1 (fun i => i == 1) 2 5 := by
  intro p w h1 h2 h3
  cases hp : w.heap p with
  | dvec s =>
    rw [hp] at h1 h3
    have h1 : s.WF := h1
    have h3 : s.l = 5 := h3
    have e := DVec.setVec_ok h1 (i := 1) (by omega) (0 : ℤ)
    have hw : DVec.WF { s with values := s.values.set 1 0 } := DVec.setVec_wf (i := 1) (v := 0) h1
    have hc := DVec.setVec_cell h1 (i := 1) (by omega) (0 : ℤ)
    refine ⟨.dvec { s with values := s.values.set 1 0 },
      decide (({ s with values := s.values.set 1 0 } : DVec ℤ).cell 2 ≠ 0), ?_, hw, rfl, h3, fun i hi => ?_, ?_⟩
    · have e : s.setVec 1 0 = _ := e
      simp only [avoid1, hp, e]
    · rw [Mat.val_dvec hw (by show i < s.l; omega), Mat.val_dvec h1 (by omega), hc i]
      by_cases hi1 : i = 1 <;> simp [hi1]
    · rw [Mat.val_dvec hw (by show 2 < s.l; omega)]
      simp
  | dense _ => rw [hp] at h2; cases h2
  | csr _ => rw [hp] at h2; cases h2
  | csc _ => rw [hp] at h2; cases h2
  | svec _ => rw [hp] at h2; cases h2

/-- Without obstacles vertex 2 is found in the second round; around vertex 1, in the third; the predicate that panics ends
the search in a panic, and the vector it saw is the one of the second round. -/
example :
    (match BFS.searchBy 0 0 plain2 (World.of 9 [ringRoad]) with
      | .ok p w => some (w.heap p)
      | _ => none) = some (.dvec ⟨5, [0, 0, 1, 0, 1]⟩) ∧
    (match BFS.searchBy 0 0 avoid1 (World.of 9 [ringRoad]) with
      | .ok p w => some (w.heap p)
      | _ => none) = some (.dvec ⟨5, [0, 0, 1, 0, 0]⟩) ∧
    (match BFS.searchBy 0 0 panic2 (World.of 9 [ringRoad]) with
      | .panic w => some (w.heap 3)
      | _ => none) = some (.dvec ⟨5, [0, 0, 1, 0, 1]⟩) := by
  refine ⟨?_, ?_, ?_⟩ <;> kernel_rfl

/-- The hypotheses of `C108_obstacles` hold there. -/
example : ∃ p u, BFS.searchBy 0 0 avoid1 (World.of 9 [ringRoad]) = .ok p u ∧ u.heap 0 = ringRoad := by
  obtain ⟨p, u, h1, h2, -⟩ := C108_obstacles (w := World.of 9 [ringRoad]) (a := 0) (s := 0) (t := 2) (c := avoid1) (B := fun i => i == 1) (by decide)
    ⟨rfl, by intro row hr; simp at hr; rcases hr with rfl | rfl | rfl | rfl | rfl <;> rfl⟩ rfl
    (Mat.fit_dense (by decide)).1 (by decide) rfl (by decide) rfl (by decide) avoid1_erases rfl rfl (by
      have nonneg : ∀ i j, i < 5 → j < 5 → 0 ≤ ringRoad.val i j := by
        intro i j hi hj
        interval_cases i <;> interval_cases j <;> decide
      intro k v hv hd
      refine decide_eq_true ((walkSum_pos (fun l r hl hr => ?_) ?_).2 k v hd.1)
      · show 0 ≤ if (r == 1) = true then (0 : ℤ) else ringRoad.val r l
        split
        · exact le_refl _
        · exact nonneg r l hr hl
      · rintro l r ⟨h1, h2, h3, h4⟩
        refine ⟨h1, h2, ?_⟩
        show 0 < if (r == 1) = true then (0 : ℤ) else ringRoad.val r l
        have h3 : (r == 1) = false := h3
        rw [h3, if_neg (by simp)]
        exact lt_of_le_of_ne (nonneg r l h2 h1) (Ne.symm h4))
  exact ⟨p, u, h1, h2 0 (by decide)⟩

end GB
