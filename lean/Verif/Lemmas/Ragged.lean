import Verif.Lemmas.History

/-!
# Filling a matrix from an array whose rows differ in length
-/

namespace GB

set_option linter.unusedSectionVars false

theorem loop_panic {σ : Type} (Inv : Nat → σ → Prop) {f : Nat → σ → Out σ} :
    ∀ (n i0 k : Nat) (s : σ), Inv i0 s → i0 ≤ k → k < i0 + n →
      (∀ i s, i0 ≤ i → i < k → Inv i s → ∃ s', f i s = .ok s' ∧ Inv (i + 1) s') →
      (∀ s, Inv k s → f k s = .panic) → loop n i0 f s = .panic := by
  intro n
  induction n with
  | zero => intro i0 k s _ h1 h2; omega
  | succ n ih =>
    intro i0 k s h h1 h2 hstep hpanic
    rw [loop]
    rcases Nat.eq_or_lt_of_le h1 with rfl | hlt
    · rw [hpanic s h]; rfl
    · obtain ⟨s1, e1, e2⟩ := hstep i0 s (Nat.le_refl _) hlt h
      rw [e1, Out.ok_bind]
      exact ih (i0 + 1) k s1 e2 hlt (by omega) (fun i s a b => hstep i s (by omega) b) hpanic

namespace Mat

variable {T : Type} [GoNum T] [GoStore T]

omit [GoStore T] in
/-- Cells beyond the first `c` of a row are not read. -/
theorem fill_trim {data : List (List T)} {r c : Nat} (m : Mat T) (h : ∀ row ∈ data, c ≤ row.length) :
    fill data r c m = fill (data.map (List.take c)) r c m := by
  unfold fill
  refine loop_congr _ _ _ fun i m _ hi => loop_congr _ _ _ fun k m _ hk => ?_
  rw [Nat.zero_add] at hk
  by_cases hid : i < data.length
  · have hrow := h data[i] (List.getElem_mem hid)
    have e : (data.map (List.take c))[i]'(by simpa using hid) = (data[i]).take c := by simp
    rw [idx_ok hid, idx_ok (l := data.map (List.take c)) (by simpa using hid), Out.ok_bind, Out.ok_bind, e,
      idx_ok (by omega), idx_ok (l := (data[i]).take c) (by simp; omega)]
    simp
  · simp [idx, hid]

/-- A row shorter than `c` makes the filling panic. -/
theorem fill_short {data : List (List T)} {c : Nat} {m : Mat T} (h : m.WF) (hk : m.kind ≠ .svec)
    (hr : m.rows = data.length) (hcc : m.cols = c) (hs : ∃ row ∈ data, row.length < c) :
    fill data data.length c m = .panic := by
  classical
  have hex : ∃ i, ∃ h : i < data.length, data[i].length < c := by
    obtain ⟨row, hm, hlt⟩ := hs
    obtain ⟨i, hi, rfl⟩ := List.getElem_of_mem hm
    exact ⟨i, hi, hlt⟩
  obtain ⟨k, ⟨h1, h2⟩, hmin⟩ : ∃ k, (∃ h : k < data.length, data[k].length < c) ∧
      ∀ i, i < k → ∀ h : i < data.length, c ≤ data[i].length := by
    refine ⟨Nat.find hex, Nat.find_spec hex, fun i hi hlt => ?_⟩
    by_contra hc
    exact Nat.find_min hex hi ⟨hlt, by omega⟩
  have row : ∀ (i : Nat) (hid : i < data.length) (n : Nat) (m1 : Mat T), m1.WF → Same m1 m → n ≤ data[i].length → n ≤ c →
      ∀ j m2, m2.WF ∧ Same m2 m → j < n → ∃ m3, (do
        let row ← idx data i
        let v ← idx row j
        m2.set i j v) = .ok m3 ∧ m3.WF ∧ Same m3 m := by
    intro i hid n m1 _ _ hn hnc j m2 ⟨w2, s2⟩ hj
    obtain ⟨m4, e1, e2⟩ := set_ok w2 (by rw [s2.1]; exact hk) (i := i) (j := j)
      (by rw [s2.2.1, hr]; exact hid) (by rw [s2.2.2, hcc]; omega) (data[i][j])
    refine ⟨m4, ?_, e2.wf, e2.same.trans s2⟩
    simp only [idx_ok hid, idx_ok (l := data[i]) (show j < _ by omega), Out.ok_bind, e1]
  unfold fill
  refine loop_panic (fun _ m' => m'.WF ∧ Same m' m) data.length 0 k m ⟨h, Same.refl m⟩ (Nat.zero_le _)
    (by omega) ?_ ?_
  · intro i m1 _ hi hm1
    have hid : i < data.length := by omega
    obtain ⟨m2, e1, e2⟩ := loop_inv
      (f := fun k m => do
        let row ← idx data i
        let v ← idx row k
        m.set i k v) (fun _ m' => m'.WF ∧ Same m' m) c 0 m1 hm1
      (fun j m2 _ hj hm2 => row i hid c m1 hm1.1 hm1.2 (hmin i hi hid) (Nat.le_refl _) j m2 hm2 (by omega))
    exact ⟨m2, e1, e2⟩
  · intro m1 hm1
    refine loop_panic (fun _ m' => m'.WF ∧ Same m' m) c 0 (data[k]).length m1 hm1 (Nat.zero_le _) (by omega) ?_ ?_
    · intro j m2 _ hj hm2
      exact row k h1 (data[k]).length m1 hm1.1 hm1.2 (Nat.le_refl _) (by omega) j m2 hm2 hj
    · intro m2 _
      rw [idx_ok h1, Out.ok_bind]
      simp [idx]

end Mat
end GB
