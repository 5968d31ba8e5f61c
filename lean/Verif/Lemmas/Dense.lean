import Verif.Lemmas.DVec
import Verif.Model.Dense

/-!
# Dense matrices
-/

namespace GB

set_option linter.unusedSectionVars false
set_option linter.unusedSimpArgs false

variable {T : Type} [GoNum T]

namespace Dense

/-- The slices have the advertised lengths. -/
structure WF (s : Dense T) : Prop where
  rows : s.data.length = s.r
  cols : ∀ row ∈ s.data, row.length = s.c

/-- The value at a position. -/
def cell (s : Dense T) (i j : Nat) : T := (s.data.getD i []).getD j 0

theorem wf_new (r c : Nat) : WF (new r c : Dense T) := by
  constructor
  · simp [new]
  · intro row hr; simp [new] at hr ⊢; rw [hr.2]; simp

theorem cell_new (r c i j : Nat) : cell (new r c : Dense T) i j = 0 := by
  unfold cell new
  by_cases h : i < r
  · by_cases h2 : j < c <;> simp [List.getD, List.getElem?_replicate, h, h2]
  · simp [List.getD, List.getElem?_replicate, h]

theorem row_ok {s : Dense T} (h : WF s) {i : Nat} (hi : i < s.r) :
    ∃ row, idx s.data i = .ok row ∧ row.length = s.c ∧ s.data.getD i [] = row ∧ row ∈ s.data := by
  have hl : i < s.data.length := by rw [h.rows]; exact hi
  exact ⟨s.data[i], idx_ok hl, h.cols _ (List.getElem_mem hl), by simp [List.getD, hl],
    List.getElem_mem hl⟩

theorem at_ok {s : Dense T} (h : WF s) {i j : Nat} (hi : i < s.r) (hj : j < s.c) :
    s.at' i j = .ok (s.cell i j) := by
  obtain ⟨row, h1, h2, h3, -⟩ := row_ok h hi
  have hl : j < row.length := by omega
  simp only [at', inRange_natCast, hi, hj, decide_true, if_true, Int.toNat_natCast, h1, Out.ok_bind,
    idx_ok hl]
  rw [show s.cell i j = row.getD j 0 by unfold cell; rw [h3]]
  simp [List.getD, hl]

theorem set_ok {s : Dense T} (h : WF s) {i j : Nat} (hi : i < s.r) (hj : j < s.c) (v : T) :
    ∃ s', s.set i j v = .ok s' ∧ WF s' ∧ s'.r = s.r ∧ s'.c = s.c ∧
      ∀ a b, s'.cell a b = if a = i ∧ b = j then v else s.cell a b := by
  obtain ⟨row, h1, h2, h3, h4⟩ := row_ok h hi
  have hl : j < row.length := by omega
  have hd : i < s.data.length := by rw [h.rows]; exact hi
  refine ⟨{ s with data := s.data.set i (row.set j v) }, ?_, ⟨?_, ?_⟩, rfl, rfl, ?_⟩
  · simp only [set, inRange_natCast, hi, hj, decide_true, if_true, Int.toNat_natCast, h1, Out.ok_bind,
      setIdx_ok hl, setIdx_ok hd]
  · simpa using h.rows
  · intro x hx
    rcases List.mem_or_eq_of_mem_set hx with hx | rfl
    · exact h.cols x hx
    · simpa using h2
  · intro a b
    unfold cell
    by_cases ha : a = i
    · subst ha
      have e : (s.data.set a (row.set j v)).getD a [] = row.set j v := by
        simp [List.getD, hd]
      simp only [e, h3]
      by_cases hb : b = j
      · subst hb; simp [List.getD, hl]
      · simp [List.getD, List.getElem?_set, hb, Ne.symm hb]
    · have e : (s.data.set i (row.set j v)).getD a [] = s.data.getD a [] := by
        simp [List.getD, List.getElem?_set, Ne.symm ha]
      simp only [e]
      simp [ha]

theorem updateWith_eq {β : Type} {s : Dense T} (h : WF s) {i j : Nat} (hi : i < s.r) (hj : j < s.c)
    (f : T → β × T) :
    s.updateWith i j f = (fun s' => ((f (s.cell i j)).1, s')) <$> s.set i j (f (s.cell i j)).2 := by
  obtain ⟨row, h1, h2, h3, h4⟩ := row_ok h hi
  have hl : j < row.length := by omega
  have hd : i < s.data.length := by rw [h.rows]; exact hi
  have hc : row[j] = s.cell i j := by
    rw [show s.cell i j = row.getD j 0 by unfold cell; rw [h3]]
    simp [List.getD, hl]
  simp only [updateWith, set, inRange_natCast, hi, hj, decide_true, if_true, Int.toNat_natCast, h1,
    Out.ok_bind, idx_ok hl, setIdx_ok hl, setIdx_ok hd, hc, Out.map_ok]

theorem update_eq {s : Dense T} (h : WF s) {i j : Nat} (hi : i < s.r) (hj : j < s.c)
    (f : T → T) : s.update i j f = s.set i j (f (s.cell i j)) := by
  unfold update
  rw [updateWith_eq h hi hj]
  obtain ⟨s', h1, -⟩ := set_ok h hi hj (f (s.cell i j))
  simp [h1]

theorem at_panic (s : Dense T) (i j : Int)
    (h : ¬ (inRange i s.r = true ∧ inRange j s.c = true)) : s.at' i j = .panic := by
  unfold at'
  by_cases h1 : inRange i s.r = true
  · rw [if_pos h1, if_neg (fun h2 => h ⟨h1, h2⟩)]
  · rw [if_neg h1]

theorem set_panic (s : Dense T) (i j : Int) (v : T)
    (h : ¬ (inRange i s.r = true ∧ inRange j s.c = true)) : s.set i j v = .panic := by
  unfold set
  by_cases h1 : inRange i s.r = true
  · rw [if_pos h1, if_neg (fun h2 => h ⟨h1, h2⟩)]
  · rw [if_neg h1]

theorem updateWith_panic {β : Type} (s : Dense T) (i j : Int) (f : T → β × T)
    (h : ¬ (inRange i s.r = true ∧ inRange j s.c = true)) : s.updateWith i j f = .panic := by
  unfold updateWith
  by_cases h1 : inRange i s.r = true
  · rw [if_pos h1, if_neg (fun h2 => h ⟨h1, h2⟩)]
  · rw [if_neg h1]

theorem row_eq_map {s : Dense T} (h : WF s) {i : Nat} (hi : i < s.r) :
    s.data.getD i [] = (List.range s.c).map (fun j => s.cell i j) := by
  obtain ⟨row, h1, h2, h3, -⟩ := row_ok h hi
  have e : (fun j => s.cell i j) = fun j => row.getD j 0 := by
    funext j; unfold cell; rw [h3]
  rw [e, ← h2, map_range_getElem, h3]

theorem data_eq {s : Dense T} (h : WF s) :
    s.data = (List.range s.r).map (fun i => (List.range s.c).map (fun j => s.cell i j)) := by
  have e := map_range_getElem s.data []
  rw [h.rows] at e
  conv => lhs; rw [← e]
  apply List.map_congr_left
  intro i hi
  exact row_eq_map h (by simpa using hi)

theorem body_ok {s : Dense T} (h : WF s) {i j : Nat} (hi : i < s.r) (hj : j < s.c) {α : Type}
    (k : T → Out α) : (do let row ← idx s.data i; let v ← idx row j; k v) = k (s.cell i j) := by
  obtain ⟨row, h1, h2, h3, -⟩ := row_ok h hi
  have hl : j < row.length := by omega
  rw [show s.cell i j = row.getD j 0 by unfold cell; rw [h3]]
  simp [h1, idx_ok hl, List.getD, hl]

theorem rowsAtToArray_ok {s : Dense T} (h : WF s) {i : Nat} (hi : i < s.r) :
    s.rowsAtToArray i = .ok ((List.range s.c).map (fun j => s.cell i j)) := by
  unfold rowsAtToArray
  simp only [inRange_natCast, hi, decide_true, if_true, Int.toNat_natCast]
  exact loop_fill _ _ _ _ (fun j l hj => body_ok h hi hj _)

/-- A loop of `SetVec` over a fresh dense vector. -/
theorem loop_setVec (n : Nat) (g : Nat → T) (f : Nat → DVec T → Out (DVec T))
    (hf : ∀ i d, i < n → f i d = d.setVec i (g i)) :
    loop n 0 f (DVec.new n) = .ok { l := n, values := (List.range n).map g } := by
  obtain ⟨d, h1, h2⟩ := loop_inv (f := f)
    (Inv := fun i d => d.l = n ∧ d.values = ((List.range n).map g).take i ++
      List.replicate (((List.range n).map g).length - i) 0)
    n 0 (DVec.new n) (by simp [DVec.new])
    (by
      intro i d _ hi ⟨e0, e1⟩
      have hi : i < n := by omega
      have hid : i < d.l := by omega
      have := copy_step ((List.range n).map g) (0 : T) (i := i) (by simpa using hi)
      have e2 : ((List.range n).map g)[i]'(by simpa using hi) = g i := by simp
      rw [e2] at this
      rw [hf i d hi]
      simp only [DVec.setVec, inRange_natCast, hid, decide_true, if_true, Int.toNat_natCast, e1, this,
        Out.ok_bind]
      exact ⟨_, rfl, e0, rfl⟩)
  rw [h1]
  obtain ⟨e0, e1⟩ := h2
  have e1' : d.values = (List.range n).map g := by rw [e1]; simp
  cases d
  simp only at e0 e1'
  rw [e0, e1']

theorem rowsAt_ok {s : Dense T} (h : WF s) {i : Nat} (hi : i < s.r) :
    s.rowsAt i = .ok { l := s.c, values := (List.range s.c).map (fun j => s.cell i j) } := by
  unfold rowsAt
  simp only [inRange_natCast, hi, decide_true, if_true, Int.toNat_natCast]
  exact loop_setVec _ _ _ (fun j l hj => body_ok h hi hj _)

theorem columnsAt_ok {s : Dense T} (h : WF s) {j : Nat} (hj : j < s.c) :
    s.columnsAt j = .ok { l := s.r, values := (List.range s.r).map (fun i => s.cell i j) } := by
  unfold columnsAt
  simp only [inRange_natCast, hj, decide_true, if_true, Int.toNat_natCast]
  exact loop_setVec _ _ _ (fun i l hi => body_ok h hi hj _)

theorem copy_ok {s : Dense T} (h : WF s) : s.copy = .ok s := by
  unfold copy
  have := loop_fill s.r ([] : List T) (fun i => (List.range s.c).map (fun j => s.cell i j))
    (fun i data => do
      let row ← loop s.c 0 (fun c row => do
          let srow ← idx s.data i
          let v ← idx srow c
          setIdx row c v) (List.replicate s.c 0)
      setIdx data i row)
    (by
      intro i l hi
      have := loop_fill s.c (0 : T) (fun j => s.cell i j)
        (fun c row => do
          let srow ← idx s.data i
          let v ← idx srow c
          setIdx row c v) (fun j l hj => body_ok h hi hj _)
      simp only [this, Out.ok_bind])
  rw [this]
  simp only [Out.ok_bind, ← data_eq h]

/-! ## Iteration -/

/-- The entries in the order of iteration. -/
def entries (s : Dense T) : List (Nat × Nat × T) :=
  (List.range (s.r * s.c)).map (fun k => (k / s.c, k % s.c, s.cell (k / s.c) (k % s.c)))

theorem pos_lt {r c k : Nat} (h : k < r * c) : k / c < r ∧ k % c < c := by
  have hc : 0 < c := by
    rcases Nat.eq_zero_or_pos c with h0 | h0
    · subst h0; simp at h
    · exact h0
  exact ⟨(Nat.div_lt_iff_lt_mul hc).2 h, Nat.mod_lt _ hc⟩

theorem rowMajor (s : Dense T) : RowMajor s.entries := by
  unfold RowMajor entries
  rw [List.pairwise_map]
  refine List.Pairwise.imp ?_ (List.pairwise_lt_range (n := s.r * s.c))
  intro a b hab
  simp only
  have h1 := Nat.div_add_mod a s.c
  have h2 := Nat.div_add_mod b s.c
  rcases Nat.lt_or_ge (a / s.c) (b / s.c) with h | h
  · exact Or.inl h
  · right
    have h3 : a / s.c ≤ b / s.c := Nat.div_le_div_right (by omega)
    have h4 : a / s.c = b / s.c := by omega
    rw [h4] at h1
    exact ⟨h4, by omega⟩

theorem faithful (s : Dense T) : Faithful s.r s.c s.cell s.entries := by
  refine ⟨?_, ?_, ?_, ?_⟩
  · intro e he
    obtain ⟨k, hk, rfl⟩ := List.mem_map.1 he
    exact pos_lt (by simpa using hk)
  · exact (rowMajor s).imp (fun hab => by omega)
  · intro e he
    obtain ⟨k, hk, rfl⟩ := List.mem_map.1 he
    rfl
  · intro i j hi hj _
    refine List.mem_map.2 ⟨s.c * i + j, ?_, ?_⟩
    · simp
      calc s.c * i + j < s.c * i + s.c := by omega
        _ = s.c * (i + 1) := by rw [Nat.mul_succ]
        _ ≤ s.c * s.r := Nat.mul_le_mul_left _ hi
        _ = s.r * s.c := Nat.mul_comm _ _
    · have e1 : (s.c * i + j) / s.c = i := by
        rw [Nat.mul_add_div (by omega), Nat.div_eq_of_lt hj]; omega
      have e2 : (s.c * i + j) % s.c = j := by
        rw [Nat.mul_add_mod, Nat.mod_eq_of_lt hj]
      rw [e1, e2]

theorem entries_all (s : Dense T) : ∀ i j, i < s.r → j < s.c → (i, j, s.cell i j) ∈ s.entries := by
  intro i j hi hj
  refine List.mem_map.2 ⟨s.c * i + j, ?_, ?_⟩
  · simp
    calc s.c * i + j < s.c * i + s.c := by omega
      _ = s.c * (i + 1) := by rw [Nat.mul_succ]
      _ ≤ s.c * s.r := Nat.mul_le_mul_left _ hi
      _ = s.r * s.c := Nat.mul_comm _ _
  · have e1 : (s.c * i + j) / s.c = i := by
      rw [Nat.mul_add_div (by omega), Nat.div_eq_of_lt hj]; omega
    have e2 : (s.c * i + j) % s.c = j := by
      rw [Nat.mul_add_mod, Nat.mod_eq_of_lt hj]
    rw [e1, e2]

/-- The iterator has delivered the first `k` entries. -/
structure IterAt (s : Dense T) (it : Iter) (k : Nat) : Prop where
  size : it.size = s.r * s.c
  last : it.last = k
  pos : s.c * it.r + it.c = k
  le : it.c ≤ s.c

theorem iter_init (s : Dense T) : IterAt s s.iter 0 := ⟨rfl, rfl, by simp [iter], by simp [iter]⟩

theorem step_ok {s : Dense T} (h : WF s) {it : Iter} {k : Nat} (hit : IterAt s it k)
    (hk : k < s.r * s.c) :
    ∃ it', s.step it = .ok (it', k / s.c, k % s.c, s.cell (k / s.c) (k % s.c)) ∧
      IterAt s it' (k + 1) ∧ it'.r = k / s.c ∧ it'.cOld = k % s.c := by
  obtain ⟨h1, h2⟩ := pos_lt hk
  have hp := hit.pos
  have hl := hit.le
  have hn : (s.next it).r = k / s.c ∧ (s.next it).cOld = k % s.c := by
    by_cases hc : it.c = s.c
    · have e : k = s.c * (it.r + 1) := by rw [Nat.mul_succ]; omega
      simp only [next, hc, if_true]
      refine ⟨?_, ?_⟩
      · rw [e, Nat.mul_div_cancel_left _ (by omega)]
      · rw [e, Nat.mul_mod_right]
    · simp only [next, hc, if_false]
      refine ⟨?_, ?_⟩
      · rw [← hp, Nat.mul_add_div (by omega), Nat.div_eq_of_lt (by omega)]; omega
      · rw [← hp, Nat.mul_add_mod, Nat.mod_eq_of_lt (by omega)]
  refine ⟨s.next it, ?_, ⟨?_, ?_, ?_, ?_⟩, hn.1, hn.2⟩
  · unfold step
    simp only [hn.1, hn.2, at_ok h h1 h2, Out.ok_bind]
  · by_cases hc : it.c = s.c <;> simp [next, hc, hit.size]
  · by_cases hc : it.c = s.c <;> simp [next, hc, hit.last]
  · by_cases hc : it.c = s.c
    · simp only [next, hc, if_true]; rw [Nat.mul_succ]; omega
    · simp only [next, hc, if_false]; omega
  · by_cases hc : it.c = s.c
    · simp only [next, hc, if_true]; omega
    · simp only [next, hc, if_false]; omega

theorem yields {s : Dense T} (h : WF s) : Yields Iter.hasNext s.step s.iter s.entries := by
  have key : ∀ n k it, n + k = s.r * s.c → IterAt s it k →
      Yields Iter.hasNext s.step it (s.entries.drop k) := by
    intro n
    induction n with
    | zero =>
      intro k it hn hit
      rw [List.drop_eq_nil_of_le (by simp [entries]; omega)]
      simp [Yields, Iter.hasNext, hit.last, hit.size]; omega
    | succ n ih =>
      intro k it hn hit
      have hk : k < s.entries.length := by simp [entries]; omega
      rw [List.drop_eq_getElem_cons hk]
      obtain ⟨it', h1, h2, -⟩ := step_ok h hit (by omega)
      refine ⟨by simp [Iter.hasNext, hit.last, hit.size]; omega, it', ?_, ih (k + 1) it' (by omega) h2⟩
      rw [h1]; simp [entries]
  have := key (s.r * s.c) 0 s.iter (by omega) (iter_init s)
  simpa using this

end Dense
end GB
