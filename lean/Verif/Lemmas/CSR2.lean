import Verif.Lemmas.CSR

/-!
# CSR: cells, construction, iteration, extraction
-/

namespace GB

set_option linter.unusedSectionVars false

variable {T : Type} [GoNum T]

/-- Value of cell `(i, j)` of a list of rows. -/
def cellOf (rows : List (List (Nat × T))) (i j : Nat) : T := rowGet (rows.getD i []) j

namespace CSR

theorem Rep.cell_eq {s : CSR T} {rows : List (List (Nat × T))} (h : Rep s rows) {i : Nat}
    (hi : i < s.r) (j : Nat) : cellOf rows i j = rowGet (rows[i]'(by rw [h.len]; exact hi)) j := by
  unfold cellOf
  have : i < rows.length := by rw [h.len]; exact hi
  simp [List.getD, this]

/-- `Update` in terms of cells. -/
theorem Rep.updateRP_cells {β : Type} {s : CSR T} {rows : List (List (Nat × T))} (h : Rep s rows)
    {i j : Nat} (hi : i < s.r) (hj : j < s.c) (f : T → β × T) :
    ∃ s' rows' a b, s.updateRP i j f = .ok ((f (cellOf rows i j)).1, s', a, b) ∧ Rep s' rows' ∧
      s'.r = s.r ∧ s'.c = s.c ∧ cellOf rows' i j = norm (f (cellOf rows i j)).2 ∧
      ∀ i' j', i' < s.r → ¬ (i' = i ∧ j' = j) → cellOf rows' i' j' = cellOf rows i' j' := by
  have hi' : i < rows.length := by rw [h.len]; exact hi
  obtain ⟨L, M, R, old, hs⟩ := rowSplit_exists (h.sorted _ (List.getElem_mem hi')) j
  have hold : cellOf rows i j = old := by rw [h.cell_eq hi, hs.get]
  obtain ⟨s', a, b, h1, h2, h3, h4, -, -⟩ := h.updateRP_ok hi hj hs f
  rw [← hold] at h1 h2
  refine ⟨s', _, a, b, h1, h2, h3, h4, ?_, ?_⟩
  · rw [h2.cell_eq (by omega)]
    simp only [List.getElem_set_self]
    exact (hs.put_split _).get
  · intro i' j' hi'' hne
    rw [h2.cell_eq (by omega), h.cell_eq hi'']
    rw [List.getElem_set]
    by_cases hc : i = i'
    · subst hc
      rw [if_pos rfl]
      exact hs.get_put_ne _ (by intro hj; exact hne ⟨rfl, hj⟩)
    · simp only [hc, if_false]

theorem Rep.updateWith_cells {β : Type} {s : CSR T} {rows : List (List (Nat × T))} (h : Rep s rows)
    {i j : Nat} (hi : i < s.r) (hj : j < s.c) (f : T → β × T) :
    ∃ s' rows', s.updateWith i j f = .ok ((f (cellOf rows i j)).1, s') ∧ Rep s' rows' ∧
      s'.r = s.r ∧ s'.c = s.c ∧ cellOf rows' i j = norm (f (cellOf rows i j)).2 ∧
      ∀ i' j', i' < s.r → ¬ (i' = i ∧ j' = j) → cellOf rows' i' j' = cellOf rows i' j' := by
  obtain ⟨s', rows', a, b, h1, h2⟩ := h.updateRP_cells hi hj f
  refine ⟨s', rows', ?_, h2⟩
  unfold updateWith
  simp only [h1, Out.ok_bind]

/-- Storing back what is there changes nothing, not even a field. -/
theorem Rep.updateWith_self {β : Type} [GoStore T] {s : CSR T} {rows : List (List (Nat × T))}
    (h : Rep s rows) {i j : Nat} (hi : i < s.r) (hj : j < s.c) (f : T → β × T)
    (hf : (f (cellOf rows i j)).2 = cellOf rows i j) :
    s.updateWith i j f = .ok ((f (cellOf rows i j)).1, s) := by
  have hi' : i < rows.length := by rw [h.len]; exact hi
  obtain ⟨L, M, R, old, hs⟩ := rowSplit_exists (h.sorted _ (List.getElem_mem hi')) j
  have hold : cellOf rows i j = old := by rw [h.cell_eq hi, hs.get]
  obtain ⟨s', a, b, h1, h2, h3, h4, h5, h6⟩ := h.updateRP_ok hi hj hs f
  rw [hold] at hf
  have : s' = s := by
    rcases hs.mid with ⟨hM, h0⟩ | hM
    · apply h6 hM
      rw [hf, h0]; exact isZero_zero
    · have hz : isZero old = false := by
        have := h.nz _ (List.getElem_mem hi') (j, old)
        apply this
        rw [hs.eq, hM]; simp
      rw [h5 (by simp [hM]) (by rw [hf]; exact hz), hf]
      have hlt : offs rows i + L.length < s.values.length := by
        rw [h.values, h.flat hi, hs.eq, hM]
        simp only [offs, List.length_map, List.length_append, List.length_cons]; omega
      have : s.values[offs rows i + L.length] = old := by
        have e1 : s.values = ((rows.take i).flatten ++ L).map Prod.snd ++
            (old :: (R ++ (rows.drop (i + 1)).flatten).map Prod.snd) := by
          rw [h.values, h.flat hi, hs.eq, hM]; simp
        have e2 : offs rows i + L.length = (((rows.take i).flatten ++ L).map Prod.snd).length := by
          simp only [offs, List.length_map, List.length_append]
        simp only [e1, e2]
        rw [List.getElem_append_right (by simp)]
        simp
      conv => lhs; rw [show s.values.set (offs rows i + L.length) old = s.values by
        conv => lhs; rw [← this]
        exact List.set_getElem_self hlt]
  subst this
  unfold updateWith
  simp only [h1, Out.ok_bind, hold]

theorem Rep.at_ok [GoStore T] {s : CSR T} {rows : List (List (Nat × T))} (h : Rep s rows) {i j : Nat}
    (hi : i < s.r) (hj : j < s.c) : s.at' i j = .ok (cellOf rows i j, s) := by
  unfold at'
  rw [h.updateWith_self hi hj _ rfl]

theorem Rep.element_ok [GoStore T] {s : CSR T} {rows : List (List (Nat × T))} (h : Rep s rows)
    {i j : Nat} (hi : i < s.r) (hj : j < s.c) :
    s.element i j = .ok (GoNum.glt 0 (cellOf rows i j), s) := by
  unfold element
  rw [h.updateWith_self hi hj _ rfl]

theorem Rep.update_cells {s : CSR T} {rows : List (List (Nat × T))} (h : Rep s rows)
    {i j : Nat} (hi : i < s.r) (hj : j < s.c) (f : T → T) :
    ∃ s' rows', s.update i j f = .ok s' ∧ Rep s' rows' ∧
      s'.r = s.r ∧ s'.c = s.c ∧ cellOf rows' i j = norm (f (cellOf rows i j)) ∧
      ∀ i' j', i' < s.r → ¬ (i' = i ∧ j' = j) → cellOf rows' i' j' = cellOf rows i' j' := by
  obtain ⟨s', rows', h1, h2⟩ := h.updateWith_cells hi hj (fun v => ((), f v))
  refine ⟨s', rows', ?_, h2⟩
  unfold update
  simp only [h1, Out.ok_bind]

theorem updateRP_panic {β : Type} (s : CSR T) (i j : Int) (f : T → β × T)
    (h : ¬ (inRange i s.r = true ∧ inRange j s.c = true)) : s.updateRP i j f = .panic := by
  unfold updateRP
  by_cases h1 : inRange i s.r = true
  · rw [if_pos h1, if_neg (fun h2 => h ⟨h1, h2⟩)]
  · rw [if_neg h1]

theorem updateWith_panic {β : Type} (s : CSR T) (i j : Int) (f : T → β × T)
    (h : ¬ (inRange i s.r = true ∧ inRange j s.c = true)) : s.updateWith i j f = .panic := by
  unfold updateWith; rw [updateRP_panic s i j f h]; rfl

theorem update_panic (s : CSR T) (i j : Int) (f : T → T)
    (h : ¬ (inRange i s.r = true ∧ inRange j s.c = true)) : s.update i j f = .panic := by
  unfold update; rw [updateWith_panic s i j _ h]; rfl

/-! ## Empty matrices -/

theorem rep_new (r c : Nat) : Rep (new r c : CSR T) (List.replicate r []) := by
  have hfl : ∀ n, (List.replicate n ([] : List (Nat × T))).flatten = [] := by simp
  refine ⟨by simp [new, newL], ?_, ?_, ?_, ?_, ?_, ?_⟩
  · rw [hfl]; simp [new, newL]
  · rw [hfl]; simp [new, newL]
  · simp only [new, newL]
    apply List.ext_getElem
    · simp
    · intro k h1 h2
      simp [offs, List.take_replicate]
  · intro row hr; simp at hr; rw [hr.2]; simp [RowSorted]
  · intro row hr; simp at hr; rw [hr.2]; simp
  · intro row hr; simp at hr; rw [hr.2]; simp

theorem cellOf_replicate (r i j : Nat) : cellOf (List.replicate r ([] : List (Nat × T))) i j = 0 := by
  unfold cellOf
  have : (List.replicate r ([] : List (Nat × T))).getD i [] = [] := by
    simp [List.getD, List.getElem?_replicate]; split <;> rfl
  rw [this]; rfl

theorem clear_eq (s : CSR T) : s.clear = new s.r s.c := by simp [clear, new, newL]

/-! ## Counting -/

theorem Rep.values_length {s : CSR T} {rows : List (List (Nat × T))} (h : Rep s rows) :
    s.values.length = rows.flatten.length := by rw [h.values, List.length_map]

theorem Rep.offs_r {s : CSR T} {rows : List (List (Nat × T))} (h : Rep s rows) :
    offs rows s.r = rows.flatten.length := by rw [← h.len]; exact offs_length rows

theorem offs_mono {α : Type} (rows : List (List α)) {a b : Nat} (h : a ≤ b) :
    offs rows a ≤ offs rows b := by
  unfold offs
  have : rows.take a = (rows.take b).take a := by rw [List.take_take, Nat.min_eq_left h]
  rw [this]
  conv => rhs; rw [← List.take_append_drop a (rows.take b)]
  rw [List.flatten_append, List.length_append]
  omega

/-! ## The list of entries -/

/-- Entries of rows `i, i+1, …`, in order. -/
def entriesFrom : Nat → List (List (Nat × T)) → List (Nat × Nat × T)
  | _, [] => []
  | i, row :: rest => row.map (fun e => (i, e.1, e.2)) ++ entriesFrom (i + 1) rest

theorem entriesFrom_length (i : Nat) (rows : List (List (Nat × T))) :
    (entriesFrom i rows).length = rows.flatten.length := by
  induction rows generalizing i with
  | nil => rfl
  | cons row rest ih => simp [entriesFrom, ih]

theorem entriesFrom_map_snd (i : Nat) (rows : List (List (Nat × T))) :
    (entriesFrom i rows).map (fun e => e.2) = rows.flatten := by
  induction rows generalizing i with
  | nil => rfl
  | cons row rest ih => simp [entriesFrom, ih]

theorem entriesFrom_row (i0 : Nat) (rows : List (List (Nat × T))) (i k : Nat) (hi : i < rows.length)
    (h1 : offs rows i ≤ k) (h2 : k < offs rows (i + 1)) (hk : k < (entriesFrom i0 rows).length) :
    (entriesFrom i0 rows)[k].1 = i0 + i := by
  induction rows generalizing i0 i k with
  | nil => simp at hi
  | cons row rest ih =>
    simp only [entriesFrom]
    cases i with
    | zero =>
      have : k < row.length := by simpa [offs] using h2
      rw [List.getElem_append_left (by simpa using this)]
      simp
    | succ i =>
      have e1 : ∀ n, offs (row :: rest) (n + 1) = row.length + offs rest n := by
        intro n; simp [offs]
      rw [e1] at h1 h2
      rw [List.getElem_append_right (by simp; omega)]
      have := ih (i0 + 1) i (k - row.length) (by simpa using hi) (by omega) (by omega)
        (by simp [entriesFrom] at hk ⊢; omega)
      simp only [List.length_map]
      rw [this]; omega

theorem mem_entriesFrom {i0 : Nat} {rows : List (List (Nat × T))} {e : Nat × Nat × T} :
    e ∈ entriesFrom i0 rows ↔
      ∃ i, ∃ h : i < rows.length, e.1 = i0 + i ∧ (e.2.1, e.2.2) ∈ rows[i] := by
  induction rows generalizing i0 with
  | nil => simp [entriesFrom]
  | cons row rest ih =>
    simp only [entriesFrom, List.mem_append, List.mem_map, ih]
    constructor
    · rintro (⟨x, hx, rfl⟩ | ⟨i, hi, h1, h2⟩)
      · exact ⟨0, by simp, by simp, by simpa using hx⟩
      · exact ⟨i + 1, by simpa using hi, by omega, by simpa using h2⟩
    · rintro ⟨i, hi, h1, h2⟩
      cases i with
      | zero => left; exact ⟨(e.2.1, e.2.2), by simpa using h2, by simp at h1; rw [← h1]⟩
      | succ i => right; exact ⟨i, by simpa using hi, by omega, by simpa using h2⟩

end CSR
end GB
