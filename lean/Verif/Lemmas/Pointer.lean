import Verif.Lemmas.Count

/-!
# Where `UpdateReturnPointer` says it wrote
-/

namespace GB

set_option linter.unusedSectionVars false

variable {T : Type} [GoNum T]

namespace CSR

/-- The cell as a list of entries: none when it holds zero. -/
def cellEntry (i j : Nat) (v : T) : List (Nat × Nat × T) := if isZero v then [] else [(i, j, v)]

theorem entriesFrom_append (k : Nat) (a b : List (List (Nat × T))) :
    entriesFrom k (a ++ b) = entriesFrom k a ++ entriesFrom (k + a.length) b := by
  induction a generalizing k with
  | nil => simp [entriesFrom]
  | cons row a ih =>
    have e : k + 1 + a.length = k + (a.length + 1) := by omega
    simp [entriesFrom, ih, e]

theorem entriesFrom_split (rows : List (List (Nat × T))) (i : Nat) (hi : i < rows.length) :
    entriesFrom 0 rows = entriesFrom 0 (rows.take i) ++ (rows[i].map (fun e => (i, e.1, e.2)) ++
      entriesFrom (i + 1) (rows.drop (i + 1))) := by
  conv => lhs; rw [← List.take_append_drop i rows, List.drop_eq_getElem_cons hi, entriesFrom_append]
  have : (rows.take i).length = i := by rw [List.length_take]; omega
  rw [this]
  simp [entriesFrom]

/-- The two results of `UpdateReturnPointer`. -/
theorem Rep.updateRP_results {β : Type} {s s' : CSR T} {rows : List (List (Nat × T))} (h : Rep s rows)
    {i j : Nat} (hi : i < s.r) (hj : j < s.c) {L M R : List (Nat × T)} {old : T}
    (hs : RowSplit (rows[i]'(by rw [h.len]; exact hi)) L M R j old) (f : T → β × T) {x : β} {p q : Nat}
    (hok : s.updateRP i j f = .ok (x, s', p, q)) :
    p = offs rows i + L.length ∧ q = if M = [] ∧ isZero (f old).2 = false then s.r else 0 := by
  obtain ⟨e', h1, h2⟩ := h.columnIndex_ok hi hs
  unfold updateRP at hok
  simp only [inRange_natCast, hi, hj, decide_true, if_true, Int.toNat_natCast] at hok
  simp only [h1, Out.ok_bind] at hok
  simp only [h2, Out.ok_bind] at hok
  rcases hs.mid with ⟨rfl, rfl⟩ | rfl
  · simp only [ne_eq, not_true_eq_false, decide_false, Bool.false_eq_true, if_false] at hok
    unfold insert at hok
    by_cases hz : isZero (f 0).2 = true
    · rw [if_pos hz] at hok
      simp only [Out.ok_bind, Out.ok.injEq, Prod.mk.injEq] at hok
      obtain ⟨-, -, rfl, rfl⟩ := hok
      simp [hz]
    · rw [if_neg hz] at hok
      generalize splice s.cols _ _ = a at hok
      generalize splice s.values _ _ = b at hok
      generalize bump _ _ _ _ = c at hok
      cases a <;> cases b <;> cases c <;> simp_all
  · simp only [ne_eq, List.cons_ne_self, not_false_eq_true, decide_true, if_true] at hok
    generalize idx s.values _ = v at hok
    cases v with
    | panic => simp at hok
    | hang => simp at hok
    | ok v =>
      simp only [Out.ok_bind] at hok
      by_cases hz : isZero (f v).2 = true
      · rw [if_pos hz] at hok
        generalize remove _ _ _ = a at hok
        cases a <;> simp_all
      · rw [if_neg hz] at hok
        generalize setIdx _ _ _ = a at hok
        cases a <;> simp_all

/-- `UpdateReturnPointer` replaces one entry of the list of entries, at the position it returns. -/
theorem Rep.pointer [GoStore T] {β : Type} {s : CSR T} {rows : List (List (Nat × T))} (h : Rep s rows)
    {i j : Nat} (hi : i < s.r) (hj : j < s.c) (f : T → β × T) :
    ∃ s' rows' A B, s.updateRP i j f = .ok ((f (cellOf rows i j)).1, s', A.length,
        if isZero (cellOf rows i j) = true ∧ isZero (f (cellOf rows i j)).2 = false then s.r else 0) ∧
      Rep s' rows' ∧ s'.r = s.r ∧ s'.c = s.c ∧
      entriesFrom 0 rows = A ++ (cellEntry i j (cellOf rows i j) ++ B) ∧
      entriesFrom 0 rows' = A ++ (cellEntry i j (f (cellOf rows i j)).2 ++ B) ∧
      (∀ e ∈ A, e.1 < i ∨ (e.1 = i ∧ e.2.1 < j)) ∧ (∀ e ∈ B, i < e.1 ∨ (e.1 = i ∧ j < e.2.1)) := by
  have hi' : i < rows.length := by rw [h.len]; exact hi
  obtain ⟨L, M, R, old, hs⟩ := rowSplit_exists (h.sorted _ (List.getElem_mem hi')) j
  have hold : cellOf rows i j = old := by rw [h.cell_eq hi]; exact hs.get
  rw [hold]
  obtain ⟨s', p, q, h1, h2, h3, h4, -⟩ := h.updateRP_ok hi hj hs f
  obtain ⟨hp, hq⟩ := h.updateRP_results hi hj hs f h1
  have hM : M = [] ↔ isZero old = true := by
    rcases hs.mid with ⟨h5, h6⟩ | h5
    · simp [h5, h6, isZero_zero]
    · have := h.nz _ (List.getElem_mem hi') (j, old) (by rw [hs.eq, h5]; simp)
      simp at this
      simp [h5, this]
  have hMe : M.map (fun e => (i, e.1, e.2)) = cellEntry i j old := by
    unfold cellEntry
    rcases hs.mid with ⟨h5, h6⟩ | h5
    · simp [h5, h6, isZero_zero]
    · have : isZero old = false := by
        cases hz : isZero old with
        | false => rfl
        | true => rw [← hM, h5] at hz; simp at hz
      simp [h5, this]
  have hNe : (midOf j (f old).2).map (fun e => (i, e.1, e.2)) = cellEntry i j (f old).2 := by
    unfold cellEntry midOf; split <;> simp
  refine ⟨s', _, entriesFrom 0 (rows.take i) ++ L.map (fun e => (i, e.1, e.2)),
    R.map (fun e => (i, e.1, e.2)) ++ entriesFrom (i + 1) (rows.drop (i + 1)), ?_, h2, h3, h4, ?_, ?_, ?_, ?_⟩
  · rw [h1, hp, hq]
    simp only [hM, List.length_append, List.length_map, entriesFrom_length, offs]
  · rw [entriesFrom_split rows i hi', hs.eq, ← hMe]; simp
  · rw [entriesFrom_split _ i (by simpa using hi')]
    rw [← hNe, List.take_set_of_le (Nat.le_refl i), List.drop_set_of_lt (Nat.lt_succ_self i)]
    simp
  · intro e he
    rcases List.mem_append.1 he with he | he
    · obtain ⟨k, hk, h5, -⟩ := mem_entriesFrom.1 he
      rw [List.length_take] at hk
      left; omega
    · obtain ⟨x, hx, rfl⟩ := List.mem_map.1 he
      exact Or.inr ⟨rfl, hs.left x hx⟩
  · intro e he
    rcases List.mem_append.1 he with he | he
    · obtain ⟨x, hx, rfl⟩ := List.mem_map.1 he
      exact Or.inr ⟨rfl, hs.right x hx⟩
    · obtain ⟨k, hk, h5, -⟩ := mem_entriesFrom.1 he
      left; omega

end CSR

/-- Counting the entries whose coordinates satisfy a test. -/
theorem Faithful.count_filter [GoStore T] {r c : Nat} {val : Nat → Nat → T} {es : List (Nat × Nat × T)}
    (h : Faithful r c val es) (hz : ∀ e ∈ es, isZero e.2.2 = false) (t : Nat × Nat → Bool) :
    (es.filter (fun e => t (e.1, e.2.1))).length =
      ((cells r c).filter (fun p => t p && !isZero (val p.1 p.2))).length := by
  rw [← List.length_map (fun e : Nat × Nat × T => (e.1, e.2.1))]
  apply List.Perm.length_eq
  rw [List.perm_ext_iff_of_nodup ((List.Sublist.map _ List.filter_sublist).nodup h.coords_nodup)
    ((cells_nodup r c).filter _)]
  rintro ⟨i, j⟩
  simp only [List.mem_map, List.mem_filter, mem_cells, Bool.and_eq_true, Bool.not_eq_true']
  constructor
  · rintro ⟨e, ⟨he, ht⟩, heq⟩
    simp at heq
    obtain ⟨rfl, rfl⟩ := heq
    refine ⟨h.range e he, ht, ?_⟩
    rw [h.value e he]; exact hz e he
  · rintro ⟨⟨hi, hj⟩, ht, hv⟩
    have hne : val i j ≠ 0 := by
      intro h0; rw [h0, isZero_zero] at hv; simp at hv
    exact ⟨_, ⟨h.complete i j hi hj hne, ht⟩, rfl⟩

/-- The part of a list before a cell is the part that satisfies `t`. -/
theorem filter_part {A C B : List (Nat × Nat × T)} {t : Nat × Nat → Bool}
    (hA : ∀ e ∈ A, t (e.1, e.2.1) = true) (hC : ∀ e ∈ C, t (e.1, e.2.1) = false)
    (hB : ∀ e ∈ B, t (e.1, e.2.1) = false) :
    (A ++ (C ++ B)).filter (fun e => t (e.1, e.2.1)) = A := by
  rw [List.filter_append, List.filter_append, List.filter_eq_self.2 hA,
    List.filter_eq_nil_iff.2 (by simpa using hC), List.filter_eq_nil_iff.2 (by simpa using hB)]
  simp

end GB
