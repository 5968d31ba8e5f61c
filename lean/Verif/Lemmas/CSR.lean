import Verif.Model.CSR
import Verif.Lemmas.Basic

/-!
# CSR: representation relation and the effect of `Update`
-/

namespace GB

variable {T : Type} [GoNum T]

/-! ## Rows as sorted association lists -/

/-- Value of column `j` in a row. -/
def rowGet (row : List (Nat × T)) (j : Nat) : T :=
  match row.find? (fun e => e.1 == j) with
  | some e => e.2
  | none => 0

/-- A row is sorted by column, without duplicates. -/
def RowSorted (row : List (Nat × T)) : Prop := row.Pairwise (fun a b => a.1 < b.1)

/-- Split of a row around column `j`. -/
structure RowSplit (row L M R : List (Nat × T)) (j : Nat) (old : T) : Prop where
  eq : row = L ++ M ++ R
  left : ∀ e ∈ L, e.1 < j
  right : ∀ e ∈ R, j < e.1
  mid : (M = [] ∧ old = 0) ∨ M = [(j, old)]

theorem rowSplit_exists {row : List (Nat × T)} (h : RowSorted row) (j : Nat) :
    ∃ L M R old, RowSplit row L M R j old := by
  induction row with
  | nil => exact ⟨[], [], [], 0, by constructor <;> simp⟩
  | cons e row ih =>
    have h' := List.pairwise_cons.1 h
    obtain ⟨L, M, R, old, hs⟩ := ih h'.2
    by_cases h1 : e.1 < j
    · refine ⟨e :: L, M, R, old, ?_, ?_, hs.right, hs.mid⟩
      · simp [hs.eq]
      · intro x hx
        rcases List.mem_cons.1 hx with rfl | hx
        · exact h1
        · exact hs.left x hx
    · by_cases h2 : e.1 = j
      · refine ⟨[], [e], row, e.2, by simp, by simp, ?_, Or.inr ?_⟩
        · intro x hx; have := h'.1 x hx; omega
        · rw [← h2]
      · refine ⟨[], [], e :: row, 0, by simp, by simp, ?_, Or.inl ⟨rfl, rfl⟩⟩
        intro x hx
        rcases List.mem_cons.1 hx with rfl | hx
        · omega
        · have := h'.1 x hx; omega

theorem rowGet_append_of_ne {L R : List (Nat × T)} {j : Nat} (h : ∀ e ∈ L, e.1 ≠ j) :
    rowGet (L ++ R) j = rowGet R j := by
  unfold rowGet
  rw [List.find?_append]
  have : L.find? (fun e => e.1 == j) = none := by
    rw [List.find?_eq_none]; intro x hx; simpa using h x hx
  rw [this]; rfl

theorem rowGet_none {L : List (Nat × T)} {j : Nat} (h : ∀ e ∈ L, e.1 ≠ j) : rowGet L j = 0 := by
  have := rowGet_append_of_ne (R := []) h
  simpa [rowGet] using this

theorem rowGet_cons_self {R : List (Nat × T)} {j : Nat} {v : T} : rowGet ((j, v) :: R) j = v := by
  simp [rowGet]

theorem rowGet_cons_ne {R : List (Nat × T)} {e : Nat × T} {j : Nat} (h : e.1 ≠ j) :
    rowGet (e :: R) j = rowGet R j := by
  have := rowGet_append_of_ne (L := [e]) (R := R) (j := j) (by simpa using h)
  simpa using this

theorem RowSplit.get {row L M R : List (Nat × T)} {j : Nat} {old : T}
    (h : RowSplit row L M R j old) : rowGet row j = old := by
  rw [h.eq, List.append_assoc, rowGet_append_of_ne]
  · rcases h.mid with ⟨rfl, rfl⟩ | rfl
    · simp only [List.nil_append]
      exact rowGet_none fun e he => by have := h.right e he; omega
    · exact rowGet_cons_self
  · intro e he; have := h.left e he; omega

/-- The row after storing `v` at column `j`. -/
def midOf (j : Nat) (v : T) : List (Nat × T) := if isZero v then [] else [(j, v)]

theorem RowSplit.put_split {row L M R : List (Nat × T)} {j : Nat} {old : T}
    (h : RowSplit row L M R j old) (v : T) :
    RowSplit (L ++ midOf j v ++ R) L (midOf j v) R j (norm v) := by
  refine ⟨rfl, h.left, h.right, ?_⟩
  unfold midOf norm
  split
  · exact Or.inl ⟨rfl, rfl⟩
  · exact Or.inr rfl

theorem RowSplit.get_put_ne {row L M R : List (Nat × T)} {j : Nat} {old : T}
    (h : RowSplit row L M R j old) (v : T) {k : Nat} (hk : k ≠ j) :
    rowGet (L ++ midOf j v ++ R) k = rowGet row k := by
  rw [h.eq]
  by_cases hL : ∀ e ∈ L, e.1 ≠ k
  · rw [List.append_assoc, List.append_assoc, rowGet_append_of_ne hL, rowGet_append_of_ne hL,
      rowGet_append_of_ne, rowGet_append_of_ne]
    · rcases h.mid with ⟨rfl, _⟩ | rfl
      · simp
      · simpa using hk.symm
    · unfold midOf; split
      · simp
      · simpa using hk.symm
  · unfold rowGet
    rw [List.append_assoc, List.append_assoc, List.find?_append, List.find?_append]
    have : ∃ e, L.find? (fun e => e.1 == k) = some e := by
      push Not at hL
      obtain ⟨e, he, hk⟩ := hL
      have : (L.find? (fun e => e.1 == k)).isSome := by
        rw [List.find?_isSome]; exact ⟨e, he, by simpa using hk⟩
      exact Option.isSome_iff_exists.1 this
    obtain ⟨e, he⟩ := this
    simp [he]

theorem RowSplit.sorted_put {row L M R : List (Nat × T)} {j : Nat} {old : T}
    (h : RowSplit row L M R j old) (hs : RowSorted row) (v : T) :
    RowSorted (L ++ midOf j v ++ R) := by
  have hs' := hs
  rw [h.eq] at hs'
  unfold RowSorted at *
  rw [List.append_assoc, List.pairwise_append] at hs'
  obtain ⟨h1, h2, h3⟩ := hs'
  rw [List.pairwise_append] at h2
  rw [List.append_assoc, List.pairwise_append, List.pairwise_append]
  refine ⟨h1, ⟨?_, h2.2.1, ?_⟩, ?_⟩
  · unfold midOf; split <;> simp
  · intro a ha b hb
    have : a.1 = j := by
      unfold midOf at ha; split at ha <;> simp at ha; rw [ha]
    rw [this]; exact h.right b hb
  · intro a ha b hb
    rcases List.mem_append.1 hb with hb | hb
    · have : b.1 = j := by
        unfold midOf at hb; split at hb <;> simp at hb; rw [hb]
      rw [this]; exact h.left a ha
    · have := h.left a ha; have := h.right b hb; omega

/-! ## The representation relation -/

/-- Number of entries in the first `k` rows. -/
def offs {α : Type} (rows : List (List α)) (k : Nat) : Nat := (rows.take k).flatten.length

theorem offs_succ {α : Type} (rows : List (List α)) (k : Nat) (h : k < rows.length) :
    offs rows (k + 1) = offs rows k + rows[k].length := by
  unfold offs
  rw [← List.take_concat_get' rows k h, List.flatten_append, List.length_append]
  simp

theorem offs_length {α : Type} (rows : List (List α)) : offs rows rows.length = rows.flatten.length := by
  simp [offs]

namespace CSR

/-- `s` stores exactly the rows `rows`, each sorted by column, without stored zeros. -/
structure Rep (s : CSR T) (rows : List (List (Nat × T))) : Prop where
  len : rows.length = s.r
  cols : s.cols = rows.flatten.map Prod.fst
  values : s.values = rows.flatten.map Prod.snd
  starts : s.rowStart = (List.range (s.r + 1)).map (offs rows)
  sorted : ∀ row ∈ rows, RowSorted row
  bound : ∀ row ∈ rows, ∀ e ∈ row, e.1 < s.c
  nz : ∀ row ∈ rows, ∀ e ∈ row, isZero e.2 = false

theorem search_ok (xs : List Nat) (c p start stop : Nat)
    (hstop : stop ≤ xs.length)
    (hlo : ∀ k, start ≤ k → (h : k < p) → (h' : k < xs.length) → xs[k] < c)
    (hhi : ∀ k, p ≤ k → k < stop → (h' : k < xs.length) → c ≤ xs[k])
    (hinj : ∀ k, p < k → k < stop → (h' : k < xs.length) → c < xs[k]) :
    ∀ (fuel s e : Nat), e - s ≤ fuel → start ≤ s → s ≤ p → p ≤ e → e ≤ stop →
      (p < stop → p = e → ∀ h' : p < xs.length, xs[p] ≠ c) →
      ∃ e', search xs c fuel s e = .ok (p, e') ∧ p ≤ e' ∧ e' ≤ stop ∧
        (p < stop → p = e' → ∀ h' : p < xs.length, xs[p] ≠ c) := by
  intro fuel
  induction fuel with
  | zero =>
    intro s e h1 h2 h3 h4 h5 h6
    have : s = e := by omega
    subst this
    have : p = s := by omega
    subst this
    exact ⟨p, by simp [search], by omega, h5, h6⟩
  | succ fuel ih =>
    intro s e h1 h2 h3 h4 h5 h6
    unfold search
    by_cases hse : s < e
    · rw [if_pos hse]
      have hq : (s + e) / 2 < xs.length := by omega
      simp only [idx_ok hq, Out.ok_bind]
      by_cases hgt : xs[(s + e) / 2] > c
      · rw [if_pos hgt]
        have hpq : p ≤ (s + e) / 2 := by
          by_contra hcon
          have := hlo ((s + e) / 2) (by omega) (by omega) hq
          omega
        refine ih s ((s + e) / 2) (by omega) h2 h3 hpq (by omega) ?_
        intro _ heq h'
        have : xs[p] = xs[(s + e) / 2] := by congr 1
        omega
      · rw [if_neg hgt]
        by_cases hlt : xs[(s + e) / 2] < c
        · rw [if_pos hlt]
          have hpq : (s + e) / 2 < p := by
            by_contra hcon
            have := hhi ((s + e) / 2) (by omega) (by omega) hq
            omega
          exact ih ((s + e) / 2 + 1) e (by omega) (by omega) (by omega) h4 h5 h6
        · rw [if_neg hlt]
          have hpq : p = (s + e) / 2 := by
            rcases Nat.lt_trichotomy p ((s + e) / 2) with h | h | h
            · have := hinj ((s + e) / 2) h (by omega) hq; omega
            · exact h
            · have := hlo ((s + e) / 2) (by omega) h hq; omega
          refine ⟨e, by rw [← hpq], by omega, h5, ?_⟩
          intro _ heq; omega
    · rw [if_neg hse]
      have : s = e := by omega
      subst this
      have : p = s := by omega
      subst this
      exact ⟨p, rfl, by omega, h5, h6⟩

theorem bump_ok (f : Nat → Nat) (l : List Nat) (r sr : Nat) (hl : l.length = sr + 1) :
    bump f l r sr = .ok (l.mapIdx (fun k x => if r < k then f x else x)) := by
  unfold bump
  by_cases hr : r ≤ sr
  · obtain ⟨l', h1, h2⟩ := loop_inv (f := fun i l => do let x ← idx l i; setIdx l i (f x))
      (Inv := fun i l' => l' = l.mapIdx (fun k x => if r < k ∧ k < i then f x else x))
      (sr - r) (r + 1) l
      (by
        apply List.ext_getElem <;> simp
        intro k h1 h2 h3; omega)
      (by
        intro i s hi1 hi2 hs
        have hlen : i < s.length := by rw [hs]; simp; omega
        refine ⟨s.set i (f s[i]), by simp [idx_ok hlen, setIdx_ok hlen], ?_⟩
        subst hs
        apply List.ext_getElem
        · simp
        · intro k h1 h2
          simp only [List.getElem_set, List.getElem_mapIdx]
          by_cases hk : i = k
          · subst hk
            have : r < i := by omega
            simp [this]
          · rw [if_neg hk]
            by_cases h : r < k ∧ k < i
            · have h3 : r < k ∧ k < i + 1 := by omega
              simp [h, h3]
            · have h3 : ¬ (r < k ∧ k < i + 1) := by omega
              simp only [h, h3, if_false])
    rw [h1, h2]
    congr 1
    apply List.ext_getElem
    · simp
    · intro k h1 h2
      simp at h1
      simp only [List.getElem_mapIdx]
      by_cases h : r < k
      · rw [if_pos (by omega), if_pos h]
      · rw [if_neg (by omega), if_neg h]
  · have : sr - r = 0 := by omega
    rw [this]
    simp only [loop]
    congr 1
    apply List.ext_getElem
    · simp
    · intro k h1 h2
      simp only [List.getElem_mapIdx]
      rw [if_neg (by omega)]

/-! ## Lookup -/

theorem Rep.rowStart_get {s : CSR T} {rows : List (List (Nat × T))} (h : Rep s rows) {k : Nat}
    (hk : k ≤ s.r) : idx s.rowStart k = .ok (offs rows k) := by
  have hl : k < s.rowStart.length := by rw [h.starts]; simp; omega
  rw [idx_ok hl]
  congr 1
  simp only [h.starts, List.getElem_map, List.getElem_range]

theorem Rep.flat {s : CSR T} {rows : List (List (Nat × T))} (h : Rep s rows) {i : Nat}
    (hi : i < s.r) :
    rows.flatten = (rows.take i).flatten ++ rows[i]'(by rw [h.len]; exact hi) ++
      (rows.drop (i + 1)).flatten := by
  have hi' : i < rows.length := by rw [h.len]; exact hi
  conv => lhs; rw [← List.take_append_drop i rows, List.drop_eq_getElem_cons hi']
  rw [List.flatten_append, List.flatten_cons, List.append_assoc]

/-- Where `columnIndex` points, and whether the entry is there. -/
theorem Rep.columnIndex_ok {s : CSR T} {rows : List (List (Nat × T))} (h : Rep s rows) {i j : Nat}
    (hi : i < s.r) {L M R : List (Nat × T)} {old : T}
    (hs : RowSplit (rows[i]'(by rw [h.len]; exact hi)) L M R j old) :
    ∃ e', s.columnIndex i j = .ok (offs rows i + L.length, e') ∧
      s.hit (offs rows i + L.length) e' j = .ok (decide (M ≠ [])) := by
  have hi' : i < rows.length := by rw [h.len]; exact hi
  have hoff : offs rows i = (rows.take i).flatten.length := rfl
  have hstop : offs rows (i + 1) = offs rows i + (L.length + M.length + R.length) := by
    rw [offs_succ rows i hi', hs.eq]; simp; omega
  set A := (rows.take i).flatten with hA
  set B := (rows.drop (i + 1)).flatten with hB
  have hcols : s.cols = A.map Prod.fst ++ L.map Prod.fst ++ M.map Prod.fst ++ R.map Prod.fst ++
      B.map Prod.fst := by
    rw [h.cols, h.flat hi, hs.eq]; simp [hA, hB]
  have hlen : s.cols.length = A.length + L.length + M.length + R.length + B.length := by
    rw [hcols]; simp; omega
  -- positions
  have hL : ∀ k, A.length ≤ k → k < A.length + L.length → (hk : k < s.cols.length) →
      s.cols[k] < j := by
    intro k h1 h2 hk
    have : s.cols[k] = (L[k - A.length]'(by omega)).1 := by
      simp only [hcols, List.append_assoc]
      rw [List.getElem_append_right (by simpa using h1), List.getElem_append_left (by simp; omega)]
      simp
    rw [this]; exact hs.left _ (List.getElem_mem _)
  have hR : ∀ k, A.length + L.length + M.length ≤ k →
      k < A.length + L.length + M.length + R.length → (hk : k < s.cols.length) →
      j < s.cols[k] := by
    intro k h1 h2 hk
    have : s.cols[k] = (R[k - (A.length + L.length + M.length)]'(by omega)).1 := by
      simp only [hcols]
      rw [List.getElem_append_left (by simp; omega), List.getElem_append_right (by simp; omega)]
      simp [Nat.add_assoc]
    rw [this]; exact hs.right _ (List.getElem_mem _)
  have hMlen : M.length ≤ 1 := by rcases hs.mid with ⟨rfl, _⟩ | rfl <;> simp
  have hM : ∀ hk : A.length + L.length < s.cols.length, M ≠ [] →
      s.cols[A.length + L.length] = j := by
    intro hk hne
    rcases hs.mid with ⟨rfl, _⟩ | rfl
    · exact absurd rfl hne
    · simp only [hcols]
      simp
  have hMpos : M ≠ [] → 0 < M.length := fun hne => List.length_pos_iff.2 hne
  -- what remains once the two positions are known
  have key : ∀ e', A.length + L.length ≤ e' → e' ≤ A.length + (L.length + M.length + R.length) →
      (M ≠ [] → A.length + L.length < e') →
      s.hit (A.length + L.length) e' j = .ok (decide (M ≠ [])) := by
    intro e' h1 h2 h3
    unfold hit
    by_cases hlt : A.length + L.length < e'
    · have hk : A.length + L.length < s.cols.length := by omega
      rw [if_pos hlt, idx_ok hk, Out.ok_bind]
      by_cases hne : M = []
      · have := hR (A.length + L.length) (by rw [hne]; simp) (by rw [hne] at h2 ⊢; simp at h2 ⊢; omega) hk
        simp [hne]; omega
      · simp [hne, hM hk hne]
    · rw [if_neg hlt]
      by_cases hne : M = []
      · simp [hne]
      · exact absurd (h3 hne) hlt
  unfold columnIndex
  rw [h.rowStart_get (by omega), h.rowStart_get (by omega)]
  simp only [Out.ok_bind]
  rw [hstop, hoff]
  by_cases hemp : A.length = A.length + (L.length + M.length + R.length)
  · rw [if_pos hemp]
    have hL0 : L.length = 0 := by omega
    refine ⟨A.length + (L.length + M.length + R.length), ?_, key _ (by omega) (by omega) ?_⟩
    · rw [hL0]; simp
    · intro hne; have := hMpos hne; omega
  · rw [if_neg hemp]
    have hlast : A.length + (L.length + M.length + R.length) - 1 < s.cols.length := by omega
    rw [idxPred_ok (by omega) hlast]
    simp only [Out.ok_bind]
    by_cases hgt : j > s.cols[A.length + (L.length + M.length + R.length) - 1]
    · rw [if_pos hgt]
      have hR0 : R.length = 0 := by
        by_contra hc
        have := hR (A.length + (L.length + M.length + R.length) - 1) (by omega) (by omega) hlast
        omega
      have hM0 : M = [] := by
        by_contra hc
        have hp := hMpos hc
        have h1 := hM (by omega) hc
        have : A.length + (L.length + M.length + R.length) - 1 = A.length + L.length := by omega
        simp only [this] at hgt
        omega
      refine ⟨A.length + (L.length + M.length + R.length), ?_, key _ (by omega) (by omega) ?_⟩
      · rw [hM0, hR0]; simp
      · intro hne; exact absurd hM0 hne
    · rw [if_neg hgt]
      obtain ⟨e', h1, h2, h3, h4⟩ := search_ok s.cols j (A.length + L.length) A.length
        (A.length + (L.length + M.length + R.length)) (by omega)
        (fun k a b c => hL k a b c)
        (fun k a b c => by
          rcases Nat.lt_or_ge k (A.length + L.length + M.length) with hk | hk
          · have hk' : k = A.length + L.length := by omega
            subst hk'
            have : M ≠ [] := by intro hc; rw [hc] at hk; simp at hk
            rw [hM c this]
          · exact Nat.le_of_lt (hR k hk (by omega) c))
        (fun k a b c => hR k (by omega) (by omega) c)
        (A.length + (L.length + M.length + R.length) - A.length) A.length
        (A.length + (L.length + M.length + R.length)) (by omega) (by omega) (by omega) (by omega)
        (by omega) (by intro a b; omega)
      refine ⟨e', h1, key e' h2 h3 ?_⟩
      intro hne
      rcases Nat.lt_or_ge (A.length + L.length) e' with hlt | hge
      · exact hlt
      · exact absurd (hM (by have := hMpos hne; omega) hne)
          (h4 (by have := hMpos hne; omega) (by omega) (by have := hMpos hne; omega))

/-! ## The effect of `Update` -/

theorem flatten_set {α : Type} (rows : List (List α)) (i : Nat) (row : List α) (hi : i < rows.length) :
    (rows.set i row).flatten = (rows.take i).flatten ++ row ++ (rows.drop (i + 1)).flatten := by
  rw [List.set_eq_take_append_cons_drop, if_pos hi]
  simp

theorem offs_set {α : Type} (rows : List (List α)) (i : Nat) (row : List α) (hi : i < rows.length)
    (k : Nat) (hk : k ≤ rows.length) :
    offs (rows.set i row) k + (if i < k then rows[i].length else 0) =
      offs rows k + (if i < k then row.length else 0) := by
  induction k with
  | zero => simp [offs]
  | succ k ih =>
    have ih := ih (by omega)
    rw [offs_succ _ _ (by simp; omega), offs_succ _ _ hk, List.getElem_set]
    rcases Nat.lt_trichotomy i k with h | h | h
    · have h1 : i < k + 1 := by omega
      have h2 : i ≠ k := by omega
      simp only [h, h1, h2, if_true, if_false] at ih ⊢
      omega
    · subst h
      simp only [Nat.lt_irrefl, Nat.lt_succ_self, if_true, if_false] at ih ⊢
      omega
    · have h1 : ¬ i < k + 1 := by omega
      have h2 : i ≠ k := by omega
      have h3 : ¬ i < k := by omega
      simp only [h1, h2, h3, if_false] at ih ⊢
      omega

/-- Replace one row by another sorted, bounded, zero-free row. -/
theorem Rep.set_row {s s' : CSR T} {rows : List (List (Nat × T))} (h : Rep s rows) {i : Nat}
    (hi : i < s.r) (row : List (Nat × T))
    (hr : s'.r = s.r) (hc : s'.c = s.c)
    (hcols : s'.cols = ((rows.take i).flatten ++ row ++ (rows.drop (i + 1)).flatten).map Prod.fst)
    (hvals : s'.values = ((rows.take i).flatten ++ row ++ (rows.drop (i + 1)).flatten).map Prod.snd)
    (hstarts : s'.rowStart = (List.range (s.r + 1)).map (offs (rows.set i row)))
    (hsorted : RowSorted row) (hbound : ∀ e ∈ row, e.1 < s.c)
    (hnz : ∀ e ∈ row, isZero e.2 = false) : Rep s' (rows.set i row) := by
  have hi' : i < rows.length := by rw [h.len]; exact hi
  refine ⟨?_, ?_, ?_, ?_, ?_, ?_, ?_⟩
  · simp [h.len, hr]
  · rw [hcols, flatten_set _ _ _ hi']
  · rw [hvals, flatten_set _ _ _ hi']
  · rw [hstarts, hr]
  · intro x hx
    rcases List.mem_or_eq_of_mem_set hx with hx | rfl
    · exact h.sorted x hx
    · exact hsorted
  · intro x hx
    rw [hc]
    rcases List.mem_or_eq_of_mem_set hx with hx | rfl
    · exact h.bound x hx
    · exact hbound
  · intro x hx
    rcases List.mem_or_eq_of_mem_set hx with hx | rfl
    · exact h.nz x hx
    · exact hnz

theorem Rep.starts_set {s : CSR T} {rows : List (List (Nat × T))} (h : Rep s rows) {i : Nat}
    (hi : i < s.r) (row : List (Nat × T)) (f : Nat → Nat)
    (hf : ∀ k, i < k → k ≤ s.r → f (offs rows k) = offs (rows.set i row) k) :
    s.rowStart.mapIdx (fun k x => if i < k then f x else x) =
      (List.range (s.r + 1)).map (offs (rows.set i row)) := by
  have hi' : i < rows.length := by rw [h.len]; exact hi
  apply List.ext_getElem
  · simp [h.starts]
  · intro k h1 h2
    simp at h2
    simp only [List.getElem_mapIdx, h.starts, List.getElem_map, List.getElem_range]
    by_cases hk : i < k
    · rw [if_pos hk]; exact hf k hk (by omega)
    · rw [if_neg hk]
      have := offs_set rows i row hi' k (by rw [h.len]; omega)
      simp only [hk, if_false] at this
      omega

/-- The effect of `Update` on the stored rows. -/
theorem Rep.updateRP_ok {β : Type} {s : CSR T} {rows : List (List (Nat × T))} (h : Rep s rows)
    {i j : Nat} (hi : i < s.r) (hj : j < s.c) {L M R : List (Nat × T)} {old : T}
    (hs : RowSplit (rows[i]'(by rw [h.len]; exact hi)) L M R j old) (f : T → β × T) :
    ∃ s' a b, s.updateRP i j f = .ok ((f old).1, s', a, b) ∧
      Rep s' (rows.set i (L ++ midOf j (f old).2 ++ R)) ∧ s'.r = s.r ∧ s'.c = s.c ∧
      (M ≠ [] → isZero (f old).2 = false → s' = { s with values := s.values.set (offs rows i + L.length) (f old).2 }) ∧
      (M = [] → isZero (f old).2 = true → s' = s) := by
  have hi' : i < rows.length := by rw [h.len]; exact hi
  obtain ⟨e', h1, h2⟩ := h.columnIndex_ok hi hs
  have hsorted := hs.sorted_put (h.sorted _ (List.getElem_mem hi')) (f old).2
  have hbound : ∀ e ∈ L ++ midOf j (f old).2 ++ R, e.1 < s.c := by
    intro e he
    have hb := h.bound _ (List.getElem_mem hi')
    rw [hs.eq] at hb
    simp only [List.mem_append] at he hb
    rcases he with (he | he) | he
    · exact hb e (Or.inl (Or.inl he))
    · unfold midOf at he; split at he <;> simp at he; rw [he]; exact hj
    · exact hb e (Or.inr he)
  have hnz : ∀ e ∈ L ++ midOf j (f old).2 ++ R, isZero e.2 = false := by
    intro e he
    have hb := h.nz _ (List.getElem_mem hi')
    rw [hs.eq] at hb
    simp only [List.mem_append] at he hb
    rcases he with (he | he) | he
    · exact hb e (Or.inl (Or.inl he))
    · unfold midOf at he; split at he
      · simp at he
      · rename_i hz; simp at he; rw [he]; simpa using hz
    · exact hb e (Or.inr he)
  have hoff : offs rows i = (rows.take i).flatten.length := rfl
  set A := (rows.take i).flatten with hA
  set B := (rows.drop (i + 1)).flatten with hB
  have hcols : s.cols = (A ++ L).map Prod.fst ++ (M.map Prod.fst ++ (R ++ B).map Prod.fst) := by
    rw [h.cols, h.flat hi, hs.eq]; simp [hA, hB]
  have hvals : s.values = (A ++ L).map Prod.snd ++ (M.map Prod.snd ++ (R ++ B).map Prod.snd) := by
    rw [h.values, h.flat hi, hs.eq]; simp [hA, hB]
  have hp1 : offs rows i + L.length = ((A ++ L).map Prod.fst).length := by simp [hoff]
  have hp2 : offs rows i + L.length = ((A ++ L).map Prod.snd).length := by simp [hoff]
  have hrl : s.rowStart.length = s.r + 1 := by rw [h.starts]; simp
  have hlenrow : (rows[i]'hi').length = L.length + M.length + R.length := by rw [hs.eq]; simp; omega
  have hno : s.r ≤ rows.length := by rw [h.len]
  unfold updateRP
  simp only [inRange_natCast, hi, hj, decide_true, if_true, Int.toNat_natCast]
  simp only [h1, Out.ok_bind]
  simp only [h2, Out.ok_bind]
  rcases hs.mid with ⟨rfl, rfl⟩ | rfl
  · -- not stored
    simp only [ne_eq, not_true_eq_false, decide_false, Bool.false_eq_true, if_false]
    unfold insert
    by_cases hz : isZero (f 0).2 = true
    · rw [if_pos hz]
      refine ⟨s, _, _, rfl, ?_, rfl, rfl, by simp, by simp⟩
      have : L ++ midOf j (f 0).2 ++ R = rows[i] := by rw [hs.eq]; simp [midOf, hz]
      rw [this, List.set_getElem_self]
      exact h
    · rw [if_neg hz]
      have hz' : isZero (f 0).2 = false := by simpa using hz
      rw [hcols, hvals]
      simp only [List.map_nil, List.nil_append]
      conv in splice (List.map Prod.fst (A ++ L) ++ _) _ _ => rw [hp1, splice_append]
      conv in splice (List.map Prod.snd (A ++ L) ++ _) _ _ => rw [hp2, splice_append]
      rw [bump_ok _ _ _ _ hrl]
      refine ⟨_, _, _, rfl, ?_, rfl, rfl, by simp, by simp [hz']⟩
      refine h.set_row hi _ rfl rfl ?_ ?_ ?_ hsorted hbound hnz
      · simp [midOf, hz', hA, hB]
      · simp [midOf, hz', hA, hB]
      · refine h.starts_set hi _ _ ?_
        intro k hk hk2
        have := offs_set rows i (L ++ midOf j (f 0).2 ++ R) hi' k (by omega)
        simp only [hk, if_true, hlenrow, midOf, hz'] at this
        simp at this
        simp only [midOf, hz']
        simp
        omega
  · -- stored
    simp only [ne_eq, List.cons_ne_self, not_false_eq_true, decide_true, if_true]
    have hidx : idx s.values (offs rows i + L.length) = .ok old := by
      rw [hvals, hp2]; simp [idx]
    rw [hidx]
    simp only [Out.ok_bind]
    by_cases hz : isZero (f old).2 = true
    · rw [if_pos hz]
      unfold remove
      rw [hcols, hvals]
      simp only [List.map_cons, List.map_nil, List.cons_append, List.nil_append]
      conv in unsplice (List.map Prod.fst (A ++ L) ++ _) _ => rw [hp1, unsplice_append]
      conv in unsplice (List.map Prod.snd (A ++ L) ++ _) _ => rw [hp2, unsplice_append]
      rw [bump_ok _ _ _ _ hrl]
      refine ⟨_, _, _, rfl, ?_, rfl, rfl, by simp [hz], by simp⟩
      refine h.set_row hi _ rfl rfl ?_ ?_ ?_ hsorted hbound hnz
      · simp [midOf, hz, hA, hB]
      · simp [midOf, hz, hA, hB]
      · refine h.starts_set hi _ _ ?_
        intro k hk hk2
        have := offs_set rows i (L ++ midOf j (f old).2 ++ R) hi' k (by omega)
        simp only [hk, if_true, hlenrow, midOf, hz] at this
        simp at this
        simp only [midOf, hz]
        simp
        omega
    · rw [if_neg hz]
      have hz' : isZero (f old).2 = false := by simpa using hz
      have hlt : offs rows i + L.length < s.values.length := by
        rw [hvals, hp2]; simp
      rw [setIdx_ok hlt]
      refine ⟨_, _, _, rfl, ?_, rfl, rfl, by simp, by simp⟩
      refine h.set_row hi _ rfl rfl ?_ ?_ ?_ hsorted hbound hnz
      · simp [midOf, hz', hA, hB, hcols]
      · simp only [hvals, hp2]
        simp [midOf, hz', hA, hB]
      · have := h.starts_set hi (L ++ midOf j (f old).2 ++ R) id ?_
        · rw [← this]
          apply List.ext_getElem <;> simp
        · intro k hk hk2
          have := offs_set rows i (L ++ midOf j (f old).2 ++ R) hi' k (by omega)
          simp only [hk, if_true, hlenrow, midOf, hz'] at this
          simp at this
          simp only [midOf, hz']
          simp
          omega

end CSR
end GB
