import Verif.Lemmas.Count
import Verif.Lemmas.Registry

/-!
# What `Enumerate` delivers, as a list
-/

namespace GB

set_option linter.unusedSectionVars false

/-- An iterator yields one list. -/
theorem Yields.unique {ι α : Type} {hasNext : ι → Bool} {step : ι → Out (ι × α)} :
    ∀ {it : ι} {l l' : List α}, Yields hasNext step it l → Yields hasNext step it l' → l = l'
  | _, [], [], _, _ => rfl
  | _, [], _ :: _, h, h' => by have := h'.1; rw [show hasNext _ = false from h] at this; cases this
  | _, _ :: _, [], h, h' => by have := h.1; rw [show hasNext _ = false from h'] at this; cases this
  | _, x :: l, y :: l', ⟨_, it1, h1, h2⟩, ⟨_, it2, h1', h2'⟩ => by
    rw [h1] at h1'
    cases h1'
    rw [Yields.unique h2 h2']

/-- Two lists in the same strict order with the same members are the same. -/
theorem sorted_ext {α : Type} {lt : α → α → Prop} (irr : ∀ a, ¬ lt a a) (tr : ∀ a b c, lt a b → lt b c → lt a c)
    {xs ys : List α} (hx : xs.Pairwise lt) (hy : ys.Pairwise lt) (h : ∀ a, a ∈ xs ↔ a ∈ ys) : xs = ys := by
  have nd : ∀ {l : List α}, l.Pairwise lt → l.Nodup := fun hl =>
    List.Pairwise.imp (fun {a b} (hab : lt a b) (e : a = b) => irr a (by rw [← e] at hab; exact hab)) hl
  have hp := (List.perm_ext_iff_of_nodup (nd hx) (nd hy)).2 h
  exact hp.eq_of_pairwise (fun a b _ _ h1 h2 => absurd (tr _ _ _ h1 h2) (irr a)) hx hy

theorem cells_rowMajor (r c : Nat) : (cells r c).Pairwise (fun a b => a.1 < b.1 ∨ (a.1 = b.1 ∧ a.2 < b.2)) := by
  unfold cells
  rw [List.pairwise_flatMap]
  refine ⟨fun i _ => ?_, ?_⟩
  · rw [List.pairwise_map]
    exact List.pairwise_lt_range.imp (fun h => Or.inr ⟨rfl, h⟩)
  · refine List.pairwise_lt_range.imp ?_
    intro a b hab x hx y hy
    obtain ⟨j, -, rfl⟩ := List.mem_map.1 hx
    obtain ⟨k, -, rfl⟩ := List.mem_map.1 hy
    exact Or.inl hab

/-- The cells column by column. -/
def cellsByColumn (r c : Nat) : List (Nat × Nat) := (cells c r).map Prod.swap

theorem mem_cellsByColumn {r c : Nat} {p : Nat × Nat} : p ∈ cellsByColumn r c ↔ p.1 < r ∧ p.2 < c := by
  unfold cellsByColumn
  simp only [List.mem_map]
  constructor
  · rintro ⟨q, hq, rfl⟩
    exact ⟨(mem_cells.1 hq).2, (mem_cells.1 hq).1⟩
  · rintro ⟨h1, h2⟩
    exact ⟨p.swap, mem_cells.2 ⟨h2, h1⟩, by simp⟩

theorem cellsByColumn_perm (r c : Nat) : (cellsByColumn r c).Perm (cells r c) := by
  refine (List.perm_ext_iff_of_nodup ((cells_nodup c r).map Prod.swap_injective) (cells_nodup r c)).2 ?_
  intro p
  exact mem_cellsByColumn.trans mem_cells.symm

section
variable {T : Type} [GoNum T] [GoStore T]

/-- The order in which a format is enumerated. -/
def Mat.scan (m : Mat T) : List (Nat × Nat) :=
  match m.kind with
  | .csc => cellsByColumn m.rows m.cols
  | _ => cells m.rows m.cols

theorem Mat.mem_scan {m : Mat T} {p : Nat × Nat} : p ∈ m.scan ↔ p.1 < m.rows ∧ p.2 < m.cols := by
  unfold Mat.scan
  split
  · exact mem_cellsByColumn
  · exact mem_cells

theorem Mat.scan_perm (m : Mat T) : m.scan.Perm (cells m.rows m.cols) := by
  unfold Mat.scan
  split
  · exact cellsByColumn_perm _ _
  · exact List.Perm.refl _

theorem isZero_false_ne {v : T} (h : isZero v = false) : v ≠ 0 := by
  rintro rfl
  rw [show isZero (0 : T) = true from GoStore.zero_eq] at h
  exact absurd h (by simp)

/-- A faithful list in a given order is determined by the cells it leaves out. -/
theorem Faithful.eq_filter {r c : Nat} {val : Nat → Nat → T} {es : List (Nat × Nat × T)} {ps : List (Nat × Nat)}
    {lt : Nat × Nat → Nat × Nat → Prop} (irr : ∀ a, ¬ lt a a) (tr : ∀ a b c, lt a b → lt b c → lt a c)
    (hf : Faithful r c val es) (hps : ps.Pairwise lt) (hmem : ∀ p, p ∈ ps ↔ p.1 < r ∧ p.2 < c)
    (ho : es.Pairwise (fun a b => lt (a.1, a.2.1) (b.1, b.2.1))) {keep : Nat → Nat → Bool}
    (hk : ∀ e ∈ es, keep e.1 e.2.1 = true) (hc : ∀ i j, i < r → j < c → keep i j = true → (i, j, val i j) ∈ es) :
    es = (ps.filter (fun p => keep p.1 p.2)).map (fun p => (p.1, p.2, val p.1 p.2)) := by
  refine sorted_ext (lt := fun (a b : Nat × Nat × T) => lt (a.1, a.2.1) (b.1, b.2.1)) (fun a => irr _)
    (fun a b c => tr _ _ _) ho ?_ ?_
  · rw [List.pairwise_map]
    exact hps.filter _
  · intro e
    simp only [List.mem_map, List.mem_filter, hmem]
    constructor
    · intro he
      exact ⟨(e.1, e.2.1), ⟨hf.range e he, hk e he⟩, by simp only [hf.value e he]⟩
    · rintro ⟨p, ⟨⟨h1, h2⟩, h3⟩, rfl⟩
      exact hc _ _ h1 h2 h3

theorem cellsByColumn_colMajor (r c : Nat) :
    (cellsByColumn r c).Pairwise (fun a b => a.2 < b.2 ∨ (a.2 = b.2 ∧ a.1 < b.1)) := by
  unfold cellsByColumn
  rw [List.pairwise_map]
  exact cells_rowMajor c r

/-- What a format delivers: its cells in its order, without the zero ones if it is compressed. -/
theorem Mat.ordered_entries {m : Mat T} (h : m.WF) : ∃ es, Mat.MapAt m m.iter es ∧ es.length = m.nvalues ∧
    Faithful m.rows m.cols m.val es ∧
    es = (m.scan.filter (fun p => !(m.kind.sparse && isZero (m.val p.1 p.2)))).map (fun p => (p.1, p.2, m.val p.1 p.2)) := by
  obtain ⟨es, e1, e2, e3, e4, e5⟩ := Mat.entries_ok h
  refine ⟨es, e1, e3, e2, ?_⟩
  have hk : ∀ e ∈ es, (fun i j => !(m.kind.sparse && isZero (m.val i j))) e.1 e.2.1 = true := by
    intro e he
    by_cases hs : m.kind = .dense ∨ m.kind = .dvec
    · rcases hs with hs | hs <;> simp [hs, Kind.sparse]
    · have := e5 ⟨fun h => hs (Or.inl h), fun h => hs (Or.inr h)⟩ e he
      simp only [e2.value e he, this, Bool.and_false, Bool.not_false]
  have hc : ∀ i j, i < m.rows → j < m.cols → (fun i j => !(m.kind.sparse && isZero (m.val i j))) i j = true →
      (i, j, m.val i j) ∈ es := by
    intro i j hi hj hkeep
    by_cases hs : m.kind = .dense ∨ m.kind = .dvec
    · exact e4 hs i j hi hj
    · have hsp : m.kind.sparse = true := by
        cases hk : m.kind <;> first | rfl | simp [hk] at hs
      have : isZero (m.val i j) = false := by simpa [hsp] using hkeep
      exact e2.complete i j hi hj (isZero_false_ne this)
  have row : RowMajor es → m.scan = cells m.rows m.cols →
      es = (m.scan.filter (fun p => !(m.kind.sparse && isZero (m.val p.1 p.2)))).map (fun p => (p.1, p.2, m.val p.1 p.2)) := by
    intro ho hsc
    rw [hsc]
    exact e2.eq_filter (lt := fun a b => a.1 < b.1 ∨ (a.1 = b.1 ∧ a.2 < b.2)) (by intro a; omega)
      (by intro a b c; omega) (cells_rowMajor _ _) (fun p => mem_cells) ho hk hc
  cases m with
  | csr s =>
    obtain ⟨rows, hr⟩ := h
    have hm : Mat.MapAt (.csr s) (Mat.csr s).iter (CSR.entriesFrom 0 rows) :=
      ⟨rows, 0, hr, hr.iter_init, by omega, by simp⟩
    have := Yields.unique e1.yields hm.yields
    subst this
    exact row hr.rowMajor rfl
  | csc s =>
    obtain ⟨cols, hr⟩ := h
    have hm : Mat.MapAt (.csc s) (Mat.csc s).iter (CSC.entries cols) :=
      ⟨cols, 0, hr, CSC.Rep.iter_init hr, by omega, by simp⟩
    have := Yields.unique e1.yields hm.yields
    subst this
    exact e2.eq_filter (lt := fun a b => a.2 < b.2 ∨ (a.2 = b.2 ∧ a.1 < b.1)) (by intro a; omega)
      (by intro a b c; omega) (cellsByColumn_colMajor _ _) (fun p => mem_cellsByColumn) (CSC.Rep.colMajor hr) hk hc
  | dense s =>
    have hm : Mat.MapAt (.dense s) (Mat.dense s).iter s.entries := ⟨h, 0, Dense.iter_init s, by omega, by simp⟩
    have := Yields.unique e1.yields hm.yields
    subst this
    exact row (Dense.rowMajor s) rfl
  | dvec s =>
    have hm : Mat.MapAt (.dvec s) (Mat.dvec s).iter s.entries := ⟨h, 0, DVec.iter_init s, by omega, by simp⟩
    have := Yields.unique e1.yields hm.yields
    subst this
    refine row ?_ rfl
    unfold RowMajor DVec.entries
    rw [List.pairwise_map]
    exact List.pairwise_lt_range.imp (fun hab => Or.inl hab)
  | svec s =>
    obtain ⟨xs, hr, hp⟩ := h
    have hm : Mat.MapAt (.svec s) (Mat.svec s).iter (SVec.entries xs) :=
      ⟨xs, 0, hr, hp, rfl, by simp [SVec.iter, hr.values], by omega, by simp⟩
    have := Yields.unique e1.yields hm.yields
    subst this
    refine row ?_ rfl
    unfold RowMajor SVec.entries
    rw [List.pairwise_map]
    exact hr.sorted.imp (fun hab => Or.inl hab)

/-- In a compressed format a cell that tests as zero is 0. -/
theorem Mat.WF.zero_of_isZero {m : Mat T} (h : m.WF) (hs : m.kind.sparse = true) {i j : Nat} (hi : i < m.rows)
    (hj : j < m.cols) (hz : isZero (m.val i j) = true) : m.val i j = 0 := by
  obtain ⟨es, -, e2, -, -, e5⟩ := Mat.entries_ok h
  by_contra hne
  have := e5 (by cases hk : m.kind <;> simp [hk, Kind.sparse] at hs ⊢) _ (e2.complete i j hi hj hne)
  rw [hz] at this
  exact absurd this (by simp)

end
end GB
