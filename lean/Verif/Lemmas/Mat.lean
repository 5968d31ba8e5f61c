import Verif.Lemmas.CSC
import Verif.Lemmas.Dense
import Verif.Model.Mat

/-!
# The common interface: what every storage format guarantees
-/

namespace GB

set_option linter.unusedSectionVars false
set_option linter.unusedSimpArgs false

variable {T : Type} [GoNum T]

/-! ## Sparse vectors as matrices -/

namespace SVec

/-- Every stored position is at most the number of stored entries: the states in which the
position test of `index` (sparseVector.go:191) is harmless. -/
def Packed (es : List (Nat × T)) : Prop := ∀ e ∈ es, e.1 ≤ es.length

theorem Rep.unique {s t : SVec T} {es : List (Nat × T)} (h1 : Rep s es) (h2 : Rep t es)
    (hl : s.l = t.l) : s = t := by
  cases s; cases t
  have a := h1.indices; have b := h2.indices; have c := h1.values; have d := h2.values
  simp only at a b c d hl
  rw [a, b, c, d, hl]

theorem Packed.get {es : List (Nat × T)} (h : Packed es) (i : Nat) :
    (if i ≤ es.length then rowGet es i else 0) = rowGet es i := by
  split
  · rfl
  · rename_i hi
    rw [rowGet_none]
    intro e he
    have := h e he
    omega

theorem Rep.setVec_self [GoStore T] {s : SVec T} {es : List (Nat × T)} (h : Rep s es) {i : Nat}
    (hi : i < s.l) : s.setVec i (if i ≤ es.length then rowGet es i else 0) = .ok s := by
  by_cases hle : i ≤ es.length
  · rw [if_pos hle]
    obtain ⟨L, M, R, old, hs⟩ := rowSplit_exists h.sorted i
    obtain ⟨s', h1, h2, h3⟩ := h.setVec_ok hi hs hle (rowGet es i)
    rw [h1]
    congr 1
    refine Rep.unique (es := es) ?_ h h2
    have : L ++ midOf i (rowGet es i) ++ R = es := by
      rw [hs.get]
      rcases hs.mid with ⟨hM, h0⟩ | hM
      · rw [hs.eq, hM, h0]; simp [midOf, isZero_zero]
      · have : isZero old = false := h.nz (i, old) (by rw [hs.eq, hM]; simp)
        rw [hs.eq, hM]; simp [midOf, this]
    rw [this] at h3
    exact h3
  · rw [if_neg hle, h.setVec_gt hi (by omega)]
    simp [midOf, isZero_zero]

theorem Rep.at_ok [GoStore T] {s : SVec T} {es : List (Nat × T)} (h : Rep s es) {i : Nat}
    (hi : i < s.l) : s.at' i 0 = .ok (if i ≤ es.length then rowGet es i else 0, s) := by
  unfold at' updateWith
  have e : inRange 0 1 = true := rfl
  simp only [inRange_natCast, hi, decide_true, if_true, e, h.atVec_ok hi, Out.ok_bind,
    h.setVec_self hi]

theorem Rep.element_ok {s : SVec T} {es : List (Nat × T)} (h : Rep s es) {i : Nat}
    (hi : i < s.l) (c : Int) :
    s.element i c = .ok (GoNum.glt 0 (if i ≤ es.length then rowGet es i else 0)) := by
  unfold element
  simp only [h.atVec_ok hi, Out.ok_bind]

/-- The entries seen as matrix entries. -/
def entries (es : List (Nat × T)) : List (Nat × Nat × T) := es.map (fun e => (e.1, 0, e.2))

theorem Rep.faithful {s : SVec T} {es : List (Nat × T)} (h : Rep s es) :
    Faithful s.l 1 (fun i _ => rowGet es i) (entries es) := by
  refine ⟨?_, ?_, ?_, ?_⟩
  · intro e he
    obtain ⟨x, hx, rfl⟩ := List.mem_map.1 he
    exact ⟨h.bound x hx, by simp⟩
  · unfold entries
    rw [List.pairwise_map]
    exact h.sorted.imp (fun hab => by simp; omega)
  · intro e he
    obtain ⟨x, hx, rfl⟩ := List.mem_map.1 he
    exact CSR.rowGet_of_mem h.sorted hx
  · intro i j hi hj hne
    obtain rfl : j = 0 := by omega
    exact List.mem_map.2 ⟨_, CSR.mem_of_rowGet hne, rfl⟩

end SVec

/-! ## Vocabulary -/

/-- The dynamic types. -/
inductive Kind where
  | csr | csc | dense | dvec | svec
  deriving DecidableEq, Repr

namespace Mat

/-- The dynamic type of a value. -/
def kind : Mat T → Kind
  | csr _ => .csr
  | csc _ => .csc
  | dense _ => .dense
  | dvec _ => .dvec
  | svec _ => .svec

/-- What a read returns: the value `At` delivers (0 when it panics). -/
def val (m : Mat T) (i j : Nat) : T :=
  match m.at' i j with
  | .ok (v, _) => v
  | _ => 0

/-- The state invariant. For a sparse vector it includes `Packed`. -/
def WF : Mat T → Prop
  | csr s => ∃ rows, s.Rep rows
  | csc s => ∃ cols, s.Rep cols
  | dense s => s.WF
  | dvec s => s.WF
  | svec s => ∃ es, s.Rep es ∧ SVec.Packed es

/-- What the format keeps of a written value: the formats that drop zeros store the zero value in
place of anything `== 0`. -/
def keep (m : Mat T) (v : T) : T :=
  match m.kind with
  | .dense | .dvec => v
  | _ => norm v

/-- May the value be stored in place by `Map`?  The formats that drop zeros need a non-zero. -/
def Storable (k : Kind) (v : T) : Prop :=
  match k with
  | .dense | .dvec => True
  | _ => isZero v = false

@[simp] theorem keep_lawful [GoLawful T] (m : Mat T) (v : T) : m.keep v = v := by
  unfold keep; split <;> simp

/-- `m'` has the type and shape of `m`. -/
def Same (m' m : Mat T) : Prop := m'.kind = m.kind ∧ m'.rows = m.rows ∧ m'.cols = m.cols

theorem Same.refl (m : Mat T) : Same m m := ⟨rfl, rfl, rfl⟩
theorem Same.trans {a b c : Mat T} (h1 : Same a b) (h2 : Same b c) : Same a c :=
  ⟨h1.1.trans h2.1, h1.2.1.trans h2.2.1, h1.2.2.trans h2.2.2⟩
theorem Same.keep {a b : Mat T} (h : Same a b) (v : T) : a.keep v = b.keep v := by
  unfold Mat.keep; rw [h.1]

/-! ## Cells of each format -/

variable [GoStore T]

theorem val_csr {s : CSR T} {rows : List (List (Nat × T))} (h : s.Rep rows) {i j : Nat} (hi : i < s.r)
    (hj : j < s.c) : val (csr s) i j = cellOf rows i j := by
  unfold val at'; simp [h.at_ok hi hj]

theorem val_csc {s : CSC T} {cols : List (List (Nat × T))} (h : s.Rep cols) {i j : Nat} (hi : i < s.r)
    (hj : j < s.c) : val (csc s) i j = cellOf cols j i := by
  unfold val at'; simp [h.at_ok hi hj]

theorem val_dense {s : Dense T} (h : s.WF) {i j : Nat} (hi : i < s.r) (hj : j < s.c) :
    val (dense s) i j = s.cell i j := by
  unfold val at'; simp [Dense.at_ok h hi hj]

theorem val_dvec {s : DVec T} (h : s.WF) {i j : Nat} (hi : i < s.l) :
    val (dvec s) i j = s.cell i := by
  unfold val at' DVec.at'; simp [DVec.atVec_ok h hi]

theorem val_svec {s : SVec T} {es : List (Nat × T)} (h : s.Rep es) {i : Nat} (hi : i < s.l) :
    val (svec s) i 0 = if i ≤ es.length then rowGet es i else 0 := by
  unfold val at'
  have := h.at_ok hi
  simp only [Int.natCast_zero] at *
  rw [this]
  simp

/-! ## Reading -/

/-- In range, `At` returns a value and leaves the matrix as it is. -/
theorem at_ok {m : Mat T} (h : m.WF) {i j : Nat} (hi : i < m.rows) (hj : j < m.cols) :
    m.at' i j = .ok (m.val i j, m) := by
  cases m with
  | csr s => obtain ⟨rows, h⟩ := h; unfold val at'; simp [h.at_ok hi hj]
  | csc s => obtain ⟨rows, h⟩ := h; unfold val at'; simp [h.at_ok hi hj]
  | dense s => unfold val at'; simp [Dense.at_ok h hi hj]
  | dvec s => unfold val at' DVec.at'; simp [DVec.atVec_ok h hi]
  | svec s =>
    obtain ⟨es, h, -⟩ := h
    obtain rfl : j = 0 := by simp [cols] at hj; omega
    have := h.at_ok hi
    simp only [val, at', Int.natCast_zero] at *
    rw [this]
    simp

/-- In range, `Element` says whether the value is positive. -/
theorem element_ok {m : Mat T} (h : m.WF) {i j : Nat} (hi : i < m.rows) (hj : j < m.cols) :
    m.element i j = .ok (GoNum.glt 0 (m.val i j), m) := by
  cases m with
  | csr s =>
    obtain ⟨rows, h⟩ := h
    rw [val_csr h hi hj]; unfold element; simp [h.element_ok hi hj]
  | csc s =>
    obtain ⟨rows, h⟩ := h
    rw [val_csc h hi hj]; unfold element; simp [h.element_ok hi hj]
  | dense s =>
    rw [val_dense h hi hj]; unfold element Dense.element; simp [Dense.at_ok h hi hj]
  | dvec s =>
    rw [val_dvec h hi]; unfold element DVec.element; simp [DVec.atVec_ok h hi]
  | svec s =>
    obtain ⟨es, h, -⟩ := h
    obtain rfl : j = 0 := by simp [cols] at hj; omega
    rw [val_svec h hi]; unfold element; simp [h.element_ok hi]

/-- `Copy` yields an equal matrix. -/
theorem copy_ok {m : Mat T} (h : m.WF) : m.copy = .ok m := by
  cases m with
  | csr s => obtain ⟨rows, h⟩ := h; simp [copy, h.copy_ok]
  | csc s => obtain ⟨rows, h⟩ := h; simp [copy, CSC.Rep.copy_ok h]
  | dense s => simp [copy, Dense.copy_ok h]
  | dvec s => simp [copy, DVec.copy_ok h]
  | svec s => obtain ⟨es, h, -⟩ := h; simp [copy, h.copy_ok]

/-! ## Writing -/

/-- One in-range cell written: everything else stays. -/
structure Wrote (m m' : Mat T) (i j : Nat) (v : T) : Prop where
  wf : m'.WF
  same : Same m' m
  hit : m'.val i j = v
  miss : ∀ a b, a < m.rows → b < m.cols → ¬ (a = i ∧ b = j) → m'.val a b = m.val a b

theorem update_ok {m : Mat T} (h : m.WF) (hk : m.kind ≠ .svec) {i j : Nat} (hi : i < m.rows)
    (hj : j < m.cols) (f : T → T) :
    ∃ m', m.update i j f = .ok m' ∧ Wrote m m' i j (m.keep (f (m.val i j))) := by
  cases m with
  | csr s =>
    obtain ⟨rows, h⟩ := h
    obtain ⟨s', rows', h1, h2, h3, h4, h5, h6⟩ := h.update_cells hi hj f
    refine ⟨csr s', by simp [update, h1], ⟨⟨rows', h2⟩, ⟨rfl, h3, h4⟩, ?_, ?_⟩⟩
    · rw [val_csr h2 (by rw [h3]; exact hi) (by rw [h4]; exact hj), val_csr h hi hj, h5]; rfl
    · intro a b ha hb hne
      rw [val_csr h2 (by rw [h3]; exact ha) (by rw [h4]; exact hb), val_csr h ha hb]
      exact h6 a b ha hne
  | csc s =>
    obtain ⟨rows, h⟩ := h
    obtain ⟨s', rows', h1, h2, h3, h4, h5, h6⟩ := h.update_cells hi hj f
    refine ⟨csc s', by simp [update, h1], ⟨⟨rows', h2⟩, ⟨rfl, h3, h4⟩, ?_, ?_⟩⟩
    · rw [val_csc h2 (by rw [h3]; exact hi) (by rw [h4]; exact hj), val_csc h hi hj, h5]; rfl
    · intro a b ha hb hne
      rw [val_csc h2 (by rw [h3]; exact ha) (by rw [h4]; exact hb), val_csc h ha hb]
      exact h6 a b hb hne
  | dense s =>
    have hw : s.WF := h
    obtain ⟨s', h1, h2, h3, h4, h5⟩ := Dense.set_ok hw hi hj (f (s.cell i j))
    refine ⟨dense s', by simp [update, Dense.update_eq hw hi hj, h1], ⟨h2, ⟨rfl, h3, h4⟩, ?_, ?_⟩⟩
    · rw [val_dense h2 (by rw [h3]; exact hi) (by rw [h4]; exact hj), val_dense hw hi hj, h5]
      simp [keep, kind]
    · intro a b ha hb hne
      rw [val_dense h2 (by rw [h3]; exact ha) (by rw [h4]; exact hb), val_dense hw ha hb, h5,
        if_neg hne]
  | dvec s =>
    have hw : s.WF := h
    obtain rfl : j = 0 := by simp [cols] at hj; omega
    have h1 := DVec.update_ok hw hi f
    refine ⟨dvec { s with values := s.values.set i (f (s.cell i)) },
      by simp only [update, Int.natCast_zero, h1, Out.ok_bind], ⟨DVec.setVec_wf hw, ⟨rfl, rfl, rfl⟩, ?_, ?_⟩⟩
    · rw [val_dvec (DVec.setVec_wf hw) hi, val_dvec hw hi, DVec.setVec_cell hw hi]
      simp [keep, kind]
    · intro a b ha hb hne
      obtain rfl : b = 0 := by simp [cols] at hb; omega
      rw [val_dvec (DVec.setVec_wf hw) ha, val_dvec hw ha, DVec.setVec_cell hw hi, if_neg]
      intro hc; exact hne ⟨hc, rfl⟩
  | svec s => exact absurd rfl hk

theorem set_eq_update {m : Mat T} (h : m.WF) (hk : m.kind ≠ .svec) {i j : Nat} (hi : i < m.rows)
    (hj : j < m.cols) (v : T) : m.set i j v = m.update i j (fun _ => v) := by
  cases m with
  | csr s => rfl
  | csc s => rfl
  | dense s => simp [set, update, Dense.update_eq h hi hj]
  | dvec s =>
    obtain rfl : j = 0 := by simp [cols] at hj; omega
    simp only [set, update, Int.natCast_zero, DVec.update_ok h hi, DVec.set_ok h hi]
  | svec s => exact absurd rfl hk

theorem set_ok {m : Mat T} (h : m.WF) (hk : m.kind ≠ .svec) {i j : Nat} (hi : i < m.rows)
    (hj : j < m.cols) (v : T) :
    ∃ m', m.set i j v = .ok m' ∧ Wrote m m' i j (m.keep v) := by
  rw [set_eq_update h hk hi hj]
  exact update_ok h hk hi hj _

/-- `Clear`: same type and shape, every cell 0. -/
theorem clear_ok (m : Mat T) : m.clear.WF ∧ Same m.clear m ∧
    ∀ i j, i < m.rows → j < m.cols → m.clear.val i j = 0 := by
  cases m with
  | csr s =>
    have hr : CSR.Rep s.clear (List.replicate s.r []) := by rw [CSR.clear_eq]; exact CSR.rep_new ..
    refine ⟨⟨_, hr⟩, ⟨rfl, rfl, rfl⟩, fun i j hi hj => ?_⟩
    rw [show (csr s).clear = csr s.clear from rfl, val_csr hr hi hj, CSR.cellOf_replicate]
  | csc s =>
    have hr : CSC.Rep s.clear (List.replicate s.c []) := by rw [CSC.clear_eq]; exact CSC.rep_new ..
    refine ⟨⟨_, hr⟩, ⟨rfl, rfl, rfl⟩, fun i j hi hj => ?_⟩
    rw [show (csc s).clear = csc s.clear from rfl, val_csc hr hi hj, CSR.cellOf_replicate]
  | dense s =>
    have e : s.clear = Dense.new s.r s.c := rfl
    have hw : s.clear.WF := by rw [e]; exact Dense.wf_new ..
    refine ⟨hw, ⟨rfl, rfl, rfl⟩, fun i j hi hj => ?_⟩
    rw [show (dense s).clear = dense s.clear from rfl, val_dense hw hi hj, e, Dense.cell_new]
  | dvec s =>
    have e : s.clear = DVec.new s.l := rfl
    have hw : s.clear.WF := by rw [e]; exact DVec.wf_new ..
    refine ⟨hw, ⟨rfl, rfl, rfl⟩, fun i j hi hj => ?_⟩
    rw [show (dvec s).clear = dvec s.clear from rfl, val_dvec hw hi, e, DVec.cell_new]
  | svec s =>
    have e : s.clear = SVec.new s.l := rfl
    have hw : s.clear.Rep [] := by rw [e]; exact SVec.rep_new ..
    refine ⟨⟨[], hw, by simp [SVec.Packed]⟩, ⟨rfl, rfl, rfl⟩, fun i j hi hj => ?_⟩
    obtain rfl : j = 0 := by simp [cols] at hj; omega
    rw [show (svec s).clear = svec s.clear from rfl, val_svec hw hi]
    simp [rowGet]

/-! ## Iterating and mapping -/

/-- The iterator `it` over `m` has still to deliver `rest`. -/
def MapAt : Mat T → Iter → List (Nat × Nat × T) → Prop
  | csr s, .csr it, rest => ∃ rows k, s.Rep rows ∧ CSR.IterAt s rows it k ∧
      k ≤ (CSR.entriesFrom 0 rows).length ∧ rest = (CSR.entriesFrom 0 rows).drop k
  | csc s, .csc it, rest => ∃ cols k, s.Rep cols ∧ CSC.IterAt s cols it k ∧
      k ≤ (CSC.entries cols).length ∧ rest = (CSC.entries cols).drop k
  | dense s, .dense it, rest => s.WF ∧ ∃ k, Dense.IterAt s it k ∧ k ≤ s.entries.length ∧
      rest = s.entries.drop k
  | dvec s, .dvec it, rest => s.WF ∧ ∃ k, DVec.IterAt s it k ∧ k ≤ s.entries.length ∧
      rest = s.entries.drop k
  | svec s, .svec it, rest => ∃ es k, s.Rep es ∧ SVec.Packed es ∧ it.last = k ∧
      it.size = es.length ∧ k ≤ es.length ∧ rest = (SVec.entries es).drop k
  | _, _, _ => False

theorem MapAt.wf {m : Mat T} {it : Iter} {rest : List (Nat × Nat × T)} (h : MapAt m it rest) : m.WF := by
  cases m <;> cases it <;> simp only [MapAt] at h
  · obtain ⟨rows, k, h, -⟩ := h; exact ⟨rows, h⟩
  · obtain ⟨rows, k, h, -⟩ := h; exact ⟨rows, h⟩
  · exact h.1
  · exact h.1
  · obtain ⟨es, k, h, hp, -⟩ := h; exact ⟨es, h, hp⟩

/-- Every format delivers a faithful list of entries; the dense ones deliver every cell. -/
theorem entries_ok {m : Mat T} (h : m.WF) : ∃ es, MapAt m m.iter es ∧
    Faithful m.rows m.cols m.val es ∧ es.length = m.nvalues ∧
    ((m.kind = .dense ∨ m.kind = .dvec) → ∀ i j, i < m.rows → j < m.cols → (i, j, m.val i j) ∈ es) ∧
    ((m.kind ≠ .dense ∧ m.kind ≠ .dvec) → ∀ e ∈ es, isZero e.2.2 = false) := by
  have conv : ∀ {m : Mat T} {v : Nat → Nat → T} {es : List (Nat × Nat × T)},
      (∀ i j, i < m.rows → j < m.cols → m.val i j = v i j) → Faithful m.rows m.cols v es →
      Faithful m.rows m.cols m.val es := by
    intro m v es hv hf
    refine ⟨hf.range, hf.distinct, ?_, ?_⟩
    · intro e he
      rw [hv _ _ (hf.range e he).1 (hf.range e he).2]; exact hf.value e he
    · intro i j hi hj hne
      rw [hv i j hi hj] at hne ⊢
      exact hf.complete i j hi hj hne
  cases m with
  | csr s =>
    obtain ⟨rows, h⟩ := h
    refine ⟨CSR.entriesFrom 0 rows, ⟨rows, 0, h, h.iter_init, by omega, by simp⟩,
      conv (fun i j hi hj => val_csr h hi hj) h.faithful, ?_, ?_, fun _ => h.entries_nz⟩
    · rw [CSR.entriesFrom_length]; exact h.values_length.symm
    · intro hk; simp [kind] at hk
  | csc s =>
    obtain ⟨rows, h⟩ := h
    refine ⟨CSC.entries rows, ⟨rows, 0, h, h.iter_init, by omega, by simp⟩,
      conv (fun i j hi hj => val_csc h hi hj) h.faithful, ?_, ?_, fun _ => h.entries_nz⟩
    · unfold CSC.entries
      rw [List.length_map, CSR.entriesFrom_length]; exact (CSR.Rep.values_length h).symm
    · intro hk; simp [kind] at hk
  | dense s =>
    have hw : s.WF := h
    refine ⟨s.entries, ⟨hw, 0, Dense.iter_init s, by omega, by simp⟩,
      conv (fun i j hi hj => val_dense hw hi hj) (Dense.faithful s), ?_, ?_, ?_⟩
    · simp [Dense.entries, nvalues]
    · intro _ i j hi hj
      rw [val_dense hw hi hj]; exact Dense.entries_all s i j hi hj
    · intro hk; simp [kind] at hk
  | dvec s =>
    have hw : s.WF := h
    refine ⟨s.entries, ⟨hw, 0, DVec.iter_init s, by omega, by simp⟩,
      conv (fun i j hi hj => val_dvec hw hi) (DVec.faithful (s := s)), ?_, ?_, ?_⟩
    · simp [DVec.entries, nvalues]
    · intro _ i j hi hj
      obtain rfl : j = 0 := by simp [cols] at hj; omega
      rw [val_dvec hw hi]
      exact List.mem_map.2 ⟨i, by simpa [rows] using hi, rfl⟩
    · intro hk; simp [kind] at hk
  | svec s =>
    obtain ⟨es, h, hp⟩ := h
    refine ⟨SVec.entries es, ⟨es, 0, h, hp, rfl, by simp [SVec.iter, h.values], by omega, by simp⟩,
      conv (v := fun i _ => rowGet es i) (fun i j hi hj => ?_) h.faithful, ?_, ?_, ?_⟩
    · obtain rfl : j = 0 := by simp [cols] at hj; omega
      rw [val_svec h hi, hp.get]
    · simp [SVec.entries, nvalues, h.values]
    · intro hk; simp [kind] at hk
    · intro _ e he
      obtain ⟨x, hx, rfl⟩ := List.mem_map.1 he
      exact h.nz x hx

theorem MapAt.nil {m : Mat T} {it : Iter} (h : MapAt m it []) : it.hasNext = false := by
  cases m <;> cases it <;> simp only [MapAt] at h
  · obtain ⟨rows, k, h, hi, hk, he⟩ := h
    have := List.drop_eq_nil_iff.1 he.symm
    rw [CSR.entriesFrom_length] at this
    simp only [Iter.hasNext, CSR.Iter.hasNext, hi.last, hi.size]
    simpa using this
  · obtain ⟨rows, k, h, hi, hk, he⟩ := h
    have := List.drop_eq_nil_iff.1 he.symm
    unfold CSC.entries at this
    rw [List.length_map, CSR.entriesFrom_length] at this
    have h1 : _ = k := hi.last
    have h2 : _ = rows.flatten.length := hi.size
    simp only [CSC.mirIt] at h1 h2
    simp only [Iter.hasNext, CSC.Iter.hasNext, h1, h2]
    simpa using this
  · obtain ⟨h, k, hi, hk, he⟩ := h
    have := List.drop_eq_nil_iff.1 he.symm
    simp only [Iter.hasNext, Dense.Iter.hasNext, hi.last, hi.size]
    simpa [Dense.entries] using this
  · obtain ⟨h, k, hi, hk, he⟩ := h
    have := List.drop_eq_nil_iff.1 he.symm
    simp only [Iter.hasNext, DVec.Iter.hasNext, hi.last, hi.size]
    simpa [DVec.entries] using this
  · obtain ⟨es, k, h, hp, h1, h2, hk, he⟩ := h
    have := List.drop_eq_nil_iff.1 he.symm
    simp only [Iter.hasNext, SVec.Iter.hasNext, h1, h2]
    simpa [SVec.entries] using this

theorem drop_cons {α : Type} {l rest : List α} {k : Nat} {e : α} (h : e :: rest = l.drop k) :
    ∃ hk : k < l.length, l[k] = e ∧ rest = l.drop (k + 1) := by
  have hk : k < l.length := by
    rcases Nat.lt_or_ge k l.length with hk | hk
    · exact hk
    · rw [List.drop_eq_nil_of_le hk] at h; simp at h
  rw [List.drop_eq_getElem_cons hk] at h
  injection h with h1 h2
  exact ⟨hk, h1.symm, h2⟩

/-- One turn of an iterator, and of `Map` with a storable value. -/
theorem MapAt.cons {m : Mat T} {it : Iter} {e : Nat × Nat × T} {rest : List (Nat × Nat × T)}
    (h : MapAt m it (e :: rest)) : it.hasNext = true ∧
    ∃ it', m.step it = .ok (it', e) ∧ MapAt m it' rest ∧ e.1 < m.rows ∧ e.2.1 < m.cols ∧
      m.val e.1 e.2.1 = e.2.2 ∧
      ∀ v, Storable m.kind v → ∃ m', m.put it' v = .ok m' ∧ MapAt m' it' rest ∧
        Wrote m m' e.1 e.2.1 v := by
  cases m <;> cases it <;> simp only [MapAt] at h
  · rename_i s it
    obtain ⟨rows, k, h, hi, hk, he⟩ := h
    obtain ⟨hk, rfl, rfl⟩ := drop_cons he
    obtain ⟨it', g1, g2, g3, g4⟩ := h.step_ok hi hk
    have hf := h.faithful
    have hr := hf.range _ (List.getElem_mem hk)
    refine ⟨?_, .csr it', by simp [step, g1], ⟨rows, k + 1, h, g2, hk, rfl⟩, hr.1, hr.2, ?_, ?_⟩
    · simp only [Iter.hasNext, CSR.Iter.hasNext, hi.last, hi.size]
      rw [CSR.entriesFrom_length] at hk; simpa using hk
    · rw [val_csr h hr.1 hr.2]; exact hf.value _ (List.getElem_mem hk)
    · intro v hv
      obtain ⟨s', rows', p1, p2, p3, p4, p5, p6, p7, p8⟩ := h.put_ok hk g2 g3 g4 (v := v) hv
      refine ⟨csr s', by simp [put, p1], ⟨rows', k + 1, p2, p5, ?_, ?_⟩,
        ⟨⟨rows', p2⟩, ⟨rfl, p3, p4⟩, ?_, ?_⟩⟩
      · rw [p6, List.length_set]; exact hk
      · rw [p6, List.drop_set_of_lt (by omega)]
      · rw [val_csr p2 (by rw [p3]; exact hr.1) (by rw [p4]; exact hr.2)]; exact p7
      · intro a b ha hb hne
        rw [val_csr p2 (by rw [p3]; exact ha) (by rw [p4]; exact hb), val_csr h ha hb]
        exact p8 a b ha hne
  · rename_i s it
    obtain ⟨rows, k, h, hi, hk, he⟩ := h
    obtain ⟨hk, rfl, rfl⟩ := drop_cons he
    obtain ⟨it', g1, g2, g3, g4⟩ := h.step_ok hi hk
    have hf := h.faithful
    have hr := hf.range _ (List.getElem_mem hk)
    refine ⟨?_, .csc it', by simp [step, g1], ⟨rows, k + 1, h, g2, hk, rfl⟩, hr.1, hr.2, ?_, ?_⟩
    · have h1 : _ = k := hi.last
      have h2 : _ = rows.flatten.length := hi.size
      simp only [CSC.mirIt] at h1 h2
      unfold CSC.entries at hk
      rw [List.length_map, CSR.entriesFrom_length] at hk
      simp only [Iter.hasNext, CSC.Iter.hasNext, h1, h2]
      simpa using hk
    · rw [val_csc h hr.1 hr.2]; exact hf.value _ (List.getElem_mem hk)
    · intro v hv
      obtain ⟨s', rows', p1, p2, p3, p4, p5, p6, p7, p8⟩ := h.put_ok hk g2 g3 g4 (v := v) hv
      refine ⟨csc s', by simp [put, p1], ⟨rows', k + 1, p2, p5, ?_, ?_⟩,
        ⟨⟨rows', p2⟩, ⟨rfl, p3, p4⟩, ?_, ?_⟩⟩
      · rw [p6, List.length_set]; exact hk
      · rw [p6, List.drop_set_of_lt (by omega)]
      · rw [val_csc p2 (by rw [p3]; exact hr.1) (by rw [p4]; exact hr.2)]; exact p7
      · intro a b ha hb hne
        rw [val_csc p2 (by rw [p3]; exact ha) (by rw [p4]; exact hb), val_csc h ha hb]
        exact p8 a b hb hne
  · rename_i s it
    obtain ⟨h, k, hi, hk, he⟩ := h
    obtain ⟨hk, rfl, rfl⟩ := drop_cons he
    have hk' : k < s.r * s.c := by simpa [Dense.entries] using hk
    obtain ⟨it', g1, g2, g3, g4⟩ := Dense.step_ok h hi hk'
    have hr := Dense.pos_lt hk'
    have hE : s.entries[k] = (k / s.c, k % s.c, s.cell (k / s.c) (k % s.c)) := by
      simp [Dense.entries]
    rw [hE]
    refine ⟨?_, .dense it', by simp [step, g1], ⟨h, k + 1, g2, hk, rfl⟩, hr.1, hr.2, ?_, ?_⟩
    · simp only [Iter.hasNext, Dense.Iter.hasNext, hi.last, hi.size]; simpa using hk'
    · rw [val_dense h hr.1 hr.2]
    · intro v hv
      obtain ⟨s', p1, p2, p3, p4, p5⟩ := Dense.set_ok h hr.1 hr.2 v
      refine ⟨dense s', by simp only [put, Dense.put, g3, g4, p1, Out.ok_bind], ⟨p2, k + 1, ?_, ?_, ?_⟩,
        ⟨p2, ⟨rfl, p3, p4⟩, ?_, ?_⟩⟩
      · exact ⟨by rw [p3, p4]; exact g2.size, g2.last, by rw [p4]; exact g2.pos, by rw [p4]; exact g2.le⟩
      · simp [Dense.entries, p3, p4]; omega
      · unfold Dense.entries
        rw [p3, p4, ← List.map_drop, ← List.map_drop]
        apply List.map_congr_left
        intro n hn
        have hn' : k + 1 ≤ n := by
          obtain ⟨q, hq, rfl⟩ := List.getElem_of_mem hn
          simp
        rw [p5, if_neg]
        intro ⟨e1, e2⟩
        have d1 := Nat.div_add_mod n s.c
        have d2 := Nat.div_add_mod k s.c
        rw [e1, e2] at d1
        omega
      · rw [val_dense p2 (by rw [p3]; exact hr.1) (by rw [p4]; exact hr.2), p5]; simp
      · intro a b ha hb hne
        rw [val_dense p2 (by rw [p3]; exact ha) (by rw [p4]; exact hb), val_dense h ha hb, p5,
          if_neg hne]
  · rename_i s it
    obtain ⟨h, k, hi, hk, he⟩ := h
    obtain ⟨hk, rfl, rfl⟩ := drop_cons he
    have hk' : k < s.l := by simpa [DVec.entries] using hk
    obtain ⟨it', g1, g2, g3⟩ := DVec.step_ok h hi hk'
    have hE : s.entries[k] = (k, 0, s.cell k) := by simp [DVec.entries]
    rw [hE]
    refine ⟨?_, .dvec it', by simp [step, g1], ⟨h, k + 1, g2, hk, rfl⟩, hk', by simp [cols], ?_, ?_⟩
    · simp only [Iter.hasNext, DVec.Iter.hasNext, hi.last, hi.size]; simpa using hk'
    · rw [val_dvec h hk']
    · intro v hv
      have p1 := DVec.setVec_ok h hk' v
      have p2 := DVec.setVec_wf h (i := k) (v := v)
      refine ⟨dvec _, by simp only [put, DVec.put, g3, p1, Out.ok_bind], ⟨p2, k + 1, ?_, ?_, ?_⟩,
        ⟨p2, ⟨rfl, rfl, rfl⟩, ?_, ?_⟩⟩
      · exact ⟨g2.size, g2.last, g2.r⟩
      · simp [DVec.entries]; omega
      · unfold DVec.entries
        rw [← List.map_drop, ← List.map_drop]
        apply List.map_congr_left
        intro n hn
        have hn' : k + 1 ≤ n := by
          obtain ⟨q, hq, rfl⟩ := List.getElem_of_mem hn
          simp
        rw [DVec.setVec_cell h hk', if_neg (by omega)]
      · rw [val_dvec p2 hk', DVec.setVec_cell h hk']; simp
      · intro a b ha hb hne
        obtain rfl : b = 0 := by simp [cols] at hb; omega
        rw [val_dvec p2 ha, val_dvec h ha, DVec.setVec_cell h hk', if_neg]
        intro hc; exact hne ⟨hc, rfl⟩
  · rename_i s it
    obtain ⟨es, k, h, hp, h1, h2, hk, he⟩ := h
    obtain ⟨hk', rfl, rfl⟩ := drop_cons he
    have hk : k < es.length := by simpa [SVec.entries] using hk'
    have hE : (SVec.entries es)[k] = (es[k].1, 0, es[k].2) := by simp [SVec.entries]
    rw [hE]
    have hf := h.faithful
    have hb := h.bound _ (List.getElem_mem hk)
    have e1 : idx s.indices it.next.old = .ok es[k].1 := by
      rw [idx_ok (by simp [h.indices, SVec.Iter.next, h1, hk])]
      simp only [h.indices, SVec.Iter.next, h1, List.getElem_map]
    have e2 : idx s.values it.next.old = .ok es[k].2 := by
      rw [idx_ok (by simp [h.values, SVec.Iter.next, h1, hk])]
      simp only [h.values, SVec.Iter.next, h1, List.getElem_map]
    refine ⟨?_, .svec it.next, by simp [step, SVec.step, e1, e2],
      ⟨es, k + 1, h, hp, by simp [SVec.Iter.next, h1], by simp [SVec.Iter.next, h2], hk, rfl⟩,
      hb, by simp [cols], ?_, ?_⟩
    · simp only [Iter.hasNext, SVec.Iter.hasNext, h1, h2]; simpa using hk
    · rw [val_svec h hb, hp.get]; exact CSR.rowGet_of_mem h.sorted (List.getElem_mem hk)
    · intro v hv
      have hv : isZero v = false := hv
      have hkv : k < s.values.length := by simp [h.values, hk]
      let s' : SVec T := { s with values := s.values.set k v }
      have hrow : es = es.take k ++ es[k] :: es.drop (k + 1) := by
        conv => lhs; rw [← List.take_append_drop k es, List.drop_eq_getElem_cons hk]
      have hsplit : RowSplit es (es.take k) [es[k]] (es.drop (k + 1)) es[k].1 es[k].2 := by
        refine ⟨by simp, CSR.mem_take_lt h.sorted hk, ?_, Or.inr rfl⟩
        intro x hx
        have hs := h.sorted
        unfold RowSorted at hs
        rw [hrow, List.pairwise_append] at hs
        exact (List.pairwise_cons.1 hs.2.1).1 x hx
      have hmid : midOf es[k].1 v = [(es[k].1, v)] := by simp [midOf, hv]
      have hes' : es.take k ++ midOf es[k].1 v ++ es.drop (k + 1) = es.set k (es[k].1, v) := by
        rw [hmid, List.set_eq_take_append_cons_drop, if_pos hk]; simp
      have hmem : ∀ e ∈ es.set k (es[k].1, v), ∃ e0 ∈ es, e.1 = e0.1 := by
        intro e he
        rcases List.mem_or_eq_of_mem_set he with he | rfl
        · exact ⟨e, he, rfl⟩
        · exact ⟨es[k], List.getElem_mem hk, rfl⟩
      have hrep : SVec.Rep s' (es.set k (es[k].1, v)) := by
        refine ⟨?_, ?_, ?_, ?_, ?_⟩
        · simp only [s', h.indices, List.map_set]
          exact (List.set_getElem_self (as := es.map Prod.fst) (by simpa using hk)).symm.trans (by simp)
        · simp only [s', h.values, List.map_set]
        · rw [← hes']; exact hsplit.sorted_put h.sorted v
        · intro e he
          obtain ⟨e0, he0, heq⟩ := hmem e he
          rw [heq]; exact h.bound e0 he0
        · intro e he
          rcases List.mem_or_eq_of_mem_set he with he | rfl
          · exact h.nz e he
          · exact hv
      have hpk : SVec.Packed (es.set k (es[k].1, v)) := by
        intro e he
        obtain ⟨e0, he0, heq⟩ := hmem e he
        rw [List.length_set, heq]; exact hp e0 he0
      refine ⟨svec s', ?_, ⟨_, k + 1, hrep, hpk, by simp [SVec.Iter.next, h1],
        by simp [SVec.Iter.next, h2], by rw [List.length_set]; exact hk, ?_⟩, ⟨⟨_, hrep, hpk⟩, ⟨rfl, rfl, rfl⟩, ?_, ?_⟩⟩
      · simp [put, SVec.put, hv, SVec.Iter.next, h1, setIdx_ok hkv, s']
      · unfold SVec.entries
        rw [List.map_set, List.drop_set_of_lt (by omega)]
      · rw [val_svec hrep hb, hpk.get, ← hes', (hsplit.put_split v).get]; simp [norm, hv]
      · intro a b ha hb' hne
        obtain rfl : b = 0 := by simp [cols] at hb'; omega
        rw [val_svec hrep ha, hpk.get, val_svec h ha, hp.get, ← hes']
        exact hsplit.get_put_ne v (by intro hc; exact hne ⟨hc, rfl⟩)

/-- Plain enumeration. -/
theorem MapAt.yields {m : Mat T} : ∀ {rest : List (Nat × Nat × T)} {it : Iter}, MapAt m it rest →
    Yields Iter.hasNext m.step it rest := by
  intro rest
  induction rest with
  | nil => intro it h; exact h.nil
  | cons e rest ih =>
    intro it h
    obtain ⟨h1, it', h2, h3, -⟩ := h.cons
    exact ⟨h1, it', h2, ih h3⟩

end Mat
end GB
