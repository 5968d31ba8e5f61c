import Verif.Lemmas.MapDrive
import Verif.Props.Arith

/-!
# Functions that return zero: C14 (Map) and C17 (Scalar), continued
-/

namespace GB

set_option linter.unusedSectionVars false

variable {T : Type} [GoNum T] [GoStore T]

/-! ## C14 -/

/-- Driving `Map(f)` ends normally and does what it should: same shape, every non-zero cell `v` at
`(i,j)` becomes `f(i,j,v)` (the zero value if that is a zero), every zero cell stays. -/
def MapsRight (m : Mat T) (f : Nat → Nat → T → T) (n : Nat) : Prop :=
  ∃ (val : Nat → Nat → T) (m' : Mat T),
    (∀ i j : Nat, i < m.rows → j < m.cols → m.at' i j = .ok (val i j, m)) ∧
    m.drive f n m.iter = .ok m' ∧ m'.rows = m.rows ∧ m'.cols = m.cols ∧
    ∀ i j : Nat, i < m.rows → j < m.cols →
      m'.at' i j = .ok (if isZero (val i j) then val i j else norm (f i j (val i j)), m')

theorem csr_mapsRight {s : CSR T} {rows : List (List (Nat × T))} (h : s.Rep rows)
    (f : Nat → Nat → T → T) {n : Nat} (hn : s.values.length ≤ n)
    (hf : ∀ i j, i < s.r → j < s.c → isZero (cellOf rows i j) = false →
      isZero (f i j (cellOf rows i j)) = true → ∀ j', j < j' → j' < s.c → cellOf rows i j' = 0) :
    ∃ s' rows', CSR.drive f n s s.iter = .ok s' ∧ s'.Rep rows' ∧ s'.r = s.r ∧ s'.c = s.c ∧
      ∀ i j, i < s.r → j < s.c → cellOf rows' i j =
        if isZero (cellOf rows i j) then cellOf rows i j else norm (f i j (cellOf rows i j)) := by
  obtain ⟨hL, hl⟩ := h.left_init
  have hF := h.faithful
  have hM := h.rowMajor
  obtain ⟨s', rows', g1, g2, g3, g4, g5, g6⟩ := h.drive_left f (n := n) hL
    (by rw [hl, CSR.entriesFrom_length, ← h.values_length]; exact hn) (by rw [hl]; exact hF.distinct)
    (by
      rw [hl]
      intro k hk hz x hx hxe
      have hr := hF.range _ (List.getElem_mem hk)
      have hv := hF.value _ (List.getElem_mem hk)
      rw [← hv] at hz
      have hnz : isZero (cellOf rows (CSR.entriesFrom 0 rows)[k].1 (CSR.entriesFrom 0 rows)[k].2.1) = false := by
        rw [hv]; exact h.entries_nz _ (List.getElem_mem hk)
      obtain ⟨q, hq, hqe⟩ := List.getElem_of_mem hx
      rw [List.getElem_drop] at hqe
      have hlt : k + 1 + q < (CSR.entriesFrom 0 rows).length := by simp at hq; omega
      have hord := List.pairwise_iff_getElem.1 hM k (k + 1 + q) hk hlt (by omega)
      rw [hqe] at hord
      have hcol : (CSR.entriesFrom 0 rows)[k].2.1 < x.2.1 := by
        rcases hord with ho | ho
        · omega
        · exact ho.2
      have hxm : x ∈ CSR.entriesFrom 0 rows := List.mem_of_mem_drop hx
      have h0 := hf _ _ hr.1 hr.2 hnz hz x.2.1 hcol (hF.range _ hxm).2
      rw [← hxe, hF.value _ hxm] at h0
      have := h.entries_nz _ hxm
      rw [h0, isZero_zero] at this
      simp at this)
  rw [hl] at g5 g6
  refine ⟨s', rows', g1, g2, g3, g4, fun i j hi hj => ?_⟩
  by_cases hz : isZero (cellOf rows i j) = true
  · rw [if_pos hz]
    refine g6 i j hi (fun e he hc => ?_)
    have h1 := hF.value e he
    rw [← hc.1, ← hc.2] at h1
    have h2 := h.entries_nz e he
    rw [← h1, hz] at h2
    simp at h2
  · rw [if_neg hz]
    exact g5 _ (hF.complete i j hi hj (fun h0 => hz (by rw [h0, isZero_zero])))

/-- C14 for a CSR matrix, more than `C14_map_compressed_partial`: `f` may return zero on the last
non-zero cell of each row. (Missing: zeros elsewhere, where the code passes over the next entry.) -/
theorem C14_csr_partial {m : Mat T} (h : Reach m) (hk : m.kind = .csr) (f : Nat → Nat → T → T) (n : Nat)
    (hn : m.nvalues ≤ n)
    (hf : ∀ (i j : Nat) (v : T), i < m.rows → j < m.cols → m.at' i j = .ok (v, m) → isZero v = false → isZero (f i j v) = true →
      ∀ j' : Nat, j < j' → j' < m.cols → m.at' i j' = .ok (0, m)) : MapsRight m f n := by
  have hw := h.wf (by simp [hk])
  cases m <;> simp [Mat.kind] at hk
  rename_i s
  obtain ⟨rows, hr⟩ := hw
  have hat : ∀ {i j : Nat}, i < s.r → j < s.c → (Mat.csr s).at' i j = .ok (cellOf rows i j, .csr s) := by
    intro i j hi hj; rw [Mat.at_ok (show (Mat.csr s).WF from ⟨rows, hr⟩) hi hj, Mat.val_csr hr hi hj]
  obtain ⟨s', rows', g1, g2, g3, g4, g5⟩ := csr_mapsRight hr f hn (by
    intro i j hi hj h1 h2 j' hj' hjc
    have := hf i j _ hi hj (hat hi hj) h1 h2 j' hj' hjc
    rw [hat hi hjc] at this
    injection this with this; injection this)
  refine ⟨cellOf rows, .csr s', fun i j hi hj => hat hi hj, ?_, g3, g4, fun i j hi hj => ?_⟩
  · exact (drive_csr f n s s.iter).trans (by rw [g1]; rfl)
  · have hi' : i < (Mat.csr s').rows := by rw [show (Mat.csr s').rows = s'.r from rfl, g3]; exact hi
    have hj' : j < (Mat.csr s').cols := by rw [show (Mat.csr s').cols = s'.c from rfl, g4]; exact hj
    rw [Mat.at_ok (show (Mat.csr s').WF from ⟨rows', g2⟩) hi' hj', Mat.val_csr g2 hi' hj', g5 i j hi hj]

/-- C14 for a CSC matrix: `f` may return zero on the last non-zero cell of each column. -/
theorem C14_csc_partial {m : Mat T} (h : Reach m) (hk : m.kind = .csc) (f : Nat → Nat → T → T) (n : Nat)
    (hn : m.nvalues ≤ n)
    (hf : ∀ (i j : Nat) (v : T), i < m.rows → j < m.cols → m.at' i j = .ok (v, m) → isZero v = false → isZero (f i j v) = true →
      ∀ i' : Nat, i < i' → i' < m.rows → m.at' i' j = .ok (0, m)) : MapsRight m f n := by
  have hw := h.wf (by simp [hk])
  cases m <;> simp [Mat.kind] at hk
  rename_i s
  obtain ⟨rows, hr⟩ := hw
  have hr' : (CSC.mir s).Rep rows := hr
  have hat : ∀ {i j : Nat}, i < s.r → j < s.c → (Mat.csc s).at' i j = .ok (cellOf rows j i, .csc s) := by
    intro i j hi hj; rw [Mat.at_ok (show (Mat.csc s).WF from ⟨rows, hr⟩) hi hj, Mat.val_csc hr hi hj]
  obtain ⟨s', rows', g1, g2, g3, g4, g5⟩ := csr_mapsRight hr' (fun a b v => f b a v) (n := n) hn (by
    intro j i hj hi h1 h2 i' hi' hic
    have := hf i j _ hi hj (hat hi hj) h1 h2 i' hi' hic
    rw [hat hic hj] at this
    injection this with this; injection this)
  refine ⟨fun i j => cellOf rows j i, .csc (CSC.unmir s'), fun i j hi hj => hat hi hj, ?_, g4, g3, fun i j hi hj => ?_⟩
  · refine (drive_csc f n s s.iter).trans ?_
    have e : CSC.mirIt s.iter = (CSC.mir s).iter := rfl
    rw [e, g1]; rfl
  · have hi' : i < (CSC.unmir s').r := by rw [show (CSC.unmir s').r = s'.c from rfl, g4]; exact hi
    have hj' : j < (CSC.unmir s').c := by rw [show (CSC.unmir s').c = s'.r from rfl, g3]; exact hj
    have g2' : (CSC.unmir s').Rep rows' := g2
    rw [Mat.at_ok (show (Mat.csc (CSC.unmir s')).WF from ⟨rows', g2'⟩) hi' hj', Mat.val_csc g2' hi' hj', g5 j i hj hi]

/-- Zero in the last column: `[1 2; 0 3]` becomes `[1 0; 0 0]`. -/
example : MapsRight (T := ℤ) (.csr { r := 2, c := 2, values := [1, 2, 3], cols := [0, 1, 1], rowStart := [0, 2, 3] })
    (fun _ j v => if j = 1 then 0 else v) 3 :=
  C14_csr_partial (Reach.arrCSR (data := [[1, 2], [0, 3]]) (c := 2)
    (by intro row hr; simp at hr; rcases hr with rfl | rfl <;> rfl) (by kernel_rfl)) rfl _ 3 (by decide) (by
      intro i j v hi hj h1 h2 h3 j' hjj hj'
      have hj2 : j' < 2 := hj'
      have : ¬ j = 1 := by omega
      simp [this, h2] at h3)

example : (Mat.csr (T := ℤ) { r := 2, c := 2, values := [1, 2, 3], cols := [0, 1, 1], rowStart := [0, 2, 3] }).drive
    (fun _ j v => if j = 1 then 0 else v) 3 (Mat.csr (T := ℤ) { r := 2, c := 2, values := [1, 2, 3], cols := [0, 1, 1], rowStart := [0, 2, 3] }).iter =
    .ok (.csr { r := 2, c := 2, values := [1], cols := [0], rowStart := [0, 1, 1] }) := by kernel_rfl

/-- Zero in the last row, CSC: `[1 0; 2 3]` becomes `[1 0; 0 0]`. -/
example : (Mat.csc (T := ℤ) { r := 2, c := 2, values := [1, 2, 3], rows := [0, 1, 1], colStart := [0, 2, 3] }).drive
    (fun i _ v => if i = 1 then 0 else v) 3 (Mat.csc (T := ℤ) { r := 2, c := 2, values := [1, 2, 3], rows := [0, 1, 1], colStart := [0, 2, 3] }).iter =
    .ok (.csc { r := 2, c := 2, values := [1], rows := [0], colStart := [0, 1, 1] }) := by kernel_rfl

theorem csr_lines {s : CSR T} {rows : List (List (Nat × T))} (h : s.Rep rows) {n : Nat}
    (two : ∀ b : T, ∃ w, isZero w = false ∧ w ≠ b) (hn : s.values.length ≤ n)
    (hall : ∀ f : Nat → Nat → T → T, ∃ s', CSR.drive f n s s.iter = .ok s' ∧
      ∀ i j : Nat, i < s.r → j < s.c → s'.at' i j =
        .ok (if isZero (cellOf rows i j) then cellOf rows i j else norm (f i j (cellOf rows i j)), s')) :
    ∀ i j j', i < s.r → cellOf rows i j ≠ 0 → cellOf rows i j' ≠ 0 → j = j' := by
  intro i j j' hi h1 h2
  by_contra hne
  obtain ⟨L, ja, a, jb, b, hrow⟩ := h.two_entries hi hne h1 h2
  obtain ⟨w, hw1, hw2⟩ := two b
  obtain ⟨s', g1, g3⟩ := hall (fun x y _ => if x = i ∧ y = ja then 0 else w)
  obtain ⟨rows2, k1, k2, k3, k4⟩ := h.drive_wrong hrow hn (fun x y _ => if x = i ∧ y = ja then 0 else w)
    (by simp [isZero_zero]) (by intro x y v hxy; simp [hxy, hw1]) g1
  have hir : i < rows.length := by rw [h.len]; exact hi
  have hri : rows[i] = L ++ [(ja, a), (jb, b)] := by
    rw [List.getElem?_eq_getElem hir] at hrow; exact Option.some.inj hrow
  have hmem : (i, jb, b) ∈ CSR.entriesFrom 0 rows := by
    rw [CSR.mem_entriesFrom]; exact ⟨i, hir, by simp, by rw [hri]; simp⟩
  have hcell := h.faithful.value _ hmem
  have hb := h.faithful.range _ hmem
  have hnz := h.entries_nz _ hmem
  simp only at hcell hb hnz
  have hjne : jb ≠ ja := by
    have := h.sorted _ (List.getElem_mem hir)
    rw [hri] at this
    have := (List.pairwise_cons.1 (List.pairwise_append.1 this).2.1).1 (jb, b) (by simp)
    simp only at this
    omega
  have hg := g3 i jb hi hb.2
  rw [hcell, hnz] at hg
  have e : norm w = w := by simp [norm, hw1]
  rw [k1.at_ok (by omega) (by omega), k4] at hg
  simp [hjne, e] at hg
  exact hw2 hg.symm

/-- C14, exactly when `Map` can be used with every function on a CSR matrix: no row has two non-zero
cells. (`T` has, for each value, a non-zero value other than it.) -/
theorem C14_csr_iff {m : Mat T} (h : Reach m) (hk : m.kind = .csr) (n : Nat) (hn : m.nvalues ≤ n)
    (two : ∀ b : T, ∃ w, isZero w = false ∧ w ≠ b) :
    (∀ f, MapsRight m f n) ↔
      ∀ (i j j' : Nat) (u v : T), i < m.rows → j < m.cols → j' < m.cols → m.at' i j = .ok (u, m) →
        m.at' i j' = .ok (v, m) → u ≠ 0 → v ≠ 0 → j = j' := by
  have hw := h.wf (by simp [hk])
  constructor
  · intro hall
    cases m <;> simp [Mat.kind] at hk
    rename_i s
    obtain ⟨rows, hr⟩ := hw
    have hat : ∀ {i j : Nat}, i < s.r → j < s.c → (Mat.csr s).at' i j = .ok (cellOf rows i j, .csr s) := by
      intro i j hi hj; rw [Mat.at_ok (show (Mat.csr s).WF from ⟨rows, hr⟩) hi hj, Mat.val_csr hr hi hj]
    have key := csr_lines hr two hn (fun f => by
      obtain ⟨val, m', g1, g2, g3, g4, g5⟩ := hall f
      rw [show (Mat.csr s).iter = .csr s.iter from rfl, drive_csr] at g2
      cases hd : CSR.drive f n s s.iter with
      | panic => rw [hd] at g2; simp at g2
      | hang => rw [hd] at g2; cases g2
      | ok s' =>
        rw [hd] at g2
        injection g2 with g2
        subst g2
        refine ⟨s', rfl, fun i j hi hj => ?_⟩
        have hv : val i j = cellOf rows i j := by
          have := g1 i j hi hj
          rw [hat hi hj] at this
          injection this with this; injection this with this; exact this.symm
        have h5 := g5 i j hi hj
        rw [hv] at h5
        simp only [Mat.at'] at h5
        cases hs : s'.at' i j with
        | ok x =>
          rw [hs] at h5
          simp only [Out.ok_bind] at h5
          injection h5 with h5
          injection h5 with h5 h6
          injection h6 with h6
          rw [← h5]
          exact congrArg _ (Prod.ext rfl h6)
        | panic => rw [hs] at h5; simp at h5
        | hang => rw [hs] at h5; cases h5)
    intro i j j' u v hi hj hj' h1 h2 hu hv
    rw [hat hi hj] at h1
    rw [hat hi hj'] at h2
    injection h1 with h1; injection h1 with h1
    injection h2 with h2; injection h2 with h2
    exact key i j j' hi (by rw [h1]; exact hu) (by rw [h2]; exact hv)
  · intro hl f
    refine C14_csr_partial h hk f n hn (fun i j v hi hj h1 h2 h3 j' hjj hj' => ?_)
    rw [Mat.at_ok hw hi hj']
    by_cases hv : m.val i j' = 0
    · rw [hv]
    · have hv0 : v ≠ 0 := by rintro rfl; rw [isZero_zero] at h2; simp at h2
      have := hl i j j' v _ hi hj hj' h1 (Mat.at_ok hw hi hj') hv0 hv
      omega

/-- … and on a CSC matrix: no column has two non-zero cells. -/
theorem C14_csc_iff {m : Mat T} (h : Reach m) (hk : m.kind = .csc) (n : Nat) (hn : m.nvalues ≤ n)
    (two : ∀ b : T, ∃ w, isZero w = false ∧ w ≠ b) :
    (∀ f, MapsRight m f n) ↔
      ∀ (i i' j : Nat) (u v : T), i < m.rows → i' < m.rows → j < m.cols → m.at' i j = .ok (u, m) →
        m.at' i' j = .ok (v, m) → u ≠ 0 → v ≠ 0 → i = i' := by
  have hw := h.wf (by simp [hk])
  constructor
  · intro hall
    cases m <;> simp [Mat.kind] at hk
    rename_i s
    obtain ⟨rows, hr⟩ := hw
    have hr' : (CSC.mir s).Rep rows := hr
    have hat : ∀ {i j : Nat}, i < s.r → j < s.c → (Mat.csc s).at' i j = .ok (cellOf rows j i, .csc s) := by
      intro i j hi hj; rw [Mat.at_ok (show (Mat.csc s).WF from ⟨rows, hr⟩) hi hj, Mat.val_csc hr hi hj]
    have key := csr_lines hr' (n := n) two hn (fun f => by
      obtain ⟨val, m', g1, g2, g3, g4, g5⟩ := hall (fun a b v => f b a v)
      rw [show (Mat.csc s).iter = .csc s.iter from rfl, drive_csc] at g2
      have e : CSC.mirIt s.iter = (CSC.mir s).iter := rfl
      rw [e] at g2
      cases hd : CSR.drive f n (CSC.mir s) (CSC.mir s).iter with
      | panic => rw [hd] at g2; simp at g2
      | hang => rw [hd] at g2; cases g2
      | ok s' =>
        rw [hd] at g2
        injection g2 with g2
        subst g2
        refine ⟨s', rfl, fun j i hj hi => ?_⟩
        have hv : val i j = cellOf rows j i := by
          have := g1 i j hi hj
          rw [hat hi hj] at this
          injection this with this; injection this with this; exact this.symm
        have h5 := g5 i j hi hj
        rw [hv] at h5
        simp only [Mat.at', CSC.at_eq, CSC.mir_unmir] at h5
        cases hs : s'.at' j i with
        | ok x =>
          rw [hs] at h5
          simp only [Out.map_ok, Out.ok_bind] at h5
          injection h5 with h5
          injection h5 with h5 h6
          injection h6 with h6
          rw [← h5]
          refine congrArg _ (Prod.ext rfl ?_)
          have := congrArg CSC.mir h6
          simpa using this
        | panic => rw [hs] at h5; simp at h5
        | hang => rw [hs] at h5; cases h5)
    intro i i' j u v hi hi' hj h1 h2 hu hv
    rw [hat hi hj] at h1
    rw [hat hi' hj] at h2
    injection h1 with h1; injection h1 with h1
    injection h2 with h2; injection h2 with h2
    exact key j i i' hj (by rw [h1]; exact hu) (by rw [h2]; exact hv)
  · intro hl f
    refine C14_csc_partial h hk f n hn (fun i j v hi hj h1 h2 h3 i' hii hi' => ?_)
    rw [Mat.at_ok hw hi' hj]
    by_cases hv : m.val i' j = 0
    · rw [hv]
    · have hv0 : v ≠ 0 := by rintro rfl; rw [isZero_zero] at h2; simp at h2
      have := hl i i' j v _ hi hi' hj h1 (Mat.at_ok hw hi' hj) hv0 hv
      omega

/-- The hypothesis on `T` of the two theorems holds for the integers. -/
example : ∀ b : ℤ, ∃ w : ℤ, isZero w = false ∧ w ≠ b := by
  intro b
  by_cases hb : b = 1
  · exact ⟨2, by decide, by omega⟩
  · exact ⟨1, by decide, fun h => hb h.symm⟩

/-- C14 for a sparse vector that enumerates `es`, exactly: if the function returns no zero except
possibly at the last entry, every entry is replaced (and the last one dropped if zero); otherwise
the loop panics. -/
theorem C14_sparse_vector_partial {s : SVec T} (h : Reach (.svec s)) {es : List (Nat × Nat × T)}
    (hes : Yields SVec.Iter.hasNext s.step s.iter es) (f : Nat → Nat → T → T) (n : Nat)
    (hn : s.values.length ≤ n) :
    ((∀ q (h : q + 1 < es.length), isZero (f es[q].1 es[q].2.1 es[q].2.2) = false) →
      ∃ s', (Mat.svec s).drive f n (Mat.svec s).iter = .ok (.svec s') ∧ s'.l = s.l ∧
        Yields SVec.Iter.hasNext s'.step s'.iter
          ((es.map (fun e => (e.1, e.2.1, f e.1 e.2.1 e.2.2))).filter (fun e => !isZero e.2.2))) ∧
    (∀ q (h : q + 1 < es.length), isZero (f es[q].1 es[q].2.1 es[q].2.2) = true →
      (Mat.svec s).drive f n (Mat.svec s).iter = .panic) := by
  have hw := h.weak
  obtain ⟨ps, hps⟩ : ∃ ps, ps = s.indices.zip s.values := ⟨_, rfl⟩
  have e1 : s.indices = ps.map Prod.fst := by rw [hps, List.map_fst_zip (by rw [hw.len])]
  have e2 : s.values = ps.map Prod.snd := by rw [hps, List.map_snd_zip (by rw [hw.len])]
  have hlen : ps.length = s.values.length := by rw [e2]; simp
  have hy := SVec.yields_aux s ps e1 e2 ps.length 0 s.iter (by omega) rfl (by simp [SVec.iter, hlen])
  have hee : es = ps.map (fun e => (e.1, 0, e.2)) := by
    rw [List.drop_zero] at hy
    exact yields_unique hes hy
  subst hee
  simp only [List.length_map, List.getElem_map]
  constructor
  · intro hf
    have := svec_drive_ok f ps.length 0 n s ps s.iter e1 e2 rfl (by simp [SVec.iter, hlen]) (by omega) (by omega)
      (fun q _ hq _ => hf q hq)
    refine ⟨_, this, rfl, ?_⟩
    simp only [List.take_zero, List.nil_append, List.drop_zero]
    have hy' := SVec.yields_aux (T := T) { s with indices := (mapped f ps).map Prod.fst, values := (mapped f ps).map Prod.snd }
      (mapped f ps) rfl rfl (mapped f ps).length 0
      (SVec.iter { s with indices := (mapped f ps).map Prod.fst, values := (mapped f ps).map Prod.snd })
      (by omega) rfl (by simp [SVec.iter])
    rw [List.drop_zero] at hy'
    have e : (mapped f ps).map (fun e => (e.1, 0, e.2)) =
        ((ps.map (fun e => (e.1, 0, e.2))).map (fun e => (e.1, e.2.1, f e.1 e.2.1 e.2.2))).filter (fun e => !isZero e.2.2) := by
      unfold mapped
      simp only [List.map_map, List.filter_map]
      rfl
    rw [← e]
    exact hy'
  · intro q hq hz
    exact svec_drive_panic f ps.length 0 n s ps s.iter e1 e2 rfl (by simp [SVec.iter, hlen]) (by omega) (by omega)
      ⟨q, by omega, hq, by omega, hz⟩

/-- Zero at the last of two entries drops it; zero at the first panics. -/
example : (Mat.svec (T := ℤ) { l := 3, values := [5, 7], indices := [0, 1] }).drive (fun i _ v => if i = 1 then 0 else v) 2
    (Mat.svec (T := ℤ) { l := 3, values := [5, 7], indices := [0, 1] }).iter =
      .ok (.svec { l := 3, values := [5], indices := [0] }) := by kernel_rfl
example : (Mat.svec (T := ℤ) { l := 3, values := [5, 7], indices := [0, 1] }).drive (fun i _ v => if i = 0 then 0 else v) 2
    (Mat.svec (T := ℤ) { l := 3, values := [5, 7], indices := [0, 1] }).iter = .panic := by kernel_rfl

/-! ## C17 -/

section world
open M Meth

/-- The loop of an operator without masks and without cancellation is the `Map` loop of the object. -/
theorem loopMap_drive (p : Ref) (f : Nat → Nat → T → T) : ∀ (n : Nat) (it : Mat.Iter) (w : World T), w.cancel = none →
    match Mat.drive f n (w.heap p) it with
    | .ok m' => loopMap p false (fun r c v => pure (f r c v)) n it w = .ok false (w.upd p m' none)
    | .panic => (loopMap p false (fun r c v => pure (f r c v)) n it w).isPanic = true
    | .hang => (loopMap p false (fun r c v => pure (f r c v)) n it w).isHang = true := by
  intro n
  induction n with
  | zero =>
    intro it w hc
    unfold Mat.drive loopMap
    cases it.hasNext with
    | true => rfl
    | false =>
      show (Res.ok false w : Res T Bool) = _
      obtain ⟨a, b, c, d, e⟩ := w
      simp only at hc
      subst hc
      simp [World.upd]
  | succ n ih =>
    intro it w hc
    unfold Mat.drive loopMap
    cases it.hasNext with
    | false =>
      show (Res.ok false w : Res T Bool) = _
      obtain ⟨a, b, c, d, e⟩ := w
      simp only at hc
      subst hc
      simp [World.upd]
    | true =>
      simp only [if_true]
      have hp : poll w = .ok false w := by
        rw [poll_go (by simp [hc])]
        obtain ⟨a, b, c, d, e⟩ := w
        simp only at hc
        subst hc
        rfl
      rw [bind_ok hp]
      simp only [Bool.false_eq_true, if_false]
      cases hs : (w.heap p).step it with
      | panic => simp only [bind_apply, ofObj, hs]; rfl
      | hang => simp only [bind_apply, ofObj, hs]; rfl
      | ok x =>
        obtain ⟨it', r, c, v⟩ := x
        simp only [Out.ok_bind]
        rw [bind_ok (ofObj_ok hs)]
        simp only
        rw [bind_ok (show (pure (f r c v) : M T T) w = .ok (f r c v) w from rfl)]
        cases hq : (w.heap p).put it' (f r c v) with
        | panic => simp only [bind_apply, withObj, hq]; rfl
        | hang => simp only [bind_apply, withObj, hq]; rfl
        | ok m' =>
          rw [bind_ok (withObj_ok (a := ()) (m := m') (by simp [hq]))]
          simp only [Out.ok_bind]
          have := ih it' { w with heap := Function.update w.heap p m' } hc
          simp only [Function.update_self] at this
          cases hd : Mat.drive f n m' it' with
          | panic => rw [hd] at this; exact this
          | hang => rw [hd] at this; exact this
          | ok m'' =>
            rw [hd] at this
            simp only at this ⊢
            rw [this]
            simp [World.upd]

/-- C17, exactly: what `Scalar(alpha)` does on an object of any format is what `Map` with
`v ↦ alpha*v` does on a copy of it. -/
theorem scalar_drive {w : World T} {s : Ref} (alpha : T) (hs : (w.heap s).copy = .ok (w.heap s)) :
    match Mat.drive (fun _ _ v => alpha * v) w.gas (w.heap s) (w.heap s).iter with
    | .ok m' => Meth.scalar s alpha w =
        .ok w.next { w with heap := Function.update w.heap w.next m', next := w.next + 1 }
    | .panic => (Meth.scalar s alpha w).isPanic = true
    | .hang => (Meth.scalar s alpha w).isHang = true := by
  have hcopy : M.copy s { w with cancel := none } = .ok w.next (fresh w (w.heap s)) := by
    unfold M.copy
    rw [bind_ok (ofObj_ok (w := { w with cancel := none }) hs)]
    rfl
  have hl := loopMap_drive w.next (fun _ _ v => alpha * v) w.gas (w.heap s).iter (fresh w (w.heap s)) rfl
  rw [fresh_next] at hl
  have hsc : Ops.scalar s alpha { w with cancel := none } =
      ((forMap w.next false (fun _ _ v => pure (alpha * v))) >>= fun _ => pure w.next) (fresh w (w.heap s)) := by
    unfold Ops.scalar; rw [bind_ok hcopy]
  have hfm : forMap w.next false (fun _ _ v => pure (alpha * v)) (fresh w (w.heap s)) =
      loopMap w.next false (fun _ _ v => pure (alpha * v)) w.gas (w.heap s).iter (fresh w (w.heap s)) := by
    rw [forMap_eq, fresh_next, fresh_gas]
  unfold Meth.scalar background
  rw [hsc, bind_apply, hfm]
  cases hd : Mat.drive (fun _ _ v => alpha * v) w.gas (w.heap s) (w.heap s).iter with
  | ok m' =>
    rw [hd] at hl
    simp only at hl ⊢
    rw [hl]
    simp [World.upd, fresh]
  | panic =>
    rw [hd] at hl
    simp only at hl ⊢
    cases hr : loopMap w.next false (fun _ _ v => pure (alpha * v)) w.gas (w.heap s).iter (fresh w (w.heap s)) <;>
      rw [hr] at hl <;> first | rfl | (simp [Res.isPanic] at hl)
  | hang =>
    rw [hd] at hl
    simp only at hl ⊢
    cases hr : loopMap w.next false (fun _ _ v => pure (alpha * v)) w.gas (w.heap s).iter (fresh w (w.heap s)) <;>
      rw [hr] at hl <;> first | rfl | (simp [Res.isHang] at hl)

/-- The object the `Map` loop leaves is the one `Scalar` returns. -/
theorem returns_of_drive {w : World T} {s : Ref} {alpha : T} {m' : Mat T} {new : Nat → Nat → T}
    (hs : (w.heap s).WF)
    (hd : Mat.drive (fun _ _ v => alpha * v) w.gas (w.heap s) (w.heap s).iter = .ok m') (hw : m'.WF)
    (hk : m'.kind = (w.heap s).kind) (hr : m'.rows = (w.heap s).rows) (hc : m'.cols = (w.heap s).cols)
    (hv : ∀ i j, i < m'.rows → j < m'.cols → m'.val i j = new i j) :
    Returns w (w.heap s).kind (w.heap s).rows (w.heap s).cols new (Meth.scalar s alpha w) := by
  have := scalar_drive alpha (Mat.copy_ok hs)
  rw [hd] at this
  simp only at this
  refine ⟨w.next, _, this, Nat.le_refl _, Nat.lt_succ_self _, ?_, rfl, rfl, rfl, ?_, ?_, ?_, ?_, ?_⟩
  · intro q hq
    show Function.update w.heap w.next m' q = _
    rw [Function.update_of_ne (Nat.ne_of_lt hq)]
  all_goals simp only [Function.update_self]
  · exact hw
  · exact hk
  · exact hr
  · exact hc
  · intro i j hi hj; exact hv i j (by rw [hr]; exact hi) (by rw [hc]; exact hj)

/-- Two cells with the same value: a row in CSR format, a column in CSC format, a sparse vector. -/
def twoCells (k : Kind) (x : T) : Mat T :=
  match k with
  | .csc => .csc { r := 2, c := 1, values := [x, x], rows := [0, 1], colStart := [0, 2] }
  | .svec => .svec { l := 2, values := [x, x], indices := [0, 1] }
  | _ => .csr { r := 1, c := 2, values := [x, x], cols := [0, 1], rowStart := [0, 2] }

theorem twoCells_wf {k : Kind} (hk : k = .csr ∨ k = .csc ∨ k = .svec) {x : T} (hx : isZero x = false) :
    (twoCells k x).WF ∧ (twoCells k x).kind = k ∧ (twoCells k x).nvalues = 2 := by
  have key : (CSR.Rep (T := T) { r := 1, c := 2, values := [x, x], cols := [0, 1], rowStart := [0, 2] } [[(0, x), (1, x)]]) := by
    refine ⟨rfl, rfl, rfl, rfl, ?_, ?_, ?_⟩
    · intro row hr; simp at hr; subst hr; simp [RowSorted]
    · intro row hr e he; simp at hr; subst hr; simp at he; rcases he with rfl | rfl <;> simp
    · intro row hr e he; simp at hr; subst hr; simp at he; rcases he with rfl | rfl <;> exact hx
  rcases hk with rfl | rfl | rfl
  · exact ⟨⟨_, key⟩, rfl, rfl⟩
  · exact ⟨⟨_, key⟩, rfl, rfl⟩
  · refine ⟨⟨[(0, x), (1, x)], ?_, ?_⟩, rfl, rfl⟩
    · refine ⟨rfl, rfl, by simp [RowSorted], ?_, ?_⟩ <;> intro e he <;> simp at he <;> rcases he with rfl | rfl <;> simp [hx]
    · intro e he
      simp at he
      rcases he with rfl | rfl <;> simp

/-- The `Map` loop on a row of two cells whose first cell becomes zero runs past the end. -/
theorem two_drive {x alpha : T} (h : isZero (alpha * x) = true) (n : Nat) :
    CSR.drive (fun _ _ v => alpha * v) (n + 2) { r := 1, c := 2, values := [x, x], cols := [0, 1], rowStart := [0, 2] }
      (CSR.iter { r := 1, c := 2, values := [x, x], cols := [0, 1], rowStart := [0, 2] }) = .panic := by
  have e1 : (CSR.step (T := T) { r := 1, c := 2, values := [x, x], cols := [0, 1], rowStart := [0, 2] }
      (CSR.iter (T := T) { r := 1, c := 2, values := [x, x], cols := [0, 1], rowStart := [0, 2] })) =
      .ok ({ size := 2, last := 1, c := 0, r := 0, cIndex := 1, index := 0, pointerStart := 1, pointerEnd := 2 }, 0, 0, x) := by rfl
  have e2 : (CSR.put (T := T) { r := 1, c := 2, values := [x, x], cols := [0, 1], rowStart := [0, 2] }
      { size := 2, last := 1, c := 0, r := 0, cIndex := 1, index := 0, pointerStart := 1, pointerEnd := 2 } (alpha * x)) =
      .ok { r := 1, c := 2, values := [x], cols := [1], rowStart := [0, 1] } := by
    unfold CSR.put; rw [h]; rfl
  have e3 : (CSR.step (T := T) { r := 1, c := 2, values := [x], cols := [1], rowStart := [0, 1] }
      { size := 2, last := 1, c := 0, r := 0, cIndex := 1, index := 0, pointerStart := 1, pointerEnd := 2 }) = .panic := by rfl
  unfold CSR.drive
  rw [if_pos (by rfl), e1]
  simp only [Out.ok_bind, e2]
  unfold CSR.drive
  rw [if_pos (by rfl), e3]
  rfl

/-- `Scalar(alpha)` on two cells whose product with `alpha` is zero panics, in the three formats. -/
theorem scalar_two_panics {k : Kind} (hk : k = .csr ∨ k = .csc ∨ k = .svec) {x alpha : T} (hx : isZero x = false)
    (hz : isZero (alpha * x) = true) : (Meth.scalar 0 alpha (World.of 2 [twoCells k x])).isPanic = true := by
  have := scalar_drive (w := World.of 2 [twoCells k x]) (s := 0) alpha (Mat.copy_ok (twoCells_wf hk hx).1)
  have e : Mat.drive (fun _ _ v => alpha * v) 2 (twoCells k x) (twoCells k x).iter = .panic := by
    rcases hk with rfl | rfl | rfl
    · show Mat.drive (fun _ _ v => alpha * v) 2 (.csr { r := 1, c := 2, values := [x, x], cols := [0, 1], rowStart := [0, 2] })
          (.csr (CSR.iter { r := 1, c := 2, values := [x, x], cols := [0, 1], rowStart := [0, 2] })) = .panic
      rw [drive_csr, two_drive hz 0]; rfl
    · show Mat.drive (fun _ _ v => alpha * v) 2 (.csc { r := 2, c := 1, values := [x, x], rows := [0, 1], colStart := [0, 2] })
          (.csc (CSC.iter { r := 2, c := 1, values := [x, x], rows := [0, 1], colStart := [0, 2] })) = .panic
      rw [drive_csc]
      have : CSR.drive (fun _ _ v => alpha * v) 2 (CSC.mir { r := 2, c := 1, values := [x, x], rows := [0, 1], colStart := [0, 2] })
          (CSC.mirIt (CSC.iter { r := 2, c := 1, values := [x, x], rows := [0, 1], colStart := [0, 2] })) = .panic :=
        two_drive hz 0
      rw [this]; rfl
    · exact svec_drive_panic (fun _ _ v => alpha * v) 2 0 2 { l := 2, values := [x, x], indices := [0, 1] } [(0, x), (1, x)] _
        rfl rfl rfl rfl rfl (Nat.le_refl 2) ⟨0, Nat.le_refl 0, Nat.le_refl 2, Nat.zero_lt_two, hz⟩
  change (match Mat.drive (fun _ _ v => alpha * v) 2 (twoCells k x) (twoCells k x).iter with
    | .ok m' => _
    | .panic => _
    | .hang => _) at this
  rw [e] at this
  exact this

theorem not_returns_of_panic {w : World T} {k : Kind} {r c : Nat} {new : Nat → Nat → T} {res : Res T Ref}
    (hp : res.isPanic = true) : ¬ Returns w k r c new res := by
  rintro ⟨p, w', rfl, -⟩
  simp [Res.isPanic] at hp

end world

section ring
variable {T : Type} [GoRing T] [GoLawful T]
open M Meth

/-- C17 for a CSR matrix, more than `C17_scalar_partial`: `alpha` may annihilate the last non-zero cell
of each row. -/
theorem C17_csr_partial {w : World T} {s : Ref} (alpha : T) (hk : (w.heap s).kind = .csr) (hs : (w.heap s).WF)
    (hgas : (w.heap s).nvalues ≤ w.gas)
    (hl : ∀ i j j', i < (w.heap s).rows → j < j' → j' < (w.heap s).cols → (w.heap s).val i j ≠ 0 →
      alpha * (w.heap s).val i j = 0 → (w.heap s).val i j' = 0) :
    Returns w (w.heap s).kind (w.heap s).rows (w.heap s).cols
      (fun i j => alpha * (w.heap s).val i j) (Meth.scalar s alpha w) := by
  have hs' := hs
  cases hm : w.heap s with
  | csr m =>
    rw [hm] at hs' hgas hl
    obtain ⟨rows, hr⟩ := hs'
    obtain ⟨s', rows', g1, g2, g3, g4, g5⟩ := csr_mapsRight hr (fun _ _ v => alpha * v) (n := w.gas) hgas (by
      intro i j hi hj h1 h2 j' hj' hjc
      have := hl i j j' hi hj' hjc
      rw [Mat.val_csr hr hi hj, Mat.val_csr hr hi hjc] at this
      refine this ?_ ((isZero_iff _).1 h2)
      intro h0; rw [h0, isZero_zero] at h1; simp at h1)
    rw [← hm]
    refine returns_of_drive (m' := .csr s') hs ?_ ⟨rows', g2⟩ (by rw [hm]; rfl) (by rw [hm]; exact g3) (by rw [hm]; exact g4) ?_
    · rw [hm]; exact (drive_csr _ _ m m.iter).trans (by rw [g1]; rfl)
    · intro i j hi hj
      rw [hm]
      have hi' : i < m.r := by rw [← g3]; exact hi
      have hj' : j < m.c := by rw [← g4]; exact hj
      rw [Mat.val_csr g2 hi hj, Mat.val_csr hr hi' hj', g5 i j hi' hj']
      split
      · rename_i h; rw [(isZero_iff _).1 h]; simp
      · simp
  | _ => rw [hm] at hk; simp [Mat.kind] at hk

/-- C17 for a CSC matrix: `alpha` may annihilate the last non-zero cell of each column. -/
theorem C17_csc_partial {w : World T} {s : Ref} (alpha : T) (hk : (w.heap s).kind = .csc) (hs : (w.heap s).WF)
    (hgas : (w.heap s).nvalues ≤ w.gas)
    (hl : ∀ i i' j, i < i' → i' < (w.heap s).rows → j < (w.heap s).cols → (w.heap s).val i j ≠ 0 →
      alpha * (w.heap s).val i j = 0 → (w.heap s).val i' j = 0) :
    Returns w (w.heap s).kind (w.heap s).rows (w.heap s).cols
      (fun i j => alpha * (w.heap s).val i j) (Meth.scalar s alpha w) := by
  have hs' := hs
  cases hm : w.heap s with
  | csc m =>
    rw [hm] at hs' hgas hl
    obtain ⟨rows, hr⟩ := hs'
    have hr' : (CSC.mir m).Rep rows := hr
    obtain ⟨s', rows', g1, g2, g3, g4, g5⟩ := csr_mapsRight hr' (fun _ _ v => alpha * v) (n := w.gas) hgas (by
      intro j i hj hi h1 h2 i' hi' hic
      have := hl i i' j hi' hic hj
      rw [Mat.val_csc hr hi hj, Mat.val_csc hr hic hj] at this
      refine this ?_ ((isZero_iff _).1 h2)
      intro h0; rw [h0, isZero_zero] at h1; simp at h1)
    rw [← hm]
    have g2' : (CSC.unmir s').Rep rows' := g2
    refine returns_of_drive (m' := .csc (CSC.unmir s')) hs ?_ ⟨rows', g2'⟩ (by rw [hm]; rfl) (by rw [hm]; exact g4) (by rw [hm]; exact g3) ?_
    · rw [hm]
      refine (drive_csc _ _ m m.iter).trans ?_
      have e : CSC.mirIt m.iter = (CSC.mir m).iter := rfl
      rw [e, g1]; rfl
    · intro i j hi hj
      rw [hm]
      have hi' : i < m.r := by have : (CSC.unmir s').r = m.r := g4; rw [← this]; exact hi
      have hj' : j < m.c := by have : (CSC.unmir s').c = m.c := g3; rw [← this]; exact hj
      rw [Mat.val_csc g2' hi hj, Mat.val_csc hr hi' hj', g5 j i hj' hi']
      split
      · rename_i h; rw [(isZero_iff _).1 h]; simp
      · simp
  | _ => rw [hm] at hk; simp [Mat.kind] at hk

/-- `Scalar(0)` on a compressed matrix with at most one non-zero cell in each row (CSR) or column (CSC)
is the zero matrix. -/
theorem C17_zero_partial {w : World T} {s : Ref} (hs : (w.heap s).WF) (hgas : (w.heap s).nvalues ≤ w.gas)
    (hl : ((w.heap s).kind = .csr ∧ ∀ i j j', i < (w.heap s).rows → j < (w.heap s).cols → j' < (w.heap s).cols →
        (w.heap s).val i j ≠ 0 → (w.heap s).val i j' ≠ 0 → j = j') ∨
      ((w.heap s).kind = .csc ∧ ∀ i i' j, i < (w.heap s).rows → i' < (w.heap s).rows → j < (w.heap s).cols →
        (w.heap s).val i j ≠ 0 → (w.heap s).val i' j ≠ 0 → i = i')) :
    Returns w (w.heap s).kind (w.heap s).rows (w.heap s).cols (fun _ _ => 0) (Meth.scalar s 0 w) := by
  rcases hl with ⟨hk, hl⟩ | ⟨hk, hl⟩
  · refine (C17_csr_partial 0 hk hs hgas ?_).congr (by simp)
    intro i j j' hi hj hj' h1 _
    by_contra h2
    have := hl i j j' hi (by omega) hj' h1 h2
    omega
  · refine (C17_csc_partial 0 hk hs hgas ?_).congr (by simp)
    intro i i' j hi hi' hj h1 _
    by_contra h2
    have := hl i i' j (by omega) hi' hj h1 h2
    omega

/-- C17 for a sparse vector, exactly: `Scalar(alpha)` is right if and only if `alpha` annihilates no
non-zero position other than the last one. -/
theorem C17_sparse_vector_iff {w : World T} {s : Ref} (alpha : T) (hk : (w.heap s).kind = .svec)
    (hs : (w.heap s).WF) (hgas : (w.heap s).nvalues ≤ w.gas) :
    Returns w (w.heap s).kind (w.heap s).rows (w.heap s).cols
      (fun i j => alpha * (w.heap s).val i j) (Meth.scalar s alpha w) ↔
    ∀ i i', i < i' → i' < (w.heap s).rows → (w.heap s).val i 0 ≠ 0 → alpha * (w.heap s).val i 0 = 0 →
      (w.heap s).val i' 0 = 0 := by
  have hs' := hs
  cases hm : w.heap s with
  | svec m =>
    rw [hm] at hs' hgas
    obtain ⟨es, hr, hp⟩ := hs'
    have hlen : es.length = m.values.length := by rw [hr.values]; simp
    have hval : ∀ i, i < m.l → (Mat.svec m).val i 0 = rowGet es i := by
      intro i hi
      rw [Mat.val_svec hr hi]
      split
      · rfl
      · rename_i h
        symm
        exact rowGet_none (fun e he hc => h (by have := hp e he; omega))
    have hmem : ∀ q (hq : q < es.length), (Mat.svec m).val es[q].1 0 = es[q].2 := by
      intro q hq
      rw [hval _ (hr.bound _ (List.getElem_mem hq))]
      exact CSR.rowGet_of_mem hr.sorted (List.getElem_mem hq)
    have hlt : ∀ q q' (h : q < q') (hq' : q' < es.length), es[q].1 < es[q'].1 := by
      intro q q' h hq'
      exact List.pairwise_iff_getElem.1 hr.sorted q q' (by omega) hq' h
    constructor
    · intro hret i i' hi hi' hv hz
      by_contra hne
      rw [hval i (Nat.lt_trans hi hi')] at hv hz
      rw [hval i' hi'] at hne
      have find : ∀ {k : Nat}, rowGet es k ≠ 0 → ∃ e ∈ es, e.1 = k ∧ e.2 = rowGet es k := by
        intro k hk
        by_contra hc
        refine hk (rowGet_none (fun e he h => hc ⟨e, he, h, ?_⟩))
        rw [← h, CSR.rowGet_of_mem hr.sorted he]
      obtain ⟨e, he, h1, h2⟩ := find hv
      obtain ⟨e', he', h1', h2'⟩ := find hne
      obtain ⟨q, hq, rfl⟩ := List.getElem_of_mem he
      obtain ⟨q', hq', rfl⟩ := List.getElem_of_mem he'
      have hqq : q < q' := by
        rcases Nat.lt_trichotomy q q' with h | h | h
        · exact h
        · subst h; omega
        · have := hlt q' q h hq; omega
      have hpan := svec_drive_panic (fun _ _ v => alpha * v) es.length 0 w.gas m es m.iter hr.indices hr.values rfl
        (by simp [SVec.iter, hlen]) (by omega) (by rw [hlen]; exact hgas)
        ⟨q, by omega, by omega, hq, by show isZero (alpha * es[q].2) = true; rw [h2, hz, isZero_zero]⟩
      have := scalar_drive (w := w) alpha (Mat.copy_ok hs)
      rw [hm] at this
      rw [show (Mat.svec m).iter = .svec m.iter from rfl, hpan] at this
      simp only at this
      obtain ⟨p, w', h, -⟩ := hret
      rw [h] at this
      simp [Res.isPanic] at this
    · intro hl
      rw [← hm]
      have hnz : ∀ q, 0 ≤ q → q + 1 < es.length → ∀ h : q < es.length, isZero (alpha * es[q].2) = false := by
        intro q _ hq h
        rw [Bool.eq_false_iff]
        intro hz
        have h0 := hl es[q].1 es[q + 1].1 (hlt q (q + 1) (by omega) hq) (hr.bound _ (List.getElem_mem hq))
          (by rw [hmem q h]; intro h0; have := hr.nz _ (List.getElem_mem h); rw [h0, isZero_zero] at this; simp at this)
          (by rw [hmem q h]; exact (isZero_iff _).1 hz)
        rw [hmem (q + 1) hq] at h0
        have := hr.nz _ (List.getElem_mem hq)
        rw [h0, isZero_zero] at this
        simp at this
      have hd := svec_drive_ok (fun _ _ v => alpha * v) es.length 0 w.gas m es m.iter hr.indices hr.values rfl
        (by simp [SVec.iter, hlen]) (by omega) (by rw [hlen]; exact hgas) hnz
      simp only [List.take_zero, List.nil_append, List.drop_zero] at hd
      obtain ⟨es', hes⟩ : ∃ es', es' = mapped (fun _ _ v => alpha * v) es := ⟨_, rfl⟩
      rw [← hes] at hd
      have hin : ∀ e ∈ es', ∃ e0 ∈ es, e.1 = e0.1 ∧ e.2 = alpha * e0.2 ∧ isZero e.2 = false := by
        intro e he
        rw [hes] at he
        simp only [mapped, List.mem_filter, List.mem_map] at he
        obtain ⟨⟨e0, h1, rfl⟩, h2⟩ := he
        exact ⟨e0, h1, rfl, rfl, by simpa using h2⟩
      have hr' : SVec.Rep { m with indices := es'.map Prod.fst, values := es'.map Prod.snd } es' := by
        refine ⟨rfl, rfl, ?_, ?_, ?_⟩
        · rw [hes]
          refine List.Pairwise.filter _ ?_
          refine List.pairwise_map.2 ?_
          exact hr.sorted
        · intro e he
          obtain ⟨e0, h0, h1, -⟩ := hin e he
          rw [h1]; exact hr.bound _ h0
        · intro e he
          obtain ⟨e0, h0, -, -, h1⟩ := hin e he
          exact h1
      have hlen' : es.length ≤ es'.length + 1 ∧ (es'.length < es.length → ∀ e ∈ es', e.1 ≤ es'.length) := by
        rcases List.eq_nil_or_concat es with rfl | ⟨L, x, rfl⟩
        · simp
        · have hL : ∀ e ∈ L.map (fun e => (e.1, alpha * e.2)), (!isZero e.2) = true := by
            intro e he
            obtain ⟨e0, h0, rfl⟩ := List.mem_map.1 he
            obtain ⟨q, hq, rfl⟩ := List.getElem_of_mem h0
            have := hnz q (Nat.zero_le _) (by simp; omega) (by simp; omega)
            simp only [List.concat_eq_append] at this
            rw [List.getElem_append_left hq] at this
            simp [this]
          have e1 : es' = L.map (fun e => (e.1, alpha * e.2)) ++ ([x].map (fun e => (e.1, alpha * e.2))).filter (fun e => !isZero e.2) := by
            rw [hes, mapped, List.concat_eq_append, List.map_append, List.filter_append, List.filter_eq_self.2 hL]
          by_cases hx : isZero (alpha * x.2) = true
          · simp only [List.map_cons, List.map_nil, List.filter_cons, hx, Bool.not_true, Bool.false_eq_true, if_false, List.filter_nil, List.append_nil] at e1
            refine ⟨by rw [e1]; simp, fun _ e he => ?_⟩
            rw [e1] at he
            obtain ⟨e0, h0, rfl⟩ := List.mem_map.1 he
            have h2 : e0.1 < x.1 := by
              have := hr.sorted
              rw [List.concat_eq_append] at this
              exact (List.pairwise_append.1 this).2.2 e0 h0 x (by simp)
            have h3 := hp x (by simp)
            rw [e1]
            simp at h3 ⊢
            omega
          · have : es'.length = (L.concat x).length := by rw [e1]; simp [hx]
            exact ⟨by omega, fun h => by omega⟩
      have hp' : SVec.Packed es' := by
        intro e he
        by_cases h : es'.length < es.length
        · exact hlen'.2 h e he
        · obtain ⟨e0, h0, h1, -⟩ := hin e he
          have := hp e0 h0
          omega
      refine returns_of_drive (m' := .svec { m with indices := es'.map Prod.fst, values := es'.map Prod.snd }) hs ?_
        ⟨es', hr', hp'⟩ (by rw [hm]; rfl) (by rw [hm]; rfl) (by rw [hm]; rfl) ?_
      · rw [hm]; exact hd
      · intro i j hi hj
        rw [hm]
        obtain rfl : j = 0 := by simp [Mat.cols] at hj; omega
        have hi' : i < m.l := hi
        rw [hval i hi', Mat.val_svec hr' hi]
        have e2 : rowGet es' i = alpha * rowGet es i := by
          by_cases h0 : ∃ e ∈ es, e.1 = i
          · obtain ⟨e, he, rfl⟩ := h0
            rw [CSR.rowGet_of_mem hr.sorted he]
            by_cases hz : isZero (alpha * e.2) = true
            · rw [(isZero_iff _).1 hz]
              refine rowGet_none (fun e' he' hc => ?_)
              obtain ⟨e0, h1, h2, h3, h4⟩ := hin e' he'
              have : rowGet es e0.1 = e0.2 := CSR.rowGet_of_mem hr.sorted h1
              rw [← h2, hc, CSR.rowGet_of_mem hr.sorted he] at this
              rw [h3, ← this, hz] at h4
              simp at h4
            · have : (e.1, alpha * e.2) ∈ es' := by
                rw [hes]
                simp only [mapped, List.mem_filter, List.mem_map]
                exact ⟨⟨e, he, rfl⟩, by simpa using hz⟩
              exact CSR.rowGet_of_mem hr'.sorted this
          · have h1 : rowGet es i = 0 := rowGet_none (fun e he hc => h0 ⟨e, he, hc⟩)
            rw [h1, mul_zero]
            refine rowGet_none (fun e he hc => ?_)
            obtain ⟨e0, h1, h2, -⟩ := hin e he
            exact h0 ⟨e0, h1, by rw [← h2, hc]⟩
        rw [← e2]
        split
        · rfl
        · rename_i h
          symm
          exact rowGet_none (fun e he hc => h (by have := hp' e he; omega))
  | _ => rw [hm] at hk; simp [Mat.kind] at hk

/-- C17, exactly which factors are safe: `Scalar(alpha)` is right on every CSR matrix (on every CSC matrix, on every sparse
vector) if and only if `alpha` times a non-zero value is never zero. For dense storage every factor is safe
(`C17_scalar_partial`). -/
theorem C17_factor_iff (alpha : T) {k : Kind} (hk : k = .csr ∨ k = .csc ∨ k = .svec) :
    (∀ (w : World T) (s : Ref), (w.heap s).WF → (w.heap s).kind = k → (w.heap s).nvalues ≤ w.gas →
      Returns w k (w.heap s).rows (w.heap s).cols (fun i j => alpha * (w.heap s).val i j) (Meth.scalar s alpha w)) ↔
    ∀ x : T, x ≠ 0 → alpha * x ≠ 0 := by
  constructor
  · intro h x hx hz
    have hx' : isZero x = false := by
      cases h : isZero x with
      | false => rfl
      | true => exact absurd ((isZero_iff x).1 h) hx
    obtain ⟨h1, h2, h3⟩ := twoCells_wf hk hx'
    exact not_returns_of_panic (scalar_two_panics hk hx' (by rw [hz, isZero_zero]))
      (h (World.of 2 [twoCells k x]) 0 h1 h2 (Nat.le_of_eq h3))
  · intro h w s hs hk' hg
    have := C17_scalar_partial (w := w) (s := s) alpha hs hg (.inr (.inr fun i j _ _ => h _))
    rwa [hk'] at this

/-- Two halves of a byte: 16 is no safe factor (16·16 = 0), 3 is. -/
example : (Meth.scalar 0 (16 : USInt 8) (World.of 2 [twoCells .csr 16])).isPanic = true := by kernel_rfl
example : (Meth.scalar 0 (3 : USInt 8) (World.of 2 [twoCells .csr 16])).obj = some (twoCells .csr 48) := by kernel_rfl

end ring

open Meth

/-- `Scalar(64)` on the `int8` matrix `[1 4; 0 4]`: the products at the ends of the rows vanish. -/
example : let w : World (SInt 8) := World.of 9 [.csr { r := 2, c := 2, values := [1, 4, 4], cols := [0, 1, 1], rowStart := [0, 2, 3] }]
    (Meth.scalar 0 (64 : SInt 8) w).obj =
    some (.csr { r := 2, c := 2, values := [64], cols := [0], rowStart := [0, 1, 1] }) := by intro w; kernel_rfl

example : let w : World ℤ := World.of 9 [.csc { r := 2, c := 2, values := [5, 7], rows := [1, 0], colStart := [0, 1, 2] }]
    (Meth.scalar 0 0 w).obj =
    some (.csc { r := 2, c := 2, values := [], rows := [], colStart := [0, 0, 0] }) := by intro w; kernel_rfl

/-- A sparse vector on which `Scalar(64)` is right, and one on which it panics. -/
example : let w : World (SInt 8) := World.of 9 [.svec { l := 3, values := [1, 4], indices := [0, 1] }]
    (Meth.scalar 0 (64 : SInt 8) w).obj = some (.svec { l := 3, values := [64], indices := [0] }) := by intro w; kernel_rfl
example : let w : World (SInt 8) := World.of 9 [.svec { l := 3, values := [4, 1], indices := [0, 1] }]
    (Meth.scalar 0 (64 : SInt 8) w).isPanic = true := by intro w; kernel_rfl

end GB
