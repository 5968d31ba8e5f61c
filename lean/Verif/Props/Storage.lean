import Verif.Lemmas.Count

/-!
# Storage formats as maps: C01, C02, C03, C05, C06, C07, C12, C13
-/

namespace GB

set_option linter.unusedSectionVars false

variable {T : Type} [GoNum T] [GoStore T]

/-! ## What `specRun` says, in words -/

theorem specRun_append (keep : T → T) (f : Nat → Nat → T) (a b : List (Op T)) :
    specRun keep f (a ++ b) = specRun keep (specRun keep f a) b := by simp [specRun]

/-- Calls that do not write the cell leave it alone. -/
theorem specRun_untouched (keep : T → T) (ops : List (Op T)) : ∀ (f : Nat → Nat → T) (i j : Nat),
    (∀ o ∈ ops, ¬ o.Touches i j) → specRun keep f ops i j = f i j := by
  induction ops with
  | nil => intro f i j _; rfl
  | cons o ops ih =>
    intro f i j h
    have h1 := h o (by simp)
    have : specRun keep f (o :: ops) = specRun keep (o.spec keep f) ops := rfl
    rw [this, ih _ i j (fun o' ho' => h o' (by simp [ho']))]
    cases o with
    | set a b v => simp only [Op.Touches] at h1; simp only [Op.spec, put2]; rw [if_neg (by tauto)]
    | update a b g => simp only [Op.Touches] at h1; simp only [Op.spec, put2]; rw [if_neg (by tauto)]
    | clear => exact absurd trivial h1
    | read a b => rfl
    | element a b => rfl

/-! ## C01: CSR -/

/-- C01. Any in-range history on a fresh CSR matrix runs without a panic and every cell reads what
the same history leaves in a plain table (`norm` only replaces a negative float zero by zero). -/
theorem C01_csr_history (r c : Nat) (ops : List (Op T)) (hops : ∀ o ∈ ops, o.InRange r c) :
    ∃ m, (Mat.csr (CSR.new r c)).run ops = .ok m ∧ m.rows = r ∧ m.cols = c ∧
      ∀ i j : Nat, i < r → j < c → m.at' i j = .ok (specRun norm (fun _ _ => 0) ops i j, m) := by
  obtain ⟨m, h1, h2, h3, h4⟩ := Mat.run_ok ops (m := .csr (CSR.new r c)) (f := fun _ _ => 0)
    (Mat.csr_new_wf r c) (by simp [Mat.kind]) hops (fun i j hi hj => Mat.csr_new_val r c hi hj)
  refine ⟨m, h1, h3.2.1, h3.2.2, fun i j hi hj => ?_⟩
  rw [Mat.at_ok h2 (by rw [h3.2.1]; exact hi) (by rw [h3.2.2]; exact hj), h4 i j hi hj]
  rfl

/-- C01, last-write form: after `Set(i,j,v)` followed by calls that do not write `(i,j)`, whatever
happened before, `At(i,j)` is `v`. -/
theorem C01_csr_last_write (r c : Nat) (pre post : List (Op T)) (i j : Nat) (v : T)
    (hi : i < r) (hj : j < c) (hpre : ∀ o ∈ pre, o.InRange r c) (hpost : ∀ o ∈ post, o.InRange r c)
    (hun : ∀ o ∈ post, ¬ o.Touches i j) :
    ∃ m, (Mat.csr (CSR.new r c)).run (pre ++ Op.set i j v :: post) = .ok m ∧
      m.at' i j = .ok (norm v, m) := by
  obtain ⟨m, h1, -, -, h4⟩ := C01_csr_history r c (pre ++ Op.set i j v :: post) (by
    intro o ho
    simp only [List.mem_append, List.mem_cons] at ho
    rcases ho with ho | rfl | ho
    · exact hpre o ho
    · exact ⟨hi, hj⟩
    · exact hpost o ho)
  refine ⟨m, h1, ?_⟩
  rw [h4 i j hi hj, specRun_append]
  have : ∀ f : Nat → Nat → T, specRun norm f (Op.set i j v :: post) =
    specRun norm ((Op.set i j v).spec norm f) post := fun _ => rfl
  rw [this, specRun_untouched _ _ _ _ _ hun]
  simp [Op.spec, put2]

/-- C01 from any reachable CSR matrix (for instance one built from an array). -/
theorem C01_csr_from_reachable {s : CSR T} (h : Reach (.csr s)) (ops : List (Op T))
    (hops : ∀ o ∈ ops, o.InRange s.r s.c) :
    ∃ m, (Mat.csr s).run ops = .ok m ∧ m.rows = s.r ∧ m.cols = s.c ∧
      ∀ i j : Nat, i < s.r → j < s.c →
        m.at' i j = .ok (specRun norm (Mat.val (.csr s)) ops i j, m) := by
  obtain ⟨m, h1, h2, h3, h4⟩ := Mat.run_ok ops (m := .csr s) (f := Mat.val (.csr s))
    (h.wf (by simp [Mat.kind])) (by simp [Mat.kind]) hops (fun i j hi hj => rfl)
  refine ⟨m, h1, h3.2.1, h3.2.2, fun i j hi hj => ?_⟩
  rw [Mat.at_ok h2 (by rw [h3.2.1]; exact hi) (by rw [h3.2.2]; exact hj), h4 i j hi hj]
  rfl

/-- A concrete history: two writes to a cell, a removal, an update; and the values it leaves. -/
def demoOps : List (Op ℤ) :=
  [.set 1 2 7, .set 0 1 5, .set 1 0 3, .set 1 2 9, .set 0 1 0, .update 1 0 (· * 10), .read 1 2]

example : (∀ o ∈ demoOps, o.InRange 2 3) ∧
    specRun norm (fun _ _ => 0) demoOps 1 2 = 9 ∧ specRun norm (fun _ _ => 0) demoOps 0 1 = 0 ∧
    specRun norm (fun _ _ => 0) demoOps 1 0 = 30 := by
  refine ⟨?_, rfl, rfl, rfl⟩
  intro o ho
  simp only [demoOps, List.mem_cons, List.not_mem_nil, or_false] at ho
  rcases ho with rfl | rfl | rfl | rfl | rfl | rfl | rfl <;> simp [Op.InRange]

example : (Mat.csr (CSR.new 2 3 : CSR ℤ)).run demoOps =
    .ok (.csr { r := 2, c := 3, values := [30, 9], cols := [0, 2], rowStart := [0, 0, 2] }) := by
  decide

/-! ## C02: CSC -/

/-- C02. As C01 for the column-compressed format. -/
theorem C02_csc_history (r c : Nat) (ops : List (Op T)) (hops : ∀ o ∈ ops, o.InRange r c) :
    ∃ m, (Mat.csc (CSC.new r c)).run ops = .ok m ∧ m.rows = r ∧ m.cols = c ∧
      ∀ i j : Nat, i < r → j < c → m.at' i j = .ok (specRun norm (fun _ _ => 0) ops i j, m) := by
  obtain ⟨m, h1, h2, h3, h4⟩ := Mat.run_ok ops (m := .csc (CSC.new r c)) (f := fun _ _ => 0)
    (Mat.csc_new_wf r c) (by simp [Mat.kind]) hops (fun i j hi hj => Mat.csc_new_val r c hi hj)
  refine ⟨m, h1, h3.2.1, h3.2.2, fun i j hi hj => ?_⟩
  rw [Mat.at_ok h2 (by rw [h3.2.1]; exact hi) (by rw [h3.2.2]; exact hj), h4 i j hi hj]
  rfl

/-- C02, last-write form. -/
theorem C02_csc_last_write (r c : Nat) (pre post : List (Op T)) (i j : Nat) (v : T)
    (hi : i < r) (hj : j < c) (hpre : ∀ o ∈ pre, o.InRange r c) (hpost : ∀ o ∈ post, o.InRange r c)
    (hun : ∀ o ∈ post, ¬ o.Touches i j) :
    ∃ m, (Mat.csc (CSC.new r c)).run (pre ++ Op.set i j v :: post) = .ok m ∧
      m.at' i j = .ok (norm v, m) := by
  obtain ⟨m, h1, -, -, h4⟩ := C02_csc_history r c (pre ++ Op.set i j v :: post) (by
    intro o ho
    simp only [List.mem_append, List.mem_cons] at ho
    rcases ho with ho | rfl | ho
    · exact hpre o ho
    · exact ⟨hi, hj⟩
    · exact hpost o ho)
  refine ⟨m, h1, ?_⟩
  rw [h4 i j hi hj, specRun_append]
  have : ∀ f : Nat → Nat → T, specRun norm f (Op.set i j v :: post) =
    specRun norm ((Op.set i j v).spec norm f) post := fun _ => rfl
  rw [this, specRun_untouched _ _ _ _ _ hun]
  simp [Op.spec, put2]

/-- C02 from any reachable CSC matrix. -/
theorem C02_csc_from_reachable {s : CSC T} (h : Reach (.csc s)) (ops : List (Op T))
    (hops : ∀ o ∈ ops, o.InRange s.r s.c) :
    ∃ m, (Mat.csc s).run ops = .ok m ∧ m.rows = s.r ∧ m.cols = s.c ∧
      ∀ i j : Nat, i < s.r → j < s.c →
        m.at' i j = .ok (specRun norm (Mat.val (.csc s)) ops i j, m) := by
  obtain ⟨m, h1, h2, h3, h4⟩ := Mat.run_ok ops (m := .csc s) (f := Mat.val (.csc s))
    (h.wf (by simp [Mat.kind])) (by simp [Mat.kind]) hops (fun i j hi hj => rfl)
  refine ⟨m, h1, h3.2.1, h3.2.2, fun i j hi hj => ?_⟩
  rw [Mat.at_ok h2 (by rw [h3.2.1]; exact hi) (by rw [h3.2.2]; exact hj), h4 i j hi hj]
  rfl

example : (Mat.csc (CSC.new 2 3 : CSC ℤ)).run demoOps =
    .ok (.csc { r := 2, c := 3, values := [30, 9], rows := [1, 1], colStart := [0, 1, 1, 2] }) := by
  decide

/-! ## C03: dense matrix and dense vector -/

/-- C03 for matrices: every value, negative zero included, is kept as written. -/
theorem C03_dense_history (r c : Nat) (ops : List (Op T)) (hops : ∀ o ∈ ops, o.InRange r c) :
    ∃ m, (Mat.dense (Dense.new r c)).run ops = .ok m ∧ m.rows = r ∧ m.cols = c ∧
      ∀ i j : Nat, i < r → j < c → m.at' i j = .ok (specRun id (fun _ _ => 0) ops i j, m) := by
  obtain ⟨m, h1, h2, h3, h4⟩ := Mat.run_ok ops (m := .dense (Dense.new r c)) (f := fun _ _ => 0)
    (Dense.wf_new r c) (by simp [Mat.kind]) hops (fun i j hi hj => Mat.dense_new_val r c hi hj)
  refine ⟨m, h1, h3.2.1, h3.2.2, fun i j hi hj => ?_⟩
  rw [Mat.at_ok h2 (by rw [h3.2.1]; exact hi) (by rw [h3.2.2]; exact hj), h4 i j hi hj]
  rfl

/-- C03 for vectors, through the matrix interface (`At(i,0)`, `Set(i,0,v)`). -/
theorem C03_dvec_history (l : Nat) (ops : List (Op T)) (hops : ∀ o ∈ ops, o.InRange l 1) :
    ∃ m, (Mat.dvec (DVec.new l)).run ops = .ok m ∧ m.rows = l ∧ m.cols = 1 ∧
      ∀ i : Nat, i < l → m.at' i 0 = .ok (specRun id (fun _ _ => 0) ops i 0, m) := by
  obtain ⟨m, h1, h2, h3, h4⟩ := Mat.run_ok ops (m := .dvec (DVec.new l)) (f := fun _ _ => 0)
    (DVec.wf_new l) (by simp [Mat.kind]) hops (fun i j hi hj => Mat.dvec_new_val l hi)
  refine ⟨m, h1, h3.2.1, h3.2.2, fun i hi => ?_⟩
  have := Mat.at_ok h2 (i := i) (j := 0) (by rw [h3.2.1]; exact hi) (by rw [h3.2.2]; exact Nat.one_pos)
  rw [h4 i 0 hi Nat.one_pos] at this
  exact this

/-- `SetVec` calls on a dense vector, one after the other. -/
def DVec.runVec : DVec T → List (Nat × T) → Out (DVec T)
  | s, [] => .ok s
  | s, o :: os => do let s' ← s.setVec o.1 o.2; s'.runVec os

/-- The last value written at `i` by a list of `SetVec` calls, `d` if none. -/
def lastWrite (d : T) (i : Nat) (ops : List (Nat × T)) : T :=
  ops.foldl (fun v o => if o.1 = i then o.2 else v) d

/-- C03 for vectors, `SetVec`/`AtVec`. -/
theorem C03_dvec_setVec (l : Nat) (ops : List (Nat × T)) (hops : ∀ o ∈ ops, o.1 < l) :
    ∃ s, (DVec.new l).runVec ops = .ok s ∧ s.l = l ∧
      ∀ i : Nat, i < l → s.atVec i = .ok (lastWrite 0 i ops) := by
  suffices key : ∀ (ops : List (Nat × T)) (s : DVec T), s.WF → s.l = l → (∀ o ∈ ops, o.1 < l) →
      ∃ s', s.runVec ops = .ok s' ∧ s'.l = l ∧
        ∀ i : Nat, i < l → s'.atVec i = .ok (lastWrite (s.cell i) i ops) by
    obtain ⟨s, h1, h2, h3⟩ := key ops (DVec.new l) (DVec.wf_new l) rfl hops
    refine ⟨s, h1, h2, fun i hi => ?_⟩
    rw [h3 i hi, DVec.cell_new]
  intro ops
  induction ops with
  | nil =>
    intro s hs hl _
    exact ⟨s, rfl, hl, fun i hi => DVec.atVec_ok hs (by rw [hl]; exact hi)⟩
  | cons o ops ih =>
    intro s hs hl ho
    have ho1 : o.1 < s.l := by rw [hl]; exact ho o (by simp)
    obtain ⟨s', h1, h2, h3⟩ := ih { s with values := s.values.set o.1 o.2 } (DVec.setVec_wf hs) hl
      (fun o' ho' => ho o' (by simp [ho']))
    refine ⟨s', ?_, h2, fun i hi => ?_⟩
    · simp only [DVec.runVec, DVec.setVec_ok hs ho1, Out.ok_bind]; exact h1
    · rw [h3 i hi, DVec.setVec_cell hs ho1]
      simp only [lastWrite, List.foldl_cons]
      congr 2
      simp only [eq_comm]

example : (DVec.new 4 : DVec ℤ).runVec [(3, 7), (0, 2), (3, -1)] = .ok { l := 4, values := [2, 0, 0, -1] } ∧
    lastWrite (0 : ℤ) 3 [(3, 7), (0, 2), (3, -1)] = -1 := by decide

example : (Mat.dense (Dense.new 2 3 : Dense ℤ)).run demoOps =
    .ok (.dense { r := 2, c := 3, data := [[0, 0, 0], [30, 0, 9]] }) := by decide

/-! ## C05: Values() -/

/-- C05. On every reachable CSR or CSC matrix, `Values()` is the number of cells whose `At` is
non-zero. -/
theorem C05_values_counts_nonzero {m : Mat T} (h : Reach m) (hk : m.kind = .csr ∨ m.kind = .csc) :
    ∃ g : Nat → Nat → T, (∀ i j : Nat, i < m.rows → j < m.cols → m.at' i j = .ok (g i j, m)) ∧
      m.nvalues = ((cells m.rows m.cols).filter (fun p => !isZero (g p.1 p.2))).length := by
  have hw := h.wf (by rcases hk with hk | hk <;> simp [hk])
  refine ⟨m.val, fun i j hi hj => Mat.at_ok hw hi hj, ?_⟩
  obtain ⟨es, -, hf, hl, -, hz⟩ := Mat.entries_ok hw
  rw [← hl]
  exact hf.count (hz (by rcases hk with hk | hk <;> simp [hk]))

/-- C05 for histories: `Values()` is the number of non-zero cells of the table the history
describes. -/
theorem C05_values_of_history (r c : Nat) (ops : List (Op T)) (hops : ∀ o ∈ ops, o.InRange r c) :
    (∃ m, (Mat.csr (CSR.new r c)).run ops = .ok m ∧ m.nvalues =
      ((cells r c).filter (fun p => !isZero (specRun norm (fun _ _ => 0) ops p.1 p.2))).length) ∧
    (∃ m, (Mat.csc (CSC.new r c)).run ops = .ok m ∧ m.nvalues =
      ((cells r c).filter (fun p => !isZero (specRun norm (fun _ _ => 0) ops p.1 p.2))).length) := by
  have key : ∀ m0 : Mat T, m0.WF → (m0.kind = .csr ∨ m0.kind = .csc) → m0.rows = r → m0.cols = c →
      (∀ i j, i < r → j < c → m0.val i j = 0) →
      ∃ m, m0.run ops = .ok m ∧ m.nvalues =
      ((cells r c).filter (fun p => !isZero (specRun norm (fun _ _ => 0) ops p.1 p.2))).length := by
    intro m0 hw hk hr hc h0
    have hk' : m0.kind ≠ .svec := by rcases hk with hk | hk <;> simp [hk]
    obtain ⟨m, h1, h2, h3, h4⟩ := Mat.run_ok ops (m := m0) (f := fun _ _ => 0) hw hk'
      (by rw [hr, hc]; exact hops) (by rw [hr, hc]; exact h0)
    refine ⟨m, h1, ?_⟩
    obtain ⟨es, -, hf, hl, -, hz⟩ := Mat.entries_ok h2
    rw [← hl, hf.count (hz (by rw [h3.1]; rcases hk with hk | hk <;> simp [hk])), h3.2.1, h3.2.2, hr, hc]
    congr 1
    apply List.filter_congr
    intro p hp
    obtain ⟨hp1, hp2⟩ := mem_cells.1 hp
    rw [h4 _ _ (by rw [hr]; exact hp1) (by rw [hc]; exact hp2)]
    have : m0.keep = norm := by funext v; rcases hk with hk | hk <;> simp [Mat.keep, hk]
    rw [this]
  exact ⟨key _ (Mat.csr_new_wf r c) (by simp [Mat.kind]) rfl rfl (fun i j => Mat.csr_new_val r c),
    key _ (Mat.csc_new_wf r c) (by simp [Mat.kind]) rfl rfl (fun i j => Mat.csc_new_val r c)⟩

example : ((cells 2 3).filter (fun p => !isZero (specRun norm (fun _ _ => 0) demoOps p.1 p.2))).length = 2 := by
  decide

/-! ## C06: index checking -/

/-- The pair is a valid index of the matrix. -/
def Mat.Valid (m : Mat T) (i j : Int) : Prop := 0 ≤ i ∧ i < m.rows ∧ 0 ≤ j ∧ j < m.cols

/-- C06, in range: no panic, in any reachable state. -/
theorem C06_in_range_ok {m : Mat T} (h : Reach m)
    (hk : m.kind = .csr ∨ m.kind = .csc ∨ m.kind = .dense) {i j : Int} (hv : m.Valid i j) (v : T)
    (f : T → T) :
    (∃ x, m.at' i j = .ok (x, m)) ∧ (∃ m', m.set i j v = .ok m') ∧ (∃ m', m.update i j f = .ok m') := by
  have hk' : m.kind ≠ .svec := by rcases hk with hk | hk | hk <;> simp [hk]
  obtain ⟨a, b, c, d⟩ := hv
  obtain ⟨i, rfl⟩ := Int.eq_ofNat_of_zero_le a
  obtain ⟨j, rfl⟩ := Int.eq_ofNat_of_zero_le c
  have hi : i < m.rows := by exact_mod_cast b
  have hj : j < m.cols := by exact_mod_cast d
  have hw := h.wf hk'
  obtain ⟨m1, h1, -⟩ := Mat.set_ok hw hk' hi hj v
  obtain ⟨m2, h2, -⟩ := Mat.update_ok hw hk' hi hj f
  exact ⟨⟨_, Mat.at_ok hw hi hj⟩, ⟨m1, h1⟩, ⟨m2, h2⟩⟩

/-- C06, out of range: a panic, whatever the internal state (so nothing else in the method body is
reached before the index check). -/
theorem C06_out_of_range_panics (m : Mat T)
    (hk : m.kind = .csr ∨ m.kind = .csc ∨ m.kind = .dense) {i j : Int} (hv : ¬ m.Valid i j) (v : T)
    (f : T → T) : m.at' i j = .panic ∧ m.set i j v = .panic ∧ m.update i j f = .panic := by
  have hn : ¬ (inRange i m.rows = true ∧ inRange j m.cols = true) := by
    rw [inRange_iff, inRange_iff]
    rintro ⟨⟨a, b⟩, c, d⟩
    exact hv ⟨a, b, c, d⟩
  cases m <;> simp [Mat.kind] at hk
  · refine ⟨?_, ?_, ?_⟩
    · simp [Mat.at', CSR.at', CSR.updateWith_panic _ _ _ _ hn]
    · simp [Mat.set, CSR.set, CSR.update_panic _ _ _ _ hn]
    · simp [Mat.update, CSR.update_panic _ _ _ _ hn]
  · refine ⟨?_, ?_, ?_⟩
    · simp [Mat.at', CSC.at', CSC.updateWith_panic _ _ _ _ hn]
    · simp [Mat.set, CSC.set, CSC.update_panic _ _ _ _ hn]
    · simp [Mat.update, CSC.update_panic _ _ _ _ hn]
  · refine ⟨?_, ?_, ?_⟩
    · simp [Mat.at', Dense.at_panic _ _ _ hn]
    · simp [Mat.set, Dense.set_panic _ _ _ _ hn]
    · simp [Mat.update, Dense.update, Dense.updateWith_panic _ _ _ _ hn]

/-- C06: panic if and only if out of range. -/
theorem C06_panic_iff {m : Mat T} (h : Reach m)
    (hk : m.kind = .csr ∨ m.kind = .csc ∨ m.kind = .dense) (i j : Int) (v : T) (f : T → T) :
    (m.at' i j = .panic ↔ ¬ m.Valid i j) ∧ (m.set i j v = .panic ↔ ¬ m.Valid i j) ∧
      (m.update i j f = .panic ↔ ¬ m.Valid i j) := by
  by_cases hv : m.Valid i j
  · obtain ⟨⟨x, h1⟩, ⟨m1, h2⟩, ⟨m2, h3⟩⟩ := C06_in_range_ok h hk hv v f
    simp [h1, h2, h3, hv]
  · obtain ⟨h1, h2, h3⟩ := C06_out_of_range_panics m hk hv v f
    simp [h1, h2, h3, hv]

example : (Mat.csr (CSR.new 2 3 : CSR ℤ)).set 1 3 5 = .panic ∧
    (Mat.csr (CSR.new 2 3 : CSR ℤ)).set (-1) 0 5 = .panic ∧
    (Mat.csc (CSC.new 2 3 : CSC ℤ)).at' 2 0 = .panic ∧
    (Mat.dense (Dense.new 2 3 : Dense ℤ)).update 1 2 (· + 1) =
      .ok (.dense { r := 2, c := 3, data := [[0, 0, 0], [0, 0, 1]] }) := by decide

/-! ## C07: reads do not modify -/

/-- The same from the invariant of reachable states. -/
theorem Mat.Inv.reads_preserve {m : Mat T} (hi : m.Inv) (i j : Int) :
    (∀ v m', m.at' i j = .ok (v, m') → m' = m) ∧
    (∀ b m', m.element i j = .ok (b, m') → m' = m) := by
  have comp : ∀ (m : Mat T), m.WF → (m.kind = .csr ∨ m.kind = .csc ∨ m.kind = .dense) →
      (∀ v m', m.at' i j = .ok (v, m') → m' = m) ∧
      (∀ b m', m.element i j = .ok (b, m') → m' = m) := by
    intro m hw hk
    by_cases hv : m.Valid i j
    · obtain ⟨a, b, c, d⟩ := hv
      obtain ⟨i, rfl⟩ := Int.eq_ofNat_of_zero_le a
      obtain ⟨j, rfl⟩ := Int.eq_ofNat_of_zero_le c
      have hi : i < m.rows := by exact_mod_cast b
      have hj : j < m.cols := by exact_mod_cast d
      constructor
      · intro v m' e
        have h1 := Mat.at_ok hw hi hj
        rw [show m.at' (i : Int) (j : Int) = _ from h1] at e
        simp at e; exact e.2.symm
      · intro v m' e
        have h1 := Mat.element_ok hw hi hj
        rw [show m.element (i : Int) (j : Int) = _ from h1] at e
        simp at e; exact e.2.symm
    · have hp := C06_out_of_range_panics m hk hv 0 id
      have hn : ¬ (inRange i m.rows = true ∧ inRange j m.cols = true) := by
        rw [inRange_iff, inRange_iff]
        rintro ⟨⟨a, b⟩, c, d⟩
        exact hv ⟨a, b, c, d⟩
      constructor
      · intro v m' e; rw [hp.1] at e; simp at e
      · intro v m' e
        cases m <;> simp [Mat.kind] at hk
        · simp [Mat.element, CSR.element, CSR.updateWith_panic _ _ _ _ hn] at e
        · simp [Mat.element, CSC.element, CSC.updateWith_panic _ _ _ _ hn] at e
        · simp [Mat.element, Dense.element, Dense.at_panic _ _ _ hn] at e
  cases m with
  | csr s => exact comp _ hi (by simp [Mat.kind])
  | csc s => exact comp _ hi (by simp [Mat.kind])
  | dense s => exact comp _ hi (by simp [Mat.kind])
  | dvec s =>
    constructor
    · intro v m' e
      simp only [Mat.at'] at e
      cases hv : s.at' i j <;> simp [hv] at e
      exact e.2.symm
    · intro v m' e
      simp only [Mat.element] at e
      cases hv : s.element i j <;> simp [hv] at e
      exact e.2.symm
  | svec s =>
    constructor
    · intro v m' e
      have hw : s.Weak := hi
      by_cases h1 : inRange i s.l = true
      · by_cases h2 : inRange j 1 = true
        · obtain ⟨a, b⟩ := inRange_iff.1 h1
          obtain ⟨n, rfl⟩ := Int.eq_ofNat_of_zero_le a
          have hn : n < s.l := by exact_mod_cast b
          obtain ⟨x, g1, g2⟩ := hw.at_self hn
          simp [Mat.at', SVec.at', SVec.updateWith, hn, h2, g1, g2] at e
          exact e.2.symm
        · simp [Mat.at', SVec.at', SVec.updateWith, h1, h2] at e
      · simp [Mat.at', SVec.at', SVec.updateWith, h1] at e
    · intro v m' e
      simp only [Mat.element] at e
      cases hv : s.element i j <;> simp [hv] at e
      exact e.2.symm

/-- C07. On every reachable matrix or vector, whatever the indices, a read that returns leaves the
object exactly as it was. -/
theorem C07_reads_preserve {m : Mat T} (h : Reach m) (i j : Int) :
    (∀ v m', m.at' i j = .ok (v, m') → m' = m) ∧
    (∀ b m', m.element i j = .ok (b, m') → m' = m) := h.inv.reads_preserve i j

/-- A reachable matrix with a stored value, and reads of a stored and of an absent cell. -/
example : ∃ s : CSR ℤ, Reach (.csr s) ∧ s.values = [4] ∧
    (Mat.csr s).at' 1 1 = .ok (4, .csr s) ∧ (Mat.csr s).at' 0 0 = .ok (0, .csr s) ∧
    (Mat.csr s).element 1 1 = .ok (true, .csr s) :=
  ⟨{ r := 2, c := 2, values := [4], cols := [1], rowStart := [0, 0, 1] },
    Reach.call (.set 1 1 4) (Reach.newCSR 2 2) (by decide), rfl, by decide, by decide, by decide⟩

/-! ## C12: Clear -/

/-- C12. `Clear` in any state, even a corrupt one: dimensions kept, every cell reads zero, and
`Values()` is 0 for the formats that drop zeros. -/
theorem C12_clear (m : Mat T) : m.clear.rows = m.rows ∧ m.clear.cols = m.cols ∧
    (∀ i j : Nat, i < m.rows → j < m.cols → m.clear.at' i j = .ok (0, m.clear)) ∧
    (m.kind ≠ .dense → m.kind ≠ .dvec → m.clear.nvalues = 0) := by
  obtain ⟨h1, h2, h3⟩ := Mat.clear_ok m
  refine ⟨h2.2.1, h2.2.2, fun i j hi hj => ?_, fun hk1 hk2 => ?_⟩
  · rw [Mat.at_ok h1 (by rw [h2.2.1]; exact hi) (by rw [h2.2.2]; exact hj), h3 i j hi hj]
  · cases m <;> first | rfl | exact absurd rfl hk1 | exact absurd rfl hk2

/-- A corrupt CSR value is repaired by `Clear`. -/
example : (Mat.csr { r := 2, c := 2, values := [1, 2], cols := [7], rowStart := [9] : CSR ℤ } |>.clear) =
    .csr (CSR.new 2 2) := by decide

/-! ## C13: the storage format is unobservable -/

theorem rowsAtToArray_of_wf {m : Mat T} (h : m.WF) (hk : m.kind = .csr ∨ m.kind = .csc ∨ m.kind = .dense)
    {i : Nat} (hi : i < m.rows) :
    m.rowsAtToArray i = .ok ((List.range m.cols).map (fun j => m.val i j)) := by
  cases m with
  | csr s =>
    obtain ⟨rows, h⟩ := h
    simp only [Mat.rowsAtToArray, h.rowsAtToArray_ok hi]
    congr 1
    exact List.map_congr_left (fun j hj => (Mat.val_csr h hi (by simpa using hj)).symm)
  | csc s =>
    obtain ⟨rows, h⟩ := h
    simp only [Mat.rowsAtToArray, CSC.Rep.rowsAtToArray_ok h hi]
    congr 1
    exact List.map_congr_left (fun j hj => (Mat.val_csc h hi (by simpa using hj)).symm)
  | dense s =>
    simp only [Mat.rowsAtToArray, Dense.rowsAtToArray_ok h hi]
    congr 1
    exact List.map_congr_left (fun j hj => (Mat.val_dense h hi (by simpa using hj)).symm)
  | dvec s => simp [Mat.kind] at hk
  | svec s => simp [Mat.kind] at hk

/-- C13 for the two compressed formats: the same history gives the same readings, and the same row
arrays. -/
theorem C13_csr_csc_agree (r c : Nat) (ops : List (Op T)) (hops : ∀ o ∈ ops, o.InRange r c) :
    ∃ a b, (Mat.csr (CSR.new r c)).run ops = .ok a ∧ (Mat.csc (CSC.new r c)).run ops = .ok b ∧
      (∀ i j : Nat, i < r → j < c → ∃ v, a.at' i j = .ok (v, a) ∧ b.at' i j = .ok (v, b)) ∧
      ∀ i : Nat, i < r → ∃ row, a.rowsAtToArray i = .ok row ∧ b.rowsAtToArray i = .ok row := by
  obtain ⟨a, a1, a2, a3, a4⟩ := Mat.run_ok ops (m := .csr (CSR.new r c)) (f := fun _ _ => 0)
    (Mat.csr_new_wf r c) (by simp [Mat.kind]) hops (fun i j hi hj => Mat.csr_new_val r c hi hj)
  obtain ⟨b, b1, b2, b3, b4⟩ := Mat.run_ok ops (m := .csc (CSC.new r c)) (f := fun _ _ => 0)
    (Mat.csc_new_wf r c) (by simp [Mat.kind]) hops (fun i j hi hj => Mat.csc_new_val r c hi hj)
  have kb : (Mat.csc (CSC.new r c : CSC T)).keep = (Mat.csr (CSR.new r c : CSR T)).keep := rfl
  rw [kb] at b4
  refine ⟨a, b, a1, b1, fun i j hi hj => ⟨specRun (Mat.csr (CSR.new r c)).keep (fun _ _ => 0) ops i j, ?_, ?_⟩,
    fun i hi => ⟨(List.range c).map (fun j => specRun (Mat.csr (CSR.new r c)).keep (fun _ _ => 0) ops i j), ?_, ?_⟩⟩
  · rw [Mat.at_ok a2 (by rw [a3.2.1]; exact hi) (by rw [a3.2.2]; exact hj), a4 i j hi hj]
  · rw [Mat.at_ok b2 (by rw [b3.2.1]; exact hi) (by rw [b3.2.2]; exact hj), b4 i j hi hj]
  · rw [rowsAtToArray_of_wf a2 (by rw [a3.1]; simp [Mat.kind]) (by rw [a3.2.1]; exact hi), a3.2.2]
    congr 1
    exact List.map_congr_left (fun j hj => a4 i j hi (by simpa [Mat.cols, CSR.new] using hj))
  · rw [rowsAtToArray_of_wf b2 (by rw [b3.1]; simp [Mat.kind]) (by rw [b3.2.1]; exact hi), b3.2.2]
    congr 1
    exact List.map_congr_left (fun j hj => b4 i j hi (by simpa [Mat.cols, CSC.new] using hj))

/-- C13. With an element type whose `==` is equality, the same history on a CSR, a CSC and a dense
matrix gives the same `At` everywhere and the same `RowsAtToArray`. -/
theorem C13_formats_agree [GoLawful T] (r c : Nat) (ops : List (Op T)) (hops : ∀ o ∈ ops, o.InRange r c) :
    ∃ a b d, (Mat.csr (CSR.new r c)).run ops = .ok a ∧ (Mat.csc (CSC.new r c)).run ops = .ok b ∧
      (Mat.dense (Dense.new r c)).run ops = .ok d ∧
      (∀ i j : Nat, i < r → j < c →
        ∃ v, a.at' i j = .ok (v, a) ∧ b.at' i j = .ok (v, b) ∧ d.at' i j = .ok (v, d)) ∧
      (∀ i : Nat, i < r → ∃ row, a.rowsAtToArray i = .ok row ∧ b.rowsAtToArray i = .ok row ∧
        d.rowsAtToArray i = .ok row) := by
  have hn : (norm : T → T) = id := funext fun v => norm_lawful v
  obtain ⟨a, a1, a2, a3, a4⟩ := Mat.run_ok ops (m := .csr (CSR.new r c)) (f := fun _ _ => 0)
    (Mat.csr_new_wf r c) (by simp [Mat.kind]) hops (fun i j hi hj => Mat.csr_new_val r c hi hj)
  obtain ⟨b, b1, b2, b3, b4⟩ := Mat.run_ok ops (m := .csc (CSC.new r c)) (f := fun _ _ => 0)
    (Mat.csc_new_wf r c) (by simp [Mat.kind]) hops (fun i j hi hj => Mat.csc_new_val r c hi hj)
  obtain ⟨d, d1, d2, d3, d4⟩ := Mat.run_ok ops (m := .dense (Dense.new r c)) (f := fun _ _ => 0)
    (Dense.wf_new r c) (by simp [Mat.kind]) hops (fun i j hi hj => Mat.dense_new_val r c hi hj)
  have ka : (Mat.csr (CSR.new r c : CSR T)).keep = id := hn
  have kb : (Mat.csc (CSC.new r c : CSC T)).keep = id := hn
  have kd : (Mat.dense (Dense.new r c : Dense T)).keep = id := rfl
  rw [ka] at a4; rw [kb] at b4; rw [kd] at d4
  refine ⟨a, b, d, a1, b1, d1, fun i j hi hj => ⟨specRun id (fun _ _ => 0) ops i j, ?_, ?_, ?_⟩,
    fun i hi => ⟨(List.range c).map (fun j => specRun id (fun _ _ => 0) ops i j), ?_, ?_, ?_⟩⟩
  · rw [Mat.at_ok a2 (by rw [a3.2.1]; exact hi) (by rw [a3.2.2]; exact hj), a4 i j hi hj]
  · rw [Mat.at_ok b2 (by rw [b3.2.1]; exact hi) (by rw [b3.2.2]; exact hj), b4 i j hi hj]
  · rw [Mat.at_ok d2 (by rw [d3.2.1]; exact hi) (by rw [d3.2.2]; exact hj), d4 i j hi hj]
  · rw [rowsAtToArray_of_wf a2 (by rw [a3.1]; simp [Mat.kind]) (by rw [a3.2.1]; exact hi), a3.2.2]
    congr 1
    exact List.map_congr_left (fun j hj => a4 i j hi (by simpa [Mat.cols, CSR.new] using hj))
  · rw [rowsAtToArray_of_wf b2 (by rw [b3.1]; simp [Mat.kind]) (by rw [b3.2.1]; exact hi), b3.2.2]
    congr 1
    exact List.map_congr_left (fun j hj => b4 i j hi (by simpa [Mat.cols, CSC.new] using hj))
  · rw [rowsAtToArray_of_wf d2 (by rw [d3.1]; simp [Mat.kind]) (by rw [d3.2.1]; exact hi), d3.2.2]
    congr 1
    exact List.map_congr_left (fun j hj => d4 i j hi (by simpa [Mat.cols, Dense.new] using hj))

end GB
