import Verif.SpecMat
import Verif.Lemmas.Mat

/-!
# Histories of calls, arrays, and the invariant of reachable states
-/

namespace GB

set_option linter.unusedSectionVars false
set_option linter.unusedSimpArgs false

variable {T : Type} [GoNum T]

namespace Mat

variable [GoStore T]

theorem apply_ok {m : Mat T} (h : m.WF) (hk : m.kind ≠ .svec) {o : Op T}
    (ho : o.InRange m.rows m.cols) :
    ∃ m', o.apply m = .ok m' ∧ m'.WF ∧ Same m' m ∧
      ∀ i j, i < m.rows → j < m.cols → m'.val i j = o.spec m.keep m.val i j := by
  cases o with
  | set a b v =>
    obtain ⟨m', h1, h2⟩ := set_ok h hk ho.1 ho.2 v
    refine ⟨m', h1, h2.wf, h2.same, fun i j hi hj => ?_⟩
    simp only [Op.spec, put2]
    split
    · rename_i e; rw [e.1, e.2, h2.hit]
    · rename_i e; exact h2.miss i j hi hj e
  | update a b f =>
    obtain ⟨m', h1, h2⟩ := update_ok h hk ho.1 ho.2 f
    refine ⟨m', h1, h2.wf, h2.same, fun i j hi hj => ?_⟩
    simp only [Op.spec, put2]
    split
    · rename_i e; rw [e.1, e.2, h2.hit]
    · rename_i e; exact h2.miss i j hi hj e
  | clear =>
    obtain ⟨h1, h2, h3⟩ := clear_ok m
    exact ⟨m.clear, rfl, h1, h2, h3⟩
  | read a b =>
    refine ⟨m, ?_, h, Same.refl m, fun i j _ _ => rfl⟩
    simp [Op.apply, at_ok h ho.1 ho.2]
  | element a b =>
    refine ⟨m, ?_, h, Same.refl m, fun i j _ _ => rfl⟩
    simp [Op.apply, element_ok h ho.1 ho.2]

theorem run_ok (ops : List (Op T)) : ∀ {m : Mat T} {f : Nat → Nat → T}, m.WF → m.kind ≠ .svec →
    (∀ o ∈ ops, o.InRange m.rows m.cols) →
    (∀ i j, i < m.rows → j < m.cols → m.val i j = f i j) →
    ∃ m', m.run ops = .ok m' ∧ m'.WF ∧ Same m' m ∧
      ∀ i j, i < m.rows → j < m.cols → m'.val i j = specRun m.keep f ops i j := by
  induction ops with
  | nil => intro m f h hk ho hf; exact ⟨m, rfl, h, Same.refl m, hf⟩
  | cons o ops ih =>
    intro m f h hk ho hf
    obtain ⟨m1, h1, h2, h3, h4⟩ := apply_ok h hk (ho o (by simp))
    have hf1 : ∀ i j, i < m1.rows → j < m1.cols → m1.val i j = o.spec m.keep f i j := by
      intro i j hi hj
      rw [h3.2.1] at hi; rw [h3.2.2] at hj
      rw [h4 i j hi hj]
      have hor := ho o (by simp)
      cases o <;> simp only [Op.spec, put2]
      · split
        · rfl
        · exact hf i j hi hj
      · split
        · rw [hf _ _ hor.1 hor.2]
        · exact hf i j hi hj
      · exact hf i j hi hj
      · exact hf i j hi hj
    obtain ⟨m2, g1, g2, g3, g4⟩ := ih (m := m1) (f := o.spec m.keep f) h2 (by rw [h3.1]; exact hk)
      (by rw [h3.2.1, h3.2.2]; exact fun o' ho' => ho o' (by simp [ho'])) hf1
    refine ⟨m2, ?_, g2, g3.trans h3, ?_⟩
    · simp [run, h1, g1]
    · intro i j hi hj
      rw [g4 i j (by rw [h3.2.1]; exact hi) (by rw [h3.2.2]; exact hj)]
      have : m1.keep = m.keep := funext fun v => h3.keep v
      rw [this]; rfl

/-! ## Building from an array -/

theorem loop_map {σ τ : Type} (g : σ → τ) {f : Nat → σ → Out σ} {f' : Nat → τ → Out τ}
    (h : ∀ i s, g <$> f i s = f' i (g s)) : ∀ n i s, g <$> loop n i f s = loop n i f' (g s) := by
  intro n
  induction n with
  | zero => intro i s; rfl
  | succ n ih =>
    intro i s
    simp only [loop, map_bind, ih, ← h, bind_map_left]

/-- The double loop of the `FromArray` constructors, on any matrix. -/
def fill (data : List (List T)) (r c : Nat) (m : Mat T) : Out (Mat T) :=
  loop r 0 (fun i m => loop c 0 (fun k m => do
    let row ← idx data i
    let v ← idx row k
    m.set i k v) m) m

theorem fill_ok {data : List (List T)} {r c : Nat} (hl : data.length = r) (hc : Rect data c) {m : Mat T}
    (h : m.WF) (hk : m.kind ≠ .svec) (hr : m.rows = r) (hcc : m.cols = c) :
    ∃ m', fill data r c m = .ok m' ∧ m'.WF ∧ Same m' m ∧
      ∀ i j, i < r → j < c → m'.val i j = m.keep (arr data i j) := by
  unfold fill
  obtain ⟨m', h1, h2⟩ := loop_inv
    (f := fun i m => loop c 0 (fun k m => do
      let row ← idx data i
      let v ← idx row k
      m.set i k v) m)
    (Inv := fun i m' => m'.WF ∧ Same m' m ∧ ∀ a j, a < i → a < r → j < c → m'.val a j = m.keep (arr data a j))
    r 0 m ⟨h, Same.refl m, fun a j ha => by omega⟩ (by
      intro i m1 _ hi ⟨w, s, v⟩
      rw [Nat.zero_add] at hi
      have hid : i < data.length := by omega
      have hrow : (data[i]).length = c := hc _ (List.getElem_mem hid)
      obtain ⟨m2, g1, g2⟩ := loop_inv
        (f := fun k m => do
          let row ← idx data i
          let v ← idx row k
          m.set i k v)
        (Inv := fun k m' => m'.WF ∧ Same m' m ∧
          (∀ a j, a < i → a < r → j < c → m'.val a j = m.keep (arr data a j)) ∧
          ∀ j, j < k → j < c → m'.val i j = m.keep (arr data i j))
        c 0 m1 ⟨w, s, v, fun j hj => by omega⟩ (by
          intro k m3 _ hkc ⟨w3, s3, v3, u3⟩
          rw [Nat.zero_add] at hkc
          have hkr : k < (data[i]).length := by omega
          obtain ⟨m4, e1, e2⟩ := set_ok w3 (by rw [s3.1]; exact hk) (i := i) (j := k)
            (by rw [s3.2.1, hr]; exact hi) (by rw [s3.2.2, hcc]; exact hkc) (data[i][k])
          have hka : data[i][k] = arr data i k := by simp [arr, List.getD, hid, hkr]
          refine ⟨m4, ?_, e2.wf, e2.same.trans s3, ?_, ?_⟩
          · simp only [idx_ok hid, idx_ok hkr, Out.ok_bind, e1]
          · intro a j ha har hj
            rw [e2.miss a j (by rw [s3.2.1, hr]; exact har) (by rw [s3.2.2, hcc]; exact hj) (by omega)]
            exact v3 a j ha har hj
          · intro j hj hjc
            rcases Nat.lt_succ_iff_lt_or_eq.1 hj with hj | rfl
            · rw [e2.miss i j (by rw [s3.2.1, hr]; exact hi) (by rw [s3.2.2, hcc]; exact hjc) (by omega)]
              exact u3 j hj hjc
            · rw [e2.hit, s3.keep, hka])
      rw [Nat.zero_add] at g2
      refine ⟨m2, g1, g2.1, g2.2.1, fun a j ha har hj => ?_⟩
      rcases Nat.lt_succ_iff_lt_or_eq.1 ha with ha | rfl
      · exact g2.2.2.1 a j ha har hj
      · exact g2.2.2.2 j hj hj)
  rw [Nat.zero_add] at h2
  exact ⟨m', h1, h2.1, h2.2.1, fun i j hi hj => h2.2.2 i j hi hi hj⟩

theorem fromArray_csr (data : List (List T)) (row : List T) (rest : List (List T))
    (h : data = row :: rest) :
    Mat.csr <$> CSR.fromArray data = fill data data.length row.length (.csr (CSR.new data.length row.length)) := by
  unfold CSR.fromArray fill
  subst h
  simp only [idx, List.getElem?_cons_zero, Out.ok_bind]
  refine loop_map Mat.csr (fun i s => loop_map Mat.csr (fun k s => ?_) _ _ _) _ _ _
  simp only [map_bind, set]; rfl

theorem fromArray_csc (data : List (List T)) (row : List T) (rest : List (List T))
    (h : data = row :: rest) :
    Mat.csc <$> CSC.fromArray data = fill data data.length row.length (.csc (CSC.new data.length row.length)) := by
  unfold CSC.fromArray fill
  subst h
  simp only [idx, List.getElem?_cons_zero, Out.ok_bind]
  refine loop_map Mat.csc (fun i s => loop_map Mat.csc (fun k s => ?_) _ _ _) _ _ _
  simp only [map_bind, set]; rfl

theorem csr_new_wf (r c : Nat) : (Mat.csr (CSR.new r c : CSR T)).WF := ⟨_, CSR.rep_new r c⟩
theorem csc_new_wf (r c : Nat) : (Mat.csc (CSC.new r c : CSC T)).WF := ⟨_, CSC.rep_new r c⟩

theorem csr_new_val (r c : Nat) {i j : Nat} (hi : i < r) (hj : j < c) :
    (Mat.csr (CSR.new r c : CSR T)).val i j = 0 := by
  rw [val_csr (CSR.rep_new r c) hi hj, CSR.cellOf_replicate]

theorem csc_new_val (r c : Nat) {i j : Nat} (hi : i < r) (hj : j < c) :
    (Mat.csc (CSC.new r c : CSC T)).val i j = 0 := by
  rw [val_csc (CSC.rep_new r c) hi hj, CSR.cellOf_replicate]

theorem dense_new_val (r c : Nat) {i j : Nat} (hi : i < r) (hj : j < c) :
    (Mat.dense (Dense.new r c : Dense T)).val i j = 0 := by
  rw [val_dense (Dense.wf_new r c) hi hj, Dense.cell_new]

theorem dvec_new_val (l : Nat) {i j : Nat} (hi : i < l) :
    (Mat.dvec (DVec.new l : DVec T)).val i j = 0 := by
  rw [val_dvec (DVec.wf_new l) hi, DVec.cell_new]

theorem csr_fromArray_ok {data : List (List T)} {c : Nat} (hne : data ≠ []) (hc : Rect data c) :
    ∃ s, CSR.fromArray data = .ok s ∧ (Mat.csr s).WF ∧ s.r = data.length ∧ s.c = c ∧
      ∀ i j, i < data.length → j < c → (Mat.csr s).val i j = norm (arr data i j) := by
  obtain ⟨row, rest, e⟩ := List.exists_cons_of_ne_nil hne
  have hrc : row.length = c := hc row (by rw [e]; simp)
  obtain ⟨m', h1, h2, h3, h4⟩ := fill_ok (m := .csr (CSR.new data.length c)) rfl hc (csr_new_wf _ _)
    (by simp [kind]) rfl rfl
  have h0 := fromArray_csr data row rest e
  rw [hrc, h1] at h0
  cases hs : CSR.fromArray data with
  | ok s =>
    rw [hs, Out.map_ok] at h0
    injection h0 with h0
    subst h0
    exact ⟨s, rfl, h2, h3.2.1, h3.2.2, h4⟩
  | panic => rw [hs] at h0; simp at h0
  | hang => rw [hs] at h0; simp at h0

theorem csc_fromArray_ok {data : List (List T)} {c : Nat} (hne : data ≠ []) (hc : Rect data c) :
    ∃ s, CSC.fromArray data = .ok s ∧ (Mat.csc s).WF ∧ s.r = data.length ∧ s.c = c ∧
      ∀ i j, i < data.length → j < c → (Mat.csc s).val i j = norm (arr data i j) := by
  obtain ⟨row, rest, e⟩ := List.exists_cons_of_ne_nil hne
  have hrc : row.length = c := hc row (by rw [e]; simp)
  obtain ⟨m', h1, h2, h3, h4⟩ := fill_ok (m := .csc (CSC.new data.length c)) rfl hc (csc_new_wf _ _)
    (by simp [kind]) rfl rfl
  have h0 := fromArray_csc data row rest e
  rw [hrc, h1] at h0
  cases hs : CSC.fromArray data with
  | ok s =>
    rw [hs, Out.map_ok] at h0
    injection h0 with h0
    subst h0
    exact ⟨s, rfl, h2, h3.2.1, h3.2.2, h4⟩
  | panic => rw [hs] at h0; simp at h0
  | hang => rw [hs] at h0; simp at h0

theorem dense_fromArray_ok {data : List (List T)} {c : Nat} (hne : data ≠ []) (hc : Rect data c) :
    ∃ s, Dense.fromArray data = .ok s ∧ s.WF ∧ s.r = data.length ∧ s.c = c ∧
      ∀ i j, s.cell i j = arr data i j := by
  obtain ⟨row, rest, rfl⟩ := List.exists_cons_of_ne_nil hne
  have hrc : row.length = c := hc row (by simp)
  refine ⟨{ r := (row :: rest).length, c := row.length, data := row :: rest },
    by simp [Dense.fromArray, idx, Dense.new], ⟨rfl, fun x hx => (hc x hx).trans hrc.symm⟩, rfl, hrc,
    fun i j => rfl⟩

omit [GoStore T] in
/-- Without a first row the `FromArray` constructors panic. -/
theorem fromArray_nil : CSR.fromArray ([] : List (List T)) = .panic ∧
    CSC.fromArray ([] : List (List T)) = .panic ∧ Dense.fromArray ([] : List (List T)) = .panic :=
  ⟨rfl, rfl, rfl⟩

end Mat

/-! ## Sparse vectors in any reachable state -/

namespace SVec

/-- What survives every call on a sparse vector: as many positions as values, in range, no stored
zero. (Order and absence of duplicates do not survive, see C04.) -/
structure Weak (s : SVec T) : Prop where
  len : s.indices.length = s.values.length
  bound : ∀ i ∈ s.indices, i < s.l
  nz : ∀ v ∈ s.values, isZero v = false

theorem Rep.weak {s : SVec T} {es : List (Nat × T)} (h : Rep s es) : Weak s := by
  refine ⟨by rw [h.indices, h.values]; simp, ?_, ?_⟩
  · intro i hi
    rw [h.indices] at hi
    obtain ⟨e, he, rfl⟩ := List.mem_map.1 hi
    exact h.bound e he
  · intro v hv
    rw [h.values] at hv
    obtain ⟨e, he, rfl⟩ := List.mem_map.1 hv
    exact h.nz e he

theorem search_le (xs : List Nat) (i : Nat) : ∀ fuel s e, e - s ≤ fuel → s ≤ e → e ≤ xs.length →
    ∃ p, search xs i fuel s e = .ok p ∧ s ≤ p ∧ p ≤ e := by
  intro fuel
  induction fuel with
  | zero =>
    intro s e h1 h2 h3
    refine ⟨s, ?_, Nat.le_refl _, h2⟩
    unfold search; rw [if_neg (by omega)]
  | succ fuel ih =>
    intro s e h1 h2 h3
    unfold search
    split
    · rename_i hlt
      have hp : (s + e) / 2 < xs.length := by omega
      simp only [idx_ok hp, Out.ok_bind]
      split
      · obtain ⟨p, a, b, c⟩ := ih s ((s + e) / 2) (by omega) (by omega) (by omega)
        exact ⟨p, a, b, by omega⟩
      · split
        · obtain ⟨p, a, b, c⟩ := ih ((s + e) / 2 + 1) e (by omega) (by omega) h3
          exact ⟨p, a, by omega, c⟩
        · exact ⟨_, rfl, by omega, by omega⟩
    · exact ⟨s, rfl, Nat.le_refl _, h2⟩

theorem index_le (s : SVec T) (i : Nat) : ∃ p, s.index i = .ok (p, s.indices.length) ∧
    p ≤ s.indices.length := by
  unfold index
  dsimp only
  split
  · exact ⟨_, rfl, Nat.le_refl _⟩
  · obtain ⟨p, h1, -, h3⟩ := search_le s.indices i s.indices.length 0 s.indices.length (by omega)
      (by omega) (Nat.le_refl _)
    exact ⟨p, by simp [h1], h3⟩

/-- In range, `AtVec` never panics, and writing back what it returned changes nothing. -/
theorem Weak.at_self [GoStore T] {s : SVec T} (h : Weak s) {i : Nat} (hi : i < s.l) :
    ∃ v, s.atVec i = .ok v ∧ s.setVec i v = .ok s := by
  obtain ⟨p, h1, h2⟩ := index_le s i
  unfold atVec setVec
  simp only [inRange_natCast, hi, decide_true, if_true, Int.toNat_natCast, h1, Out.ok_bind]
  split
  · rename_i hp
    simp only [idx_ok hp, Out.ok_bind]
    split
    · rename_i hx
      have hpv : p < s.values.length := by rw [← h.len]; exact hp
      refine ⟨s.values[p], idx_ok hpv, ?_⟩
      rw [if_neg (by rw [h.nz _ (List.getElem_mem hpv)]; simp), setIdx_ok hpv]
      simp
    · exact ⟨0, rfl, by simp [insert, isZero_zero]⟩
  · exact ⟨0, rfl, by simp [insert, isZero_zero]⟩

theorem Weak.setVec_ok {s : SVec T} (h : Weak s) {i : Nat} (hi : i < s.l) (v : T) :
    ∃ s', s.setVec i v = .ok s' ∧ s'.l = s.l ∧ Weak s' := by
  obtain ⟨p, h1, h2⟩ := index_le s i
  have hpv : p ≤ s.values.length := by rw [← h.len]; exact h2
  have hins : ∃ s', s.insert p i v = .ok s' ∧ s'.l = s.l ∧ Weak s' := by
    unfold insert
    split
    · exact ⟨s, rfl, rfl, h⟩
    · rename_i hz
      simp only [splice, h2, hpv, if_true, Out.ok_bind]
      refine ⟨_, rfl, rfl, ⟨?_, ?_, ?_⟩⟩
      · simp [h.len]
      · intro x hx
        simp only [List.mem_append, List.mem_cons] at hx
        rcases hx with hx | rfl | hx
        · exact h.bound x (List.mem_of_mem_take hx)
        · exact hi
        · exact h.bound x (List.mem_of_mem_drop hx)
      · intro x hx
        simp only [List.mem_append, List.mem_cons] at hx
        rcases hx with hx | rfl | hx
        · exact h.nz x (List.mem_of_mem_take hx)
        · simpa using hz
        · exact h.nz x (List.mem_of_mem_drop hx)
  unfold setVec
  simp only [inRange_natCast, hi, decide_true, if_true, Int.toNat_natCast, h1, Out.ok_bind]
  split
  · rename_i hp
    simp only [idx_ok hp, Out.ok_bind]
    have hpv' : p < s.values.length := by rw [← h.len]; exact hp
    split
    · split
      · simp only [remove, unsplice, hp, hpv', if_true, Out.ok_bind]
        refine ⟨_, rfl, rfl, ⟨?_, ?_, ?_⟩⟩
        · simp [h.len]
        · intro x hx
          simp only [List.mem_append] at hx
          rcases hx with hx | hx
          · exact h.bound x (List.mem_of_mem_take hx)
          · exact h.bound x (List.mem_of_mem_drop hx)
        · intro x hx
          simp only [List.mem_append] at hx
          rcases hx with hx | hx
          · exact h.nz x (List.mem_of_mem_take hx)
          · exact h.nz x (List.mem_of_mem_drop hx)
      · rename_i hz
        rw [setIdx_ok hpv']
        refine ⟨_, rfl, rfl, ⟨?_, h.bound, ?_⟩⟩
        · simp [h.len]
        · intro x hx
          rcases List.mem_or_eq_of_mem_set hx with hx | rfl
          · exact h.nz x hx
          · simpa using hz
    · exact hins
  · exact hins

theorem setVec_panic (s : SVec T) (i : Int) (v : T) (h : ¬ inRange i s.l = true) :
    s.setVec i v = .panic := by simp [setVec, h]

theorem atVec_panic (s : SVec T) (i : Int) (h : ¬ inRange i s.l = true) :
    s.atVec i = .panic := by simp [atVec, h]

/-- The entries of the ascending fill loop: positions of the non-zero values below `n`. -/
def nz (g : Nat → T) (n : Nat) : List (Nat × T) := (List.range n).flatMap (fun i => midOf i (g i))

theorem nz_succ (g : Nat → T) (n : Nat) : nz g (n + 1) = nz g n ++ midOf n (g n) := by
  simp [nz, List.range_succ]

theorem nz_lt (g : Nat → T) (n : Nat) : ∀ e ∈ nz g n, e.1 < n := by
  intro e he
  obtain ⟨i, hi, he⟩ := List.mem_flatMap.1 he
  unfold midOf at he
  split at he
  · simp at he
  · simp at he; rw [he]; simpa using hi

theorem fromArray_ok (data : List T) : ∃ s, fromArray data = .ok s ∧ s.l = data.length ∧
    Rep s (nz (fun i => data.getD i 0) data.length) := by
  unfold fromArray
  obtain ⟨s, h1, h2⟩ := loop_inv
    (f := fun i (s : SVec T) => do let v ← idx data i; s.setVec i v)
    (Inv := fun i s => s.l = data.length ∧ Rep s (nz (fun i => data.getD i 0) i))
    data.length 0 (new data.length) ⟨rfl, by simpa [nz] using rep_new _⟩ (by
      intro i s _ hi ⟨hl, hr⟩
      rw [Nat.zero_add] at hi
      obtain ⟨s', e1, e2, e3⟩ := hr.push (i := i) (by rw [hl]; exact hi) (nz_lt _ _) (data[i])
      refine ⟨s', by simp only [idx_ok hi, Out.ok_bind, e1], e2.trans hl, ?_⟩
      rw [nz_succ]
      have : data.getD i 0 = data[i] := by simp [List.getD, hi]
      rw [this]
      exact e3)
  rw [Nat.zero_add] at h2
  exact ⟨s, h1, h2⟩

end SVec

/-! ## Reachable states satisfy the invariants -/

/-- The invariant of every reachable value. -/
def Mat.Inv : Mat T → Prop
  | .svec s => s.Weak
  | m => m.WF

theorem Mat.WF.inv {m : Mat T} (h : m.WF) : m.Inv := by
  cases m <;> first | exact h | (obtain ⟨es, h, -⟩ := h; exact h.weak)

variable [GoStore T]

theorem inRange_of_ok {m m' : Mat T} {o : Op T} (hk : m.kind = .csr ∨ m.kind = .csc ∨ m.kind = .dense)
    (e : o.apply m = .ok m') : o.InRange m.rows m.cols := by
  have key : ∀ {β : Type} (i j r c : Nat), (¬ (inRange (i : Int) r = true ∧ inRange (j : Int) c = true) → False) →
      i < r ∧ j < c := by
    intro β i j r c h
    by_contra hc
    apply h
    simp only [inRange_natCast, decide_eq_true_eq]
    exact hc
  cases o with
  | clear => trivial
  | set i j v =>
    refine key (β := T) i j _ _ (fun hn => ?_)
    cases m <;> simp [Mat.kind] at hk
    · simp [Op.apply, Mat.set, CSR.set, CSR.update_panic _ _ _ _ hn] at e
    · simp [Op.apply, Mat.set, CSC.set, CSC.update_panic _ _ _ _ hn] at e
    · simp [Op.apply, Mat.set, Dense.set_panic _ _ _ _ hn] at e
  | update i j f =>
    refine key (β := T) i j _ _ (fun hn => ?_)
    cases m <;> simp [Mat.kind] at hk
    · simp [Op.apply, Mat.update, CSR.update_panic _ _ _ _ hn] at e
    · simp [Op.apply, Mat.update, CSC.update_panic _ _ _ _ hn] at e
    · simp [Op.apply, Mat.update, Dense.update, Dense.updateWith_panic _ _ _ _ hn] at e
  | read i j =>
    refine key (β := T) i j _ _ (fun hn => ?_)
    cases m <;> simp [Mat.kind] at hk
    · simp [Op.apply, Mat.at', CSR.at', CSR.updateWith_panic _ _ _ _ hn] at e
    · simp [Op.apply, Mat.at', CSC.at', CSC.updateWith_panic _ _ _ _ hn] at e
    · simp [Op.apply, Mat.at', Dense.at_panic _ _ _ hn] at e
  | element i j =>
    refine key (β := T) i j _ _ (fun hn => ?_)
    cases m <;> simp [Mat.kind] at hk
    · simp [Op.apply, Mat.element, CSR.element, CSR.updateWith_panic _ _ _ _ hn] at e
    · simp [Op.apply, Mat.element, CSC.element, CSC.updateWith_panic _ _ _ _ hn] at e
    · simp [Op.apply, Mat.element, Dense.element, Dense.at_panic _ _ _ hn] at e


theorem DVec.apply_wf {s : DVec T} (h : s.WF) {o : Op T} {m' : Mat T}
    (e : o.apply (.dvec s) = .ok m') : m'.WF := by
  cases o with
  | clear =>
    simp only [Op.apply, Out.ok.injEq] at e; subst e
    exact (Mat.clear_ok _).1
  | set i j v =>
    by_cases hi : i < s.l
    · by_cases hj : j = 0
      · obtain ⟨m1, h1, h2⟩ := Mat.set_ok (m := .dvec s) h (by simp [Mat.kind]) hi (by subst hj; exact Nat.one_pos : j < 1) v
        simp only [Op.apply] at e
        rw [h1] at e
        injection e with e; subst e; exact h2.wf
      · simp [Op.apply, Mat.set, DVec.set, hi, inRange, hj] at e
    · simp [Op.apply, Mat.set, DVec.set, hi, inRange] at e
  | update i j v =>
    by_cases hi : i < s.l
    · by_cases hj : j = 0
      · obtain ⟨m1, h1, h2⟩ := Mat.update_ok (m := .dvec s) h (by simp [Mat.kind]) hi (by subst hj; exact Nat.one_pos : j < 1) v
        simp only [Op.apply] at e
        rw [h1] at e
        injection e with e; subst e; exact h2.wf
      · simp [Op.apply, Mat.update, DVec.update, DVec.updateWith, hi, inRange, hj] at e
    · simp [Op.apply, Mat.update, DVec.update, DVec.updateWith, hi, inRange] at e
  | read i j =>
    simp only [Op.apply, Mat.at'] at e
    cases hv : s.at' i j <;> simp [hv] at e
    subst e; exact h
  | element i j =>
    simp only [Op.apply, Mat.element] at e
    cases hv : s.element i j <;> simp [hv] at e
    subst e; exact h

theorem SVec.apply_weak {s : SVec T} (h : s.Weak) {o : Op T} {m' : Mat T}
    (e : o.apply (.svec s) = .ok m') : m'.Inv := by
  cases o with
  | clear =>
    simp only [Op.apply, Out.ok.injEq] at e; subst e
    exact (Mat.clear_ok _).1.inv
  | set i j v =>
    by_cases hi : i < s.l
    · by_cases hj : j = 0
      · obtain ⟨s', h1, h2, h3⟩ := h.setVec_ok hi v
        simp only [Op.apply, Mat.set, SVec.set, inRange_natCast, hi, decide_true, if_true, h1,
          Out.ok_bind, Out.ok.injEq] at e
        rw [if_pos (by simpa [inRange] using hj)] at e
        simp at e
        subst e; exact h3
      · simp [Op.apply, Mat.set, SVec.set, hi, inRange, hj] at e
    · simp [Op.apply, Mat.set, SVec.set, hi, inRange] at e
  | update i j f =>
    by_cases hi : i < s.l
    · by_cases hj : j = 0
      · obtain ⟨v, g1, -⟩ := h.at_self hi
        obtain ⟨s', h1, h2, h3⟩ := h.setVec_ok hi (f v)
        simp only [Op.apply, Mat.update, SVec.update, SVec.updateWith, inRange_natCast, hi, decide_true,
          if_true, g1, h1, Out.ok_bind, Out.ok.injEq] at e
        rw [if_pos (by simpa [inRange] using hj)] at e
        simp at e
        subst e; exact h3
      · simp [Op.apply, Mat.update, SVec.update, SVec.updateWith, hi, inRange, hj] at e
    · simp [Op.apply, Mat.update, SVec.update, SVec.updateWith, hi, inRange] at e
  | read i j =>
    by_cases hi : i < s.l
    · by_cases hj : j = 0
      · obtain ⟨v, g1, g2⟩ := h.at_self hi
        simp only [Op.apply, Mat.at', SVec.at', SVec.updateWith, inRange_natCast, hi, decide_true,
          if_true, g1, g2, Out.ok_bind, Out.ok.injEq] at e
        rw [if_pos (by simpa [inRange] using hj)] at e
        simp at e
        subst e; exact h
      · simp [Op.apply, Mat.at', SVec.at', SVec.updateWith, hi, inRange, hj] at e
    · simp [Op.apply, Mat.at', SVec.at', SVec.updateWith, hi, inRange] at e
  | element i j =>
    simp only [Op.apply, Mat.element] at e
    cases hv : s.element i j <;> simp [hv] at e
    subst e; exact h

theorem Reach.inv {m : Mat T} (h : Reach m) : m.Inv := by
  induction h with
  | newCSR r c => exact Mat.csr_new_wf r c
  | newCSC r c => exact Mat.csc_new_wf r c
  | newDense r c => exact Dense.wf_new r c
  | newDVec l => exact DVec.wf_new l
  | newSVec l => exact (SVec.rep_new l).weak
  | @arrCSR data c s h e =>
    have hne : data ≠ [] := by rintro rfl; rw [Mat.fromArray_nil.1] at e; simp at e
    obtain ⟨s', h1, h2, -⟩ := Mat.csr_fromArray_ok hne h
    rw [h1] at e; injection e with e; subst e; exact h2
  | @arrCSC data c s h e =>
    have hne : data ≠ [] := by rintro rfl; rw [Mat.fromArray_nil.2.1] at e; simp at e
    obtain ⟨s', h1, h2, -⟩ := Mat.csc_fromArray_ok hne h
    rw [h1] at e; injection e with e; subst e; exact h2
  | @arrDense data c s h e =>
    have hne : data ≠ [] := by rintro rfl; rw [Mat.fromArray_nil.2.2] at e; simp at e
    obtain ⟨s', h1, h2, -⟩ := Mat.dense_fromArray_ok hne h
    rw [h1] at e; injection e with e; subst e; exact h2
  | arrDVec data => simp [Mat.Inv, Mat.WF, DVec.WF, DVec.fromArray, DVec.new]
  | @arrSVec data s e =>
    obtain ⟨s', h1, h2, h3⟩ := SVec.fromArray_ok data
    rw [h1] at e; injection e with e; subst e; exact h3.weak
  | @call m m' o h e ih =>
    cases m with
    | csr s =>
      obtain ⟨m1, h1, h2, -⟩ := Mat.apply_ok (m := .csr s) ih (by simp [Mat.kind])
        (inRange_of_ok (by simp [Mat.kind]) e)
      rw [h1] at e; injection e with e; subst e; exact h2.inv
    | csc s =>
      obtain ⟨m1, h1, h2, -⟩ := Mat.apply_ok (m := .csc s) ih (by simp [Mat.kind])
        (inRange_of_ok (by simp [Mat.kind]) e)
      rw [h1] at e; injection e with e; subst e; exact h2.inv
    | dense s =>
      obtain ⟨m1, h1, h2, -⟩ := Mat.apply_ok (m := .dense s) ih (by simp [Mat.kind])
        (inRange_of_ok (by simp [Mat.kind]) e)
      rw [h1] at e; injection e with e; subst e; exact h2.inv
    | dvec s => exact (DVec.apply_wf ih e).inv
    | svec s => exact SVec.apply_weak ih e
  | @copy m m' h e ih =>
    cases m with
    | svec s =>
      simp only [Mat.copy, SVec.copy_eq s (Mat.Inv.eq_1 s ▸ ih : s.Weak).len, Out.ok_bind, Out.ok.injEq] at e
      subst e; exact ih
    | csr s =>
      rw [Mat.copy_ok (m := .csr s) ih] at e; injection e with e; subst e; exact ih
    | csc s =>
      rw [Mat.copy_ok (m := .csc s) ih] at e; injection e with e; subst e; exact ih
    | dense s =>
      rw [Mat.copy_ok (m := .dense s) ih] at e; injection e with e; subst e; exact ih
    | dvec s =>
      rw [Mat.copy_ok (m := .dvec s) ih] at e; injection e with e; subst e; exact ih

theorem Reach.wf {m : Mat T} (h : Reach m) (hk : m.kind ≠ .svec) : m.WF := by
  have := h.inv
  cases m <;> first | exact this | exact absurd rfl hk

theorem Reach.weak {s : SVec T} (h : Reach (.svec s)) : s.Weak := h.inv

end GB
