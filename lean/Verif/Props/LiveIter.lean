import Verif.Lemmas.LiveIter
import Verif.Props.Ragged
import Verif.KernelRfl

/-!
# C76: enumerating a matrix while writing to it

The iterators of the dense formats only count, so they follow any write; those of the other formats
walk the stored entries, so they follow exactly the writes that create and remove none.
-/

namespace GB

set_option linter.unusedSectionVars false

variable {T : Type} [GoNum T] [GoStore T]

theorem C76_core {m : Mat T} (hw : m.WF) {es : List (Nat × Nat × T)}
    (hes : Yields Mat.Iter.hasNext m.step m.iter es) {acts : List (IAct T)}
    (hs : Steady m.kind m.rows m.cols m.keep acts m.val (placesOf es)) :
    ∃ m' it', Mat.session acts m m.iter = .ok (m', it', delivered m.keep acts m.val (placesOf es)) ∧
      m'.kind = m.kind ∧ m'.rows = m.rows ∧ m'.cols = m.cols ∧
      (∀ i j : Nat, i < m.rows → j < m.cols → m'.at' i j = .ok (tableAfter m.keep acts m.val (placesOf es) i j, m')) ∧
      (it'.hasNext = true ↔ (delivered m.keep acts m.val (placesOf es)).length < es.length) := by
  obtain ⟨es', h1, -⟩ := Mat.entries_ok hw
  obtain rfl := yields_unique hes h1.yields
  obtain ⟨m', it', rest', g1, g2, g3, g4, g5⟩ := session_steady acts m m.iter es m.val h1 rfl rfl (fun _ => rfl)
    (fun _ _ _ _ => rfl) hs
  refine ⟨m', it', g1, g3.1, g3.2.1, g3.2.2, ?_, ?_⟩
  · intro i j hi hj
    rw [← g4 i j hi hj]
    exact Mat.at_ok g2.wf (by rw [g3.2.1]; exact hi) (by rw [g3.2.2]; exact hj)
  · cases rest' with
    | nil => rw [g2.nil]; simp at g5; simp [g5]
    | cons e rest' =>
      rw [g2.cons.1]
      simp only [List.length_cons] at g5
      simp; omega

/-- C76, for sessions that do not change which cells are zero (in a dense format: any session whose
writes are in range). The iterator made before the session delivers the cells it would have
delivered without the writes, each once, in the same order, each with the value the cell has at that
moment; `HasNext` turns false exactly when they are all delivered; and the writes take effect.

Full statement: the same for every session whose writes are in range. It is false of the formats
that store only non-zero entries, see `C76_refuted` and `C76_missed`. -/
theorem C76_steady_partial {m : Mat T} (h : Reach m) (hk : m.kind ≠ .svec) {es : List (Nat × Nat × T)}
    (hes : Yields Mat.Iter.hasNext m.step m.iter es) {acts : List (IAct T)}
    (hs : Steady m.kind m.rows m.cols m.keep acts m.val (placesOf es)) :
    ∃ m' it', Mat.session acts m m.iter = .ok (m', it', delivered m.keep acts m.val (placesOf es)) ∧
      m'.kind = m.kind ∧ m'.rows = m.rows ∧ m'.cols = m.cols ∧
      (∀ i j : Nat, i < m.rows → j < m.cols → m'.at' i j = .ok (tableAfter m.keep acts m.val (placesOf es) i j, m')) ∧
      (it'.hasNext = true ↔ (delivered m.keep acts m.val (placesOf es)).length < es.length) :=
  C76_core (h.wf hk) hes hs

/-- C76 for sparse vectors none of whose entries lies beyond position (number of entries): the ones
`At` reads right (C04). -/
theorem C76_sparse_vector_partial {s : SVec T} {ps : List (Nat × T)} (h : s.Rep ps) (hp : SVec.Packed ps)
    {acts : List (IAct T)}
    (hs : Steady .svec s.l 1 norm acts (fun i _ => rowGet ps i) (ps.map (fun e => (e.1, 0)))) :
    ∃ m' it', Mat.session acts (.svec s) (Mat.svec s).iter =
        .ok (m', it', delivered norm acts (fun i _ => rowGet ps i) (ps.map (fun e => (e.1, 0)))) ∧
      (∀ i : Nat, i < s.l → m'.at' i 0 =
        .ok (tableAfter norm acts (fun i _ => rowGet ps i) (ps.map (fun e => (e.1, 0))) i 0, m')) ∧
      (it'.hasNext = true ↔
        (delivered norm acts (fun i _ => rowGet ps i) (ps.map (fun e => (e.1, 0)))).length < ps.length) := by
  have hm : Mat.MapAt (.svec s) (Mat.svec s).iter (SVec.entries ps) :=
    ⟨ps, 0, h, hp, rfl, by simp [SVec.iter, h.values], by omega, by simp⟩
  have hpl : placesOf (SVec.entries ps) = ps.map (fun e => (e.1, 0)) := by simp [placesOf, SVec.entries]
  rw [← hpl] at hs ⊢
  obtain ⟨m', it', rest', g1, g2, g3, g4, g5⟩ := session_steady (kp := norm) acts (.svec s) (Mat.svec s).iter _
    (fun i _ => rowGet ps i) hm rfl rfl (fun _ => rfl)
    (fun i j hi hj => by
      obtain rfl : j = 0 := by simp [Mat.cols] at hj; omega
      rw [Mat.val_svec h hi, hp.get]) hs
  refine ⟨m', it', g1, ?_, ?_⟩
  · intro i hi
    rw [← g4 i 0 hi (by simp [Mat.cols])]
    exact Mat.at_ok g2.wf (by rw [g3.2.1]; exact hi) (by rw [g3.2.2]; simp [Mat.cols])
  · have hl : (SVec.entries ps).length = ps.length := by simp [SVec.entries]
    rw [hl] at g5
    cases rest' with
    | nil => rw [g2.nil]; simp at g5; simp [g5]
    | cons e rest' =>
      rw [g2.cons.1]
      simp only [List.length_cons] at g5
      simp; omega

/-- The writes of the session are in range. -/
def WritesIn (r c : Nat) (acts : List (IAct T)) : Prop := ∀ i j v, IAct.set i j v ∈ acts → i < r ∧ j < c

theorem steady_dense {k : Kind} (hk : k = .dense ∨ k = .dvec) {r c : Nat} {kp : T → T} :
    ∀ {acts : List (IAct T)} {t : Nat → Nat → T} {ps : List (Nat × Nat)}, WritesIn r c acts → Steady k r c kp acts t ps
  | [], _, _, _ => trivial
  | .set i j v :: as, _, _, h =>
    ⟨(h i j v (by simp)).1, (h i j v (by simp)).2, hk.imp_right Or.inl,
      steady_dense hk (fun a b x hx => h a b x (by simp [hx]))⟩
  | .next :: as, _, _, h => steady_dense hk (acts := as) (fun a b x hx => h a b x (by simp [hx]))
  | .map _ :: as, _, [], h => steady_dense hk (acts := as) (fun a b x hx => h a b x (by simp [hx]))
  | .map _ :: as, _, _ :: _, h =>
    ⟨hk.imp_right Or.inl, steady_dense hk (acts := as) (fun a b x hx => h a b x (by simp [hx]))⟩

/-- C76 for dense matrices and vectors, every session whose writes are in range: the cells come row
by row, each with its value at that moment. -/
theorem C76_dense {m : Mat T} (h : Reach m) (hk : m.kind = .dense ∨ m.kind = .dvec) {acts : List (IAct T)}
    (hs : WritesIn m.rows m.cols acts) :
    let ps := (List.range (m.rows * m.cols)).map (fun n => (n / m.cols, n % m.cols))
    ∃ m' it', Mat.session acts m m.iter = .ok (m', it', delivered id acts m.val ps) ∧
      (∀ i j : Nat, i < m.rows → j < m.cols → m'.at' i j = .ok (tableAfter id acts m.val ps i j, m')) ∧
      (it'.hasNext = true ↔ (delivered id acts m.val ps).length < m.rows * m.cols) := by
  intro ps
  have hw := h.wf (by rcases hk with hk | hk <;> rw [hk] <;> simp)
  have hkeep : m.keep = id := by
    funext v; unfold Mat.keep; rcases hk with hk | hk <;> rw [hk] <;> rfl
  have key : ∃ es, Yields Mat.Iter.hasNext m.step m.iter es ∧ placesOf es = ps ∧ es.length = m.rows * m.cols := by
    cases m with
    | csr s => simp [Mat.kind] at hk
    | csc s => simp [Mat.kind] at hk
    | svec s => simp [Mat.kind] at hk
    | dense s =>
      have hm : Mat.MapAt (.dense s) (Mat.dense s).iter s.entries :=
        ⟨hw, 0, Dense.iter_init s, by omega, by simp⟩
      refine ⟨_, hm.yields, ?_, ?_⟩
      · simp [placesOf, Dense.entries, ps, Mat.rows, Mat.cols]
      · simp [Dense.entries, Mat.rows, Mat.cols]
    | dvec s =>
      have hm : Mat.MapAt (.dvec s) (Mat.dvec s).iter s.entries :=
        ⟨hw, 0, DVec.iter_init s, by omega, by simp⟩
      refine ⟨_, hm.yields, ?_, ?_⟩
      · simp [placesOf, DVec.entries, ps, Mat.rows, Mat.cols, Nat.mod_one]
      · simp [DVec.entries, Mat.rows, Mat.cols]
  obtain ⟨es, h1, h2, h3⟩ := key
  have := C76_core hw h1 (acts := acts) (by rw [h2]; exact steady_dense hk hs)
  obtain ⟨m', it', g1, -, -, -, g2, g3⟩ := this
  rw [h2, hkeep] at g1 g2 g3
  rw [h3] at g3
  exact ⟨m', it', g1, g2, g3⟩

/-- Whatever `Set` calls come in between, an iterator that only reads delivers at most as many
entries as were stored when it was made, and `HasNext` is true until it has delivered that many. -/
theorem C76_at_most : ∀ (acts : List (IAct T)) {m : Mat T}, Reach m → (∀ a ∈ acts, a.reads = true) →
    ∀ {m' : Mat T} {it' : Mat.Iter} {es : List (Nat × Nat × T)}, Mat.session acts m m.iter = .ok (m', it', es) →
    es.length ≤ m.nvalues ∧ (it'.hasNext = true ↔ es.length < m.nvalues) ∧ Reach m' := by
  have key : ∀ (acts : List (IAct T)) {m : Mat T} {it : Mat.Iter}, Reach m → (∀ a ∈ acts, a.reads = true) →
      it.Sane → ∀ {m' : Mat T} {it' : Mat.Iter} {es : List (Nat × Nat × T)},
      Mat.session acts m it = .ok (m', it', es) → it'.last = it.last + es.length ∧ it'.size = it.size ∧
        (it.last ≤ it.size → it'.last ≤ it'.size) ∧ Reach m' := by
    intro acts
    induction acts with
    | nil =>
      intro m it hr _ _ m' it' es h
      simp only [Mat.session] at h
      injection h with h; injection h with h1 h; injection h with h2 h3
      subst h1 h2 h3
      exact ⟨rfl, rfl, id, hr⟩
    | cons a as ih =>
      intro m it hr ha hs m' it' es h
      have ha' : ∀ a ∈ as, a.reads = true := fun x hx => ha x (by simp [hx])
      cases a with
      | map f => simpa [IAct.reads] using ha (.map f) (by simp)
      | set i j v =>
        simp only [Mat.session] at h
        cases h1 : m.set i j v with
        | panic => simp [h1] at h
        | hang => simp [h1] at h
        | ok m1 =>
          simp only [h1, Out.ok_bind] at h
          have hr1 : Reach m1 := Reach.call (.set i j v) hr h1
          obtain ⟨g1, g2, g3, g4⟩ := ih hr1 ha' hs h
          exact ⟨g1, g2, g3, g4⟩
      | next =>
        simp only [Mat.session] at h
        by_cases hn : it.hasNext = true
        · rw [if_pos hn] at h
          cases h1 : m.step it with
          | panic => simp [h1] at h
          | hang => simp [h1] at h
          | ok x =>
            obtain ⟨it1, e⟩ := x
            simp only [h1, Out.ok_bind] at h
            obtain ⟨c1, c2, c3⟩ := Mat.step_counts (fun hk => hr.wf hk) h1 hs
            cases h2 : Mat.session as m it1 with
            | panic => simp [h2] at h
            | hang => simp [h2] at h
            | ok y =>
              obtain ⟨m2, it2, es2⟩ := y
              simp only [h2, Out.ok_bind] at h
              injection h with h; injection h with e1 h; injection h with e2 e3
              subst e1 e2 e3
              obtain ⟨g1, g2, g3, g4⟩ := ih hr ha' c1 h2
              rw [Mat.Iter.hasNext_eq] at hn
              simp only [decide_eq_true_eq] at hn
              exact ⟨by simp; omega, by omega, fun _ => g3 (by omega), g4⟩
        · rw [if_neg hn] at h
          exact ih hr ha' hs h
  intro acts m hr ha m' it' es h
  obtain ⟨s1, s2, s3⟩ := m.iter_start
  obtain ⟨g1, g2, g3, g4⟩ := key acts hr ha s3 h
  have := g3 (by omega)
  rw [Mat.Iter.hasNext_eq]
  refine ⟨by omega, ?_, g4⟩
  simp only [decide_eq_true_eq]
  omega

/-- So when the `Set` calls of the session leave a compressed matrix with more non-zero cells than it
had, the iterator misses a non-zero cell: no matter when the calls came, and even if it is asked
until `HasNext` is false. -/
theorem C76_missed {acts : List (IAct T)} {m : Mat T} (h : Reach m) (ha : ∀ a ∈ acts, a.reads = true)
    {m' : Mat T} {it' : Mat.Iter} {es : List (Nat × Nat × T)}
    (hs : Mat.session acts m m.iter = .ok (m', it', es)) (hk : m'.kind = .csr ∨ m'.kind = .csc)
    (hn : m.nvalues < m'.nvalues) :
    ∃ i j : Nat, ∃ v, i < m'.rows ∧ j < m'.cols ∧ m'.at' i j = .ok (v, m') ∧ isZero v = false ∧ (i, j) ∉ placesOf es := by
  obtain ⟨h1, -, h2⟩ := C76_at_most acts h ha hs
  have hw := h2.wf (by rcases hk with hk | hk <;> rw [hk] <;> simp)
  obtain ⟨es', -, g2, g3, -, g5⟩ := Mat.entries_ok hw
  have g5 := g5 (by rcases hk with hk | hk <;> rw [hk] <;> simp)
  by_contra hcon
  push Not at hcon
  have hnd : (placesOf es').Nodup := by
    unfold placesOf
    rw [List.Nodup, List.pairwise_map]
    exact g2.distinct.imp (fun hab he => hab (by simpa using he))
  have hsub : ∀ p ∈ placesOf es', p ∈ placesOf es := by
    intro p hp
    obtain ⟨e, he, rfl⟩ := List.mem_map.1 hp
    obtain ⟨hi, hj⟩ := g2.range e he
    refine hcon e.1 e.2.1 e.2.2 hi hj ?_ (g5 e he)
    rw [Mat.at_ok hw hi hj, g2.value e he]
  have := (List.subperm_of_subset hnd hsub).length_le
  simp only [placesOf, List.length_map] at this
  omega

/-- C76 in full: a session delivers right whatever in-range cells it writes. -/
def LiveRight (T : Type) [GoNum T] (k : Kind) : Prop := ∀ (m : Mat T) (es : List (Nat × Nat × T)) (acts : List (IAct T)),
  Reach m → m.kind = k → Yields Mat.Iter.hasNext m.step m.iter es → (∀ i j v, IAct.set i j v ∈ acts → i < m.rows ∧ j < m.cols) →
  ∃ m' it' ds, Mat.session acts m m.iter = .ok (m', it', ds) ∧
    (it'.hasNext = false → ∀ i j v, i < m'.rows → j < m'.cols → m'.at' i j = .ok (v, m') → v ≠ 0 → (i, j) ∈ placesOf ds)

/-- The CSR matrix `[[1,2,3],[0,4,0],[5,0,6]]`. -/
def liveCSR : CSR ℤ := ⟨3, 3, [1, 2, 3, 4, 5, 6], [0, 1, 2, 1, 0, 2], [0, 3, 4, 6]⟩
/-- The CSC matrix `[[1,0,5],[2,4,0],[3,0,6]]`. -/
def liveCSC : CSC ℤ := ⟨3, 3, [1, 2, 3, 4, 5, 6], [0, 1, 2, 1, 0, 2], [0, 3, 4, 6]⟩

theorem liveCSR_reach : Reach (.csr liveCSR) :=
  Reach.arrCSR (data := [[1, 2, 3], [0, 4, 0], [5, 0, 6]]) (c := 3) (by unfold Rect; simp) (by kernel_rfl)

theorem liveCSC_reach : Reach (.csc liveCSC) :=
  Reach.arrCSC (data := [[1, 0, 5], [2, 4, 0], [3, 0, 6]]) (c := 3) (by unfold Rect; simp) (by kernel_rfl)

/-- C76 fails for the compressed formats: setting a cell of the current line to zero makes a later
`Next` loop for ever, whether the cell has been delivered or not. -/
theorem C76_refuted : ¬ LiveRight ℤ .csr ∧ ¬ LiveRight ℤ .csc := by
  refine ⟨fun h => ?_, fun h => ?_⟩
  · obtain ⟨es, h1, -⟩ := Mat.entries_ok (liveCSR_reach.wf (by decide))
    obtain ⟨m', it', ds, g, -⟩ := h (.csr liveCSR) es [.next, .set 0 1 0, .next, .next] liveCSR_reach rfl h1.yields
      (by intro i j v hv; simp at hv; obtain ⟨rfl, rfl, -⟩ := hv; decide)
    have e : Mat.session [.next, .set 0 1 0, .next, .next] (.csr liveCSR) (Mat.csr liveCSR).iter = .hang := by kernel_rfl
    rw [e] at g; cases g
  · obtain ⟨es, h1, -⟩ := Mat.entries_ok (liveCSC_reach.wf (by decide))
    obtain ⟨m', it', ds, g, -⟩ := h (.csc liveCSC) es [.next, .set 1 0 0, .next, .next] liveCSC_reach rfl h1.yields
      (by intro i j v hv; simp at hv; obtain ⟨rfl, rfl, -⟩ := hv; decide)
    have e : Mat.session [.next, .set 1 0 0, .next, .next] (.csc liveCSC) (Mat.csc liveCSC).iter = .hang := by kernel_rfl
    rw [e] at g; cases g

/-- The same when the cell zeroed has already been delivered. -/
theorem C76_refuted_delivered :
    Mat.session [.next, .next, .set 0 0 0, .next] (.csr liveCSR) (Mat.csr liveCSR).iter = .hang := by kernel_rfl

/-- A cell that becomes non-zero: the enumeration ends one entry early, and `(2,2)`, which was there
all the time, is never delivered. -/
theorem C76_refuted_insert : ∃ m' it', Mat.session (.next :: .set 2 1 9 :: List.replicate 8 .next) (.csr liveCSR) (Mat.csr liveCSR).iter =
    .ok (m', it', [(0, 0, 1), (0, 1, 2), (0, 2, 3), (1, 1, 4), (2, 0, 5), (2, 1, 9)]) ∧ it'.hasNext = false ∧
    m'.at' 2 2 = .ok (6, m') := by
  refine ⟨.csr ⟨3, 3, [1, 2, 3, 4, 5, 9, 6], [0, 1, 2, 1, 0, 1, 2], [0, 3, 4, 7]⟩, .csr ⟨6, 6, 1, 2, 2, 5, 6, 7⟩, ?_, ?_, ?_⟩
  all_goals kernel_rfl

/-- A session that writes ahead of the iterator, behind it, and by `Map`. -/
def liveActs : List (IAct ℤ) :=
  [.next, .set 0 1 7, .set 0 0 8, .set 1 0 0, .next, .map (fun _ _ v => v + 1), .set 2 2 9, .next, .next, .next]

/-- The entries of `liveCSR`. -/
def liveEntries : List (Nat × Nat × ℤ) := [(0, 0, 1), (0, 1, 2), (0, 2, 3), (1, 1, 4), (2, 0, 5), (2, 2, 6)]

/-- `C76_steady_partial` on that session over a CSR matrix. -/
example : ∃ m' it', Mat.session liveActs (.csr liveCSR) (Mat.csr liveCSR).iter =
      .ok (m', it', [(0, 0, 1), (0, 1, 7), (0, 2, 3), (1, 1, 4), (2, 0, 5), (2, 2, 9)]) ∧
    m'.kind = .csr ∧ (∀ i j : Nat, i < 3 → j < 3 → m'.at' i j = .ok (arr [[8, 7, 4], [0, 4, 0], [5, 0, 9]] i j, m')) ∧
    it'.hasNext = false := by
  have hy : Yields Mat.Iter.hasNext (Mat.csr liveCSR).step (Mat.csr liveCSR).iter liveEntries :=
    ⟨rfl, _, rfl, rfl, _, rfl, rfl, _, rfl, rfl, _, rfl, rfl, _, rfl, rfl, _, rfl, rfl⟩
  obtain ⟨m', it', g1, g2, -, -, g3, g4⟩ := C76_steady_partial liveCSR_reach (by decide) hy (acts := liveActs)
    (by refine ⟨by decide, by decide, Or.inr (Or.inr (by kernel_rfl)), by decide, by decide, Or.inr (Or.inr (by kernel_rfl)),
          by decide, by decide, Or.inr (Or.inr (by kernel_rfl)), Or.inr (Or.inr (by kernel_rfl)), by decide, by decide, Or.inr (Or.inr (by kernel_rfl)), trivial⟩)
  have e : delivered (Mat.csr liveCSR).keep liveActs (Mat.csr liveCSR).val (placesOf liveEntries) =
      [(0, 0, 1), (0, 1, 7), (0, 2, 3), (1, 1, 4), (2, 0, 5), (2, 2, 9)] := by kernel_rfl
  rw [e] at g1 g4
  refine ⟨m', it', g1, g2, ?_, ?_⟩
  · intro i j hi hj
    rw [g3 i j hi hj]
    have key : ∀ i < 3, ∀ j < 3, tableAfter (Mat.csr liveCSR).keep liveActs (Mat.csr liveCSR).val (placesOf liveEntries) i j =
      arr [[8, 7, 4], [0, 4, 0], [5, 0, 9]] i j := by decide +kernel
    rw [key i hi j hj]
  · rw [← Bool.not_eq_true, g4]; decide

/-- `C76_missed` on the session of `C76_refuted_insert`. -/
example : ∃ i j : Nat, ∃ v : ℤ, (i, j) ∉ placesOf [(0, 0, (1 : ℤ)), (0, 1, 2), (0, 2, 3), (1, 1, 4), (2, 0, 5), (2, 1, 9)] ∧ isZero v = false := by
  have e : Mat.session (.next :: .set 2 1 9 :: List.replicate 8 .next) (.csr liveCSR) (Mat.csr liveCSR).iter =
    .ok (.csr ⟨3, 3, [1, 2, 3, 4, 5, 9, 6], [0, 1, 2, 1, 0, 1, 2], [0, 3, 4, 7]⟩, .csr ⟨6, 6, 1, 2, 2, 5, 6, 7⟩,
      [(0, 0, 1), (0, 1, 2), (0, 2, 3), (1, 1, 4), (2, 0, 5), (2, 1, 9)]) := by kernel_rfl
  obtain ⟨i, j, v, -, -, -, h1, h2⟩ := C76_missed liveCSR_reach (by simp [IAct.reads]) e (Or.inl rfl) (by decide)
  exact ⟨i, j, v, h2, h1⟩

/-- `C76_dense`, with writes to and from zero. -/
example : ∃ (m' : Mat ℤ) (it' : Mat.Iter), Mat.session [.next, .set 0 1 0, .set 1 0 5, .next, .map (fun _ _ _ => 0), .next, .next]
      (.dense ⟨2, 2, [[1, 2], [0, 4]]⟩) (Mat.dense (T := ℤ) ⟨2, 2, [[1, 2], [0, 4]]⟩).iter =
      .ok (m', it', [(0, 0, 1), (0, 1, 0), (1, 0, 5), (1, 1, 4)]) := by
  obtain ⟨m', it', g, -⟩ := C76_dense (m := .dense (T := ℤ) ⟨2, 2, [[1, 2], [0, 4]]⟩)
    (Reach.arrDense (data := [[1, 2], [0, 4]]) (c := 2) (by unfold Rect; simp) (by kernel_rfl)) (Or.inl rfl)
    (acts := [.next, .set 0 1 0, .set 1 0 5, .next, .map (fun _ _ _ => 0), .next, .next])
    (by intro i j v hv; simp at hv; rcases hv with ⟨rfl, rfl, -⟩ | ⟨rfl, rfl, -⟩ <;> decide)
  exact ⟨m', it', g⟩

/-- `C76_sparse_vector_partial`. -/
example : ∃ (m' : Mat ℤ) (it' : Mat.Iter), Mat.session [.next, .set 1 0 9, .next, .next] (.svec ⟨3, [7, 8], [0, 1]⟩) (Mat.svec (T := ℤ) ⟨3, [7, 8], [0, 1]⟩).iter =
      .ok (m', it', [(0, 0, 7), (1, 0, 9)]) := by
  obtain ⟨m', it', g, -⟩ := C76_sparse_vector_partial (s := (⟨3, [7, 8], [0, 1]⟩ : SVec ℤ)) (ps := [(0, 7), (1, 8)])
    ⟨rfl, rfl, by simp [RowSorted], by simp, by decide⟩ (by simp [SVec.Packed]) (acts := [.next, .set 1 0 9, .next, .next])
    ⟨by decide, by decide, Or.inr (Or.inr (by kernel_rfl)), trivial⟩
  exact ⟨m', it', g⟩

end GB
