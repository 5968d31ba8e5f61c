import Verif.Lemmas.SVecEntries
import Verif.Lemmas.Ordered
import Verif.Lemmas.Reduce2
import Verif.Props.Access
import Verif.Props.Storage
import Verif.Props.Local
import Verif.SpecLive
import Mathlib.Data.List.Perm.Basic

/-!
# An object does not remember how it came about (C100)
-/

namespace GB

set_option linter.unusedSectionVars false

section general

variable {T : Type} [GoNum T] [GoStore T]

/-- Two objects look alike: one type, one shape; `At` answers the same everywhere. For sparse vectors, whose
`At` misses entries (C04), `Enumerate` delivers the same. -/
def Mat.LooksLike (a b : Mat T) : Prop :=
  a.kind = b.kind ∧ a.rows = b.rows ∧ a.cols = b.cols ∧
  (a.kind ≠ .svec → ∀ i j : Nat, i < a.rows → j < a.cols → ∃ v, a.at' i j = .ok (v, a) ∧ b.at' i j = .ok (v, b)) ∧
  (a.kind = .svec → ∃ es, Yields Mat.Iter.hasNext a.step a.iter es ∧ Yields Mat.Iter.hasNext b.step b.iter es)

theorem yields_svec_lists {s : SVec T} {es : List (Nat × Nat × T)} (hw : s.Weak)
    (h : Yields Mat.Iter.hasNext (Mat.svec s).step (Mat.svec s).iter es) :
    s.indices = es.map (·.1) ∧ s.values = es.map (·.2.2) := by
  have h' : Yields Mat.Iter.hasNext (Mat.svec s).step (Mat.svec s).iter (s.pairs.map (fun e => (e.1, 0, e.2))) :=
    Mat.svec_yields _ _ (SVec.Weak.yields hw)
  rw [h.unique h', List.map_map, List.map_map]
  exact ⟨hw.map_fst.symm, hw.map_snd.symm⟩

/-- C100. Two objects that look alike are the same in every field, whatever constructors and calls, in
whatever order, led to them. So no method and no iterator can tell them apart, now or later. -/
theorem C100_same {a b : Mat T} (ha : Reach a) (hb : Reach b) (h : a.LooksLike b) : a = b := by
  obtain ⟨hk, hr, hc, h1, h2⟩ := h
  by_cases hs : a.kind = .svec
  · cases a <;> simp only [Mat.kind, reduceCtorEq] at hs
    cases b <;> simp only [Mat.kind, reduceCtorEq] at hk
    rename_i s t
    obtain ⟨es, e1, e2⟩ := h2 rfl
    obtain ⟨f1, f2⟩ := yields_svec_lists ha.weak e1
    obtain ⟨g1, g2⟩ := yields_svec_lists hb.weak e2
    replace hr : s.l = t.l := hr
    cases s; cases t
    simp only at f1 f2 g1 g2 hr
    rw [f1, f2, g1, g2, hr]
  · refine Mat.ext' (ha.wf hs) (hb.wf (hk ▸ hs)) ⟨hk, hr, hc⟩ (fun i j hi hj => ?_)
    obtain ⟨v, k1, k2⟩ := h1 hs i j hi hj
    rw [Mat.at_ok (ha.wf hs) hi hj] at k1
    rw [Mat.at_ok (hb.wf (hk ▸ hs)) (hr ▸ hi) (hc ▸ hj)] at k2
    injection k1 with k1; injection k2 with k2
    rw [(Prod.mk.inj k1).1, (Prod.mk.inj k2).1]

/-- C100, spelled out: whatever a client does next with two objects that look alike — calls of `Set`,
`Update`, `Clear`, `At`, `Element` in any order, or a session with an iterator, writes in between — it
sees the same and is left with objects in the same state. -/
theorem C100_client {a b : Mat T} (ha : Reach a) (hb : Reach b) (h : a.LooksLike b) :
    (∀ ops, a.run ops = b.run ops) ∧ (∀ acts, a.session acts a.iter = b.session acts b.iter) ∧
    a.nvalues = b.nvalues ∧ a.copy = b.copy ∧
    (∀ i, a.rowsAtToArray i = b.rowsAtToArray i) := by
  obtain rfl := C100_same ha hb h
  exact ⟨fun _ => rfl, fun _ => rfl, rfl, rfl, fun _ => rfl⟩

/-- C100 for the operators: run one call in two programs whose operands, outputs and masks look alike,
pair by pair (`σ` says which object of the second program corresponds to which of the first); everything
else may differ. Both calls return, or panic, or keep running, with the same contents in
corresponding objects and the context polled equally often. -/
theorem C100_operators (call : OpCall T) (mask : Mask) (out : Ref) {σ : Ref → Ref} {w1 w2 : World T}
    (hσ : ∀ p q, call.objects mask out p → call.objects mask out q → σ p = σ q → p = q)
    (h1 : ∀ p, call.objects mask out p → Reach (w1.heap p) ∧ Reach (w2.heap (σ p)) ∧
      (w2.heap (σ p)).LooksLike (w1.heap p))
    (hc : w1.cancel = w2.cancel) (hr : w1.reg = w2.reg) (hg : w1.gas = w2.gas) :
    (call.run mask out w1).Alike (AgreeOn (call.objects mask out) σ)
      ((call.rename σ).run (mask.rename σ) (σ out) w2) :=
  C57_local call mask out hσ ⟨fun p hp => C100_same (h1 p hp).2.1 (h1 p hp).1 (h1 p hp).2.2, hc, hr, hg⟩

/-! ## The order of writes -/

/-- `Set` calls, one for each entry of a list. -/
def setAll (es : List (Nat × Nat × T)) : List (Op T) := es.map (fun e => .set e.1 e.2.1 e.2.2)

/-- No position twice. -/
def Apart (es : List (Nat × Nat × T)) : Prop := es.Pairwise (fun a b => ¬ (a.1 = b.1 ∧ a.2.1 = b.2.1))

theorem specRun_setAll_miss (keep : T → T) (es : List (Nat × Nat × T)) (f : Nat → Nat → T) {i j : Nat}
    (h : ∀ e ∈ es, ¬ (e.1 = i ∧ e.2.1 = j)) : specRun keep f (setAll es) i j = f i j := by
  refine specRun_untouched keep _ f i j (fun o ho => ?_)
  simp only [setAll, List.mem_map] at ho
  obtain ⟨e, he, rfl⟩ := ho
  exact h e he

theorem specRun_setAll_hit (keep : T → T) {es : List (Nat × Nat × T)} (hd : Apart es) (f : Nat → Nat → T)
    {e : Nat × Nat × T} (he : e ∈ es) : specRun keep f (setAll es) e.1 e.2.1 = keep e.2.2 := by
  induction es generalizing f with
  | nil => cases he
  | cons x es ih =>
    have hd' := List.pairwise_cons.1 hd
    have e1 : specRun keep f (setAll (x :: es)) = specRun keep (put2 f x.1 x.2.1 (keep x.2.2)) (setAll es) := rfl
    rw [e1]
    rcases List.mem_cons.1 he with rfl | he
    · rw [specRun_setAll_miss keep es _ (fun a ha hab => hd'.1 a ha ⟨hab.1.symm, hab.2.symm⟩)]
      simp [put2]
    · exact ih hd'.2 _ he

theorem Apart.perm {xs ys : List (Nat × Nat × T)} (h : Apart xs) (hp : xs.Perm ys) : Apart ys :=
  hp.pairwise h (fun hab hba => hab ⟨hba.1.symm, hba.2.symm⟩)

theorem setAll_inRange {r c : Nat} {es : List (Nat × Nat × T)} (h : ∀ e ∈ es, e.1 < r ∧ e.2.1 < c) :
    ∀ o ∈ setAll es, o.InRange r c := by
  intro o ho
  simp only [setAll, List.mem_map] at ho
  obtain ⟨e, he, rfl⟩ := ho
  exact h e he

/-- C100, histories: from one matrix or dense vector, two histories of calls that leave the same table
leave the same object. -/
theorem C100_histories {m : Mat T} (h : Reach m) (hk : m.kind ≠ .svec) (ops ops' : List (Op T))
    (ho : ∀ o ∈ ops, o.InRange m.rows m.cols) (ho' : ∀ o ∈ ops', o.InRange m.rows m.cols)
    {val : Nat → Nat → T} (hv : ∀ i j : Nat, i < m.rows → j < m.cols → m.at' i j = .ok (val i j, m))
    (he : ∀ i j, i < m.rows → j < m.cols → specRun m.keep val ops i j = specRun m.keep val ops' i j) :
    ∃ m', m.run ops = .ok m' ∧ m.run ops' = .ok m' := by
  have hw := h.wf hk
  have hv' : ∀ i j, i < m.rows → j < m.cols → m.val i j = val i j := by
    intro i j hi hj
    have := hv i j hi hj
    rw [Mat.at_ok hw hi hj] at this
    injection this with this
    exact (Prod.mk.inj this).1
  obtain ⟨a, a1, a2, a3, a4⟩ := Mat.run_ok ops hw hk ho hv'
  obtain ⟨b, b1, b2, b3, b4⟩ := Mat.run_ok ops' hw hk ho' hv'
  have : a = b := by
    refine Mat.ext' a2 b2 ⟨a3.1.trans b3.1.symm, a3.2.1.trans b3.2.1.symm, a3.2.2.trans b3.2.2.symm⟩ (fun i j hi hj => ?_)
    rw [a3.2.1] at hi; rw [a3.2.2] at hj
    rw [a4 i j hi hj, b4 i j hi hj, he i j hi hj]
  exact ⟨a, a1, this ▸ b1⟩

/-- C100, the order of writes: `Set` calls at different positions may be made in any order. -/
theorem C100_order {m : Mat T} (h : Reach m) (hk : m.kind ≠ .svec) {xs ys : List (Nat × Nat × T)}
    (hp : xs.Perm ys) (hd : Apart xs) (hr : ∀ e ∈ xs, e.1 < m.rows ∧ e.2.1 < m.cols) :
    ∃ m', m.run (setAll xs) = .ok m' ∧ m.run (setAll ys) = .ok m' := by
  have hw := h.wf hk
  refine C100_histories h hk _ _ (setAll_inRange hr) (setAll_inRange (fun e he => hr e (hp.mem_iff.2 he)))
    (fun i j hi hj => Mat.at_ok hw hi hj) (fun i j _ _ => ?_)
  by_cases hx : ∃ e ∈ xs, e.1 = i ∧ e.2.1 = j
  · obtain ⟨e, he, rfl, rfl⟩ := hx
    rw [specRun_setAll_hit _ hd _ he, specRun_setAll_hit _ (hd.perm hp) _ (hp.mem_iff.1 he)]
  · have hn : ∀ e ∈ xs, ¬ (e.1 = i ∧ e.2.1 = j) := fun e he hab => hx ⟨e, he, hab⟩
    rw [specRun_setAll_miss _ _ _ hn, specRun_setAll_miss _ _ _ (fun e he => hn e (hp.mem_iff.2 he))]

/-- C100, rebuilding: enter what `Enumerate` delivers, in any order, into an object of the same type and shape
whose cells are all zero. The result is the object enumerated. -/
theorem C100_rebuild {m fresh : Mat T} (h : Reach m) (hf : Reach fresh) (hk : m.kind ≠ .svec)
    (hs : fresh.kind = m.kind ∧ fresh.rows = m.rows ∧ fresh.cols = m.cols)
    (h0 : ∀ i j : Nat, i < m.rows → j < m.cols → fresh.at' i j = .ok (0, fresh))
    {es ys : List (Nat × Nat × T)} (he : Yields Mat.Iter.hasNext m.step m.iter es) (hp : es.Perm ys) :
    fresh.run (setAll ys) = .ok m := by
  have hw := h.wf hk
  have hfw := hf.wf (hs.1 ▸ hk)
  obtain ⟨es', g1, g2, -, g4, g5⟩ := Mat.entries_ok hw
  obtain rfl := he.unique g1.yields
  have hd : Apart ys := Apart.perm g2.distinct hp
  have hr : ∀ e ∈ ys, e.1 < fresh.rows ∧ e.2.1 < fresh.cols := by
    intro e hey
    rw [hs.2.1, hs.2.2]
    exact g2.range e (hp.mem_iff.2 hey)
  obtain ⟨a, a1, a2, a3, a4⟩ := Mat.run_ok (setAll ys) (f := fun _ _ => 0) hfw (hs.1 ▸ hk) (setAll_inRange hr) (by
    intro i j hi hj
    have := h0 i j (hs.2.1 ▸ hi) (hs.2.2 ▸ hj)
    rw [Mat.at_ok hfw hi hj] at this
    injection this with this
    exact (Prod.mk.inj this).1)
  have hkeep : ∀ e ∈ es, fresh.keep e.2.2 = e.2.2 := by
    intro e hee
    unfold Mat.keep
    rw [hs.1]
    cases hkk : m.kind with
    | dense => rfl
    | dvec => rfl
    | svec => exact absurd hkk hk
    | csr =>
      have := g5 (by rw [hkk]; simp) e hee
      simp [norm, this]
    | csc =>
      have := g5 (by rw [hkk]; simp) e hee
      simp [norm, this]
  have : a = m := by
    refine Mat.ext' a2 hw ⟨a3.1.trans hs.1, a3.2.1.trans hs.2.1, a3.2.2.trans hs.2.2⟩ (fun i j hi hj => ?_)
    have hi' : i < m.rows := by rw [← hs.2.1, ← a3.2.1]; exact hi
    have hj' : j < m.cols := by rw [← hs.2.2, ← a3.2.2]; exact hj
    rw [a4 i j (hs.2.1.symm ▸ hi') (hs.2.2.symm ▸ hj')]
    by_cases hx : ∃ e ∈ es, e.1 = i ∧ e.2.1 = j
    · obtain ⟨e, hee, rfl, rfl⟩ := hx
      rw [specRun_setAll_hit _ hd _ (hp.mem_iff.1 hee), hkeep e hee, g2.value e hee]
    · rw [specRun_setAll_miss _ _ _ (fun e hey hab => hx ⟨e, hp.mem_iff.2 hey, hab⟩)]
      by_contra hne
      exact hx ⟨_, g2.complete i j hi' hj' (fun h => hne h.symm), rfl, rfl⟩
  rw [a1, this]

end general

/-! ## Sparse vectors, and examples -/

/-- Sparse vectors that only agree on `At` may differ: `At` misses an entry that `Enumerate` delivers. -/
theorem C100_refuted_sparse_vector : ∃ a b : SVec ℤ, Reach (.svec a) ∧ Reach (.svec b) ∧ a.l = b.l ∧
    (∀ i : Nat, i < a.l → ∃ v, (Mat.svec a).at' i 0 = .ok (v, .svec a) ∧ (Mat.svec b).at' i 0 = .ok (v, .svec b)) ∧
    (Mat.svec a).nvalues ≠ (Mat.svec b).nvalues := by
  refine ⟨SVec.new 3, { l := 3, values := [7], indices := [2] }, .newSVec 3, ?_, rfl, ?_, ?_⟩
  · exact .call (m := .svec (SVec.new 3)) (.set 2 0 7) (.newSVec 3) (by decide +kernel)
  · intro i hi
    have : i < 3 := hi
    obtain rfl | rfl | rfl : i = 0 ∨ i = 1 ∨ i = 2 := by omega
    all_goals exact ⟨0, by decide +kernel, by decide +kernel⟩
  · decide +kernel

/-- … and for them the order of writes matters. -/
theorem C100_refuted_order : ∃ xs ys : List (Nat × Nat × ℤ), xs.Perm ys ∧ Apart xs ∧ (∀ e ∈ xs, e.1 < 4 ∧ e.2.1 < 1) ∧
    (Mat.svec (SVec.new 4)).run (setAll xs) ≠ (Mat.svec (SVec.new 4)).run (setAll ys) := by
  refine ⟨[(3, 0, 7), (2, 0, 5)], [(2, 0, 5), (3, 0, 7)], List.Perm.swap _ _ _, ?_, ?_, ?_⟩
  · simp [Apart]
  · simp
  · decide +kernel

/-- Different histories, one CSR matrix: in the second some cells are written twice, and a cell is removed. -/
example : (Mat.csr (CSR.new 2 2 : CSR ℤ)).run [.set 1 1 4, .set 0 0 1, .set 0 1 2] =
    (Mat.csr (CSR.new 2 2 : CSR ℤ)).run [.set 0 0 9, .set 1 0 3, .set 0 1 2, .set 1 1 4, .set 1 0 0, .update 0 0 (· - 8)] := by
  decide

/-- Rebuilding a CSC matrix from its entries in reverse order. -/
example : (Mat.csc (CSC.new 2 2 : CSC ℤ)).run (setAll [(1, 1, 4), (0, 1, 2), (0, 0, 1)]) =
    .ok (.csc { r := 2, c := 2, values := [1, 2, 4], rows := [0, 0, 1], colStart := [0, 1, 3] }) := by decide

end GB
