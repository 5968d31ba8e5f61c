import Verif.SpecMapBy
import Verif.Lemmas.LiveIter
import Verif.Lemmas.Ext
import Verif.Lemmas.Ordered

/-!
# Lemmas about `Map` with functions that use the matrix
-/

namespace GB

set_option linter.unusedSectionVars false

variable {T : Type} [GoNum T]

namespace CSR

/-- `Set` that neither creates nor removes an entry moves none. -/
theorem Rep.set_frame [GoStore T] {s : CSR T} {rows : List (List (Nat × T))} (h : Rep s rows) {i j : Nat}
    (hi : i < s.r) (hj : j < s.c) {v : T} (hz : isZero (cellOf rows i j) = isZero v) :
    ∃ s', s.set i j v = .ok s' ∧ s'.cols = s.cols ∧ s'.rowStart = s.rowStart := by
  have hi' : i < rows.length := by rw [h.len]; exact hi
  obtain ⟨L, M, R, old, hs⟩ := rowSplit_exists (h.sorted _ (List.getElem_mem hi')) j
  have hold : cellOf rows i j = old := by rw [h.cell_eq hi, hs.get]
  obtain ⟨s', a, b, h1, h2, h3, h4, h5, h6⟩ := h.updateRP_ok hi hj hs (fun _ => ((), v))
  have hset : s.set i j v = .ok s' := by
    unfold set update updateWith
    simp only [h1, Out.ok_bind]
  rcases hs.mid with ⟨hM, h0⟩ | hM
  · have hv : isZero v = true := by rw [← hz, hold, h0]; exact isZero_zero
    have e := h6 hM hv
    subst e
    exact ⟨s', hset, rfl, rfl⟩
  · have ho : isZero old = false := h.nz _ (List.getElem_mem hi') (j, old) (by rw [hs.eq, hM]; simp)
    have hv : isZero v = false := by rw [← hz, hold]; exact ho
    have e := h5 (by simp [hM]) hv
    exact ⟨s', hset, by rw [e], by rw [e]⟩

theorem skip_congr {s t : CSR T} (h1 : t.cols = s.cols) (h2 : t.rowStart = s.rowStart) :
    ∀ n it, t.skip n it = s.skip n it
  | 0, _ => rfl
  | n + 1, it => by
    unfold skip
    rw [h1, h2]
    simp only [skip_congr h1 h2 n]

theorem walk_congr {s t : CSR T} (h1 : t.cols = s.cols) : ∀ n it, t.walk n it = s.walk n it
  | 0, _ => rfl
  | n + 1, it => by
    unfold walk
    rw [h1]
    simp only [walk_congr h1 n]

theorem next_congr {s t : CSR T} (h1 : t.cols = s.cols) (h2 : t.rowStart = s.rowStart) (it : Iter) : t.next it = s.next it := by
  unfold next
  rw [h1, h2, skip_congr h1 h2]
  simp only [walk_congr h1]

end CSR

namespace Mat

/-- The entries of both lie at the same places in memory. -/
def Frame : Mat T → Mat T → Prop
  | csr s, csr t => t.cols = s.cols ∧ t.rowStart = s.rowStart
  | csc s, csc t => t.rows = s.rows ∧ t.colStart = s.colStart
  | dense s, dense t => t.c = s.c
  | dvec s, dvec t => t.l = s.l
  | svec _, svec _ => True
  | _, _ => False

theorem Frame.rfl' : ∀ (m : Mat T), Frame m m
  | csr _ => ⟨rfl, rfl⟩
  | csc _ => ⟨rfl, rfl⟩
  | dense _ => rfl
  | dvec _ => rfl
  | svec _ => trivial

theorem Frame.trans {a b c : Mat T} (h : Frame a b) (g : Frame b c) : Frame a c := by
  cases a <;> cases b <;> simp only [Frame] at h <;> cases c <;> simp only [Frame] at g ⊢
  · exact ⟨g.1.trans h.1, g.2.trans h.2⟩
  · exact ⟨g.1.trans h.1, g.2.trans h.2⟩
  · exact g.trans h
  · exact g.trans h

theorem Frame.step {m t : Mat T} (h : Frame m t) {it i1 i2 : Iter} {e1 e2 : Nat × Nat × T} (h1 : m.step it = .ok (i1, e1))
    (h2 : t.step it = .ok (i2, e2)) : i2 = i1 := by
  cases m <;> cases t <;> simp only [Frame] at h <;> cases it <;> simp only [Mat.step, reduceCtorEq] at h1 h2
  · rename_i s t it
    simp only [CSR.step, CSR.next_congr h.1 h.2] at h1 h2
    cases hn : s.next it with
    | panic => simp [hn] at h1
    | hang => simp [hn] at h1
    | ok j =>
      simp only [hn, Out.ok_bind] at h1 h2
      cases hx : idx s.values j.index <;> simp [hx] at h1
      cases hy : idx t.values j.index <;> simp [hy] at h2
      rw [← h1.1, ← h2.1]
  · rename_i s t it
    simp only [CSC.step, CSC.next_eq] at h1 h2
    rw [CSR.next_congr (s := CSC.mir s) (t := CSC.mir t) h.1 h.2] at h2
    cases hn : (CSC.mir s).next (CSC.mirIt it) with
    | panic => rw [hn] at h1; cases h1
    | hang => rw [hn] at h1; cases h1
    | ok j =>
      rw [hn] at h1 h2
      have e : (CSC.unmirIt <$> (Out.ok j : Out CSR.Iter)) = .ok (CSC.unmirIt j) := rfl
      rw [e] at h1 h2
      simp only [Out.ok_bind] at h1 h2
      cases hx : idx s.values (CSC.unmirIt j).index <;> simp [hx] at h1
      cases hy : idx t.values (CSC.unmirIt j).index <;> simp [hy] at h2
      rw [← h1.1, ← h2.1]
  · rename_i s t it
    have hn : t.next it = s.next it := by unfold Dense.next; rw [h]
    simp only [Dense.step, hn] at h1 h2
    cases hx : s.at' (s.next it).r (s.next it).cOld <;> simp [hx] at h1
    cases hy : t.at' (s.next it).r (s.next it).cOld <;> simp [hy] at h2
    rw [← h1.1, ← h2.1]
  · rename_i s t it
    have hn : t.next it = s.next it := by unfold DVec.next; rw [h]
    simp only [DVec.step, hn] at h1 h2
    cases hx : s.atVec (s.next it).rOld <;> simp [hx] at h1
    cases hy : t.atVec (s.next it).rOld <;> simp [hy] at h2
    rw [← h1.1, ← h2.1]
  · rename_i s t it
    simp only [SVec.step] at h1 h2
    cases hx : idx s.indices it.next.old <;> simp [hx] at h1
    cases hx' : idx s.values it.next.old <;> simp [hx'] at h1
    cases hy : idx t.indices it.next.old <;> simp [hy] at h2
    cases hy' : idx t.values it.next.old <;> simp [hy'] at h2
    rw [← h1.1, ← h2.1]

variable [GoStore T]

/-- What a format that drops zeros holds is the zero value or not zero. -/
theorem keep_val {m : Mat T} (h : m.WF) {i j : Nat} (hi : i < m.rows) (hj : j < m.cols) : m.keep (m.val i j) = m.val i j := by
  obtain ⟨es, -, g2, -, -, g5⟩ := entries_ok h
  by_cases h0 : m.val i j = 0
  · rw [h0]; unfold keep norm; split <;> simp
  · have hm := g2.complete i j hi hj h0
    unfold keep
    split
    · rfl
    · rfl
    · rename_i k1 k2
      have := g5 ⟨k1, k2⟩ _ hm
      simp only at this
      unfold norm; rw [this]; rfl

theorem set_frame {m m' : Mat T} (h : m.WF) {i j : Nat} (hi : i < m.rows) (hj : j < m.cols) {v : T}
    (hz : Keeps m.kind (m.val i j) v) (hs : Same m' m) (e : m.set i j v = .ok m') : Frame m m' := by
  have hk := hs.1
  cases m <;> cases m' <;> simp only [kind, reduceCtorEq] at hk
  · rename_i s t
    obtain ⟨rows, h⟩ := h
    rw [val_csr h hi hj] at hz
    obtain ⟨s', g1, g2, g3⟩ := h.set_frame hi hj hz
    simp only [set, g1, Out.ok_bind] at e
    injection e with e; injection e with e
    subst e
    exact ⟨g2, g3⟩
  · rename_i s t
    obtain ⟨rows, h⟩ := h
    rw [val_csc h hi hj] at hz
    obtain ⟨s', g1, g2, g3⟩ := CSR.Rep.set_frame (s := CSC.mir s) h (i := j) (j := i) hj hi hz
    have e2 : s.set i j v = .ok (CSC.unmir s') := by rw [CSC.set_eq, g1]; rfl
    simp only [set, e2, Out.ok_bind] at e
    injection e with e; injection e with e
    subst e
    exact ⟨g2, g3⟩
  · exact hs.2.2
  · exact hs.2.1
  · trivial

theorem stored_iff {m : Mat T} (h : m.WF) {i j : Nat} (hi : i < m.rows) (hj : j < m.cols) :
    m.Stored i j ↔ m.kind = .dense ∨ m.kind = .dvec ∨ isZero (m.val i j) = false := by
  unfold Stored
  rw [at_ok h hi hj]
  constructor
  · rintro (h | h | ⟨v, h1, h2⟩)
    · exact Or.inl h
    · exact Or.inr (Or.inl h)
    · injection h1 with h1
      rw [(Prod.mk.inj h1).1]
      exact Or.inr (Or.inr h2)
  · rintro (h | h | h)
    · exact Or.inl h
    · exact Or.inr (Or.inl h)
    · exact Or.inr (Or.inr ⟨_, rfl, h⟩)

/-- The cells of `m` are set to those of `t`, one by one. -/
theorem MapAt.become {t : Mat T} (ht : t.WF) {it : Iter} : ∀ (ps : List (Nat × Nat)) {m : Mat T} {rest : List (Nat × Nat × T)},
    MapAt m it rest → Same t m → (∀ i j, i < m.rows → j < m.cols → Keeps m.kind (m.val i j) (t.val i j)) →
    (∀ p ∈ ps, p.1 < m.rows ∧ p.2 < m.cols) → (∀ i j, i < m.rows → j < m.cols → (i, j) ∉ ps → m.val i j = t.val i j) →
    ∃ rest', MapAt t it rest' ∧ placesOf rest' = placesOf rest ∧ Frame m t
  | [], m, rest, h, hs, _, _, hv => by
    have : m = t := ext' h.wf ht ⟨hs.1.symm, hs.2.1.symm, hs.2.2.symm⟩ (fun i j hi hj => hv i j hi hj (by simp))
    subst this
    exact ⟨rest, h, rfl, Frame.rfl' m⟩
  | p :: ps, m, rest, h, hs, hz, hp, hv => by
    obtain ⟨hi, hj⟩ := hp p (by simp)
    obtain ⟨m', rest', g1, g2, g3, g4⟩ := h.set_live hi hj (hz p.1 p.2 hi hj)
    have hkeep : m.keep (t.val p.1 p.2) = t.val p.1 p.2 := by
      have hit := keep_val ht (i := p.1) (j := p.2) (by rw [hs.2.1]; exact hi) (by rw [hs.2.2]; exact hj)
      unfold keep at hit ⊢
      rw [← hs.1]; exact hit
    rw [hkeep] at g4
    obtain ⟨r, e1, e2, e3⟩ := MapAt.become ht ps g2 ⟨hs.1.trans g4.same.1.symm, hs.2.1.trans g4.same.2.1.symm,
      hs.2.2.trans g4.same.2.2.symm⟩ (by
        intro i j hi' hj'
        rw [g4.same.2.1] at hi'; rw [g4.same.2.2] at hj'
        rw [g4.same.1]
        by_cases he : i = p.1 ∧ j = p.2
        · obtain ⟨rfl, rfl⟩ := he
          rw [g4.hit]; unfold Keeps; split <;> trivial
        · rw [g4.miss i j hi' hj' he]; exact hz i j hi' hj')
      (by
        intro q hq
        rw [g4.same.2.1, g4.same.2.2]
        exact hp q (by simp [hq]))
      (by
        intro i j hi' hj' hn
        rw [g4.same.2.1] at hi'; rw [g4.same.2.2] at hj'
        by_cases he : i = p.1 ∧ j = p.2
        · obtain ⟨rfl, rfl⟩ := he
          exact g4.hit
        · rw [g4.miss i j hi' hj' he]
          refine hv i j hi' hj' ?_
          rw [List.mem_cons, not_or]
          exact ⟨fun h => he ⟨congrArg Prod.fst h, congrArg Prod.snd h⟩, hn⟩)
    exact ⟨r, e1, e2.trans g3, (set_frame h.wf hi hj (hz p.1 p.2 hi hj) g4.same g1).trans e3⟩

/-- An iterator does not notice that its matrix has become another one with the same stored cells. -/
theorem MapAt.other {m t : Mat T} {it : Iter} {rest : List (Nat × Nat × T)} (h : MapAt m it rest) (ht : t.WF) (hs : Same t m)
    (hz : m.kind = .dense ∨ m.kind = .dvec ∨ ∀ i j, i < m.rows → j < m.cols → isZero (m.val i j) = isZero (t.val i j)) :
    ∃ rest', MapAt t it rest' ∧ placesOf rest' = placesOf rest ∧ Frame m t := by
  refine MapAt.become ht m.scan h hs ?_ (fun p hp => mem_scan.1 hp) (fun i j hi hj hn => absurd (mem_scan.2 ⟨hi, hj⟩) hn)
  intro i j hi hj
  unfold Keeps
  rcases hz with hz | hz | hz
  · rw [hz]; trivial
  · rw [hz]; trivial
  · split
    · trivial
    · trivial
    · exact hz i j hi hj

/-- What the iterator has still to deliver is stored. -/
theorem MapAt.stored {m : Mat T} {it : Iter} {e : Nat × Nat × T} {rest : List (Nat × Nat × T)} (h : MapAt m it (e :: rest)) :
    m.kind = .dense ∨ m.kind = .dvec ∨ isZero e.2.2 = false := by
  cases m <;> cases it <;> simp only [MapAt] at h <;> simp only [kind, reduceCtorEq, false_or, true_or, or_true]
  · obtain ⟨rows, k, hr, -, -, he⟩ := h
    exact hr.entries_nz e (List.mem_of_mem_drop (he ▸ List.mem_cons_self))
  · obtain ⟨rows, k, hr, -, -, he⟩ := h
    exact hr.entries_nz e (List.mem_of_mem_drop (he ▸ List.mem_cons_self))
  · obtain ⟨es, k, hr, -, -, -, -, he⟩ := h
    have hm : e ∈ SVec.entries es := List.mem_of_mem_drop (he ▸ List.mem_cons_self)
    obtain ⟨x, hx, rfl⟩ := List.mem_map.1 hm
    exact hr.nz x hx

theorem mapAll_eq {P : Mat T → Prop} (hwf : ∀ m, P m → m.WF)
    (hset : ∀ (m u : Mat T) (i j : Nat) (x : T), P m → u.WF → Same u m → m.set i j x = .ok u → P u) {f : CellFn T} {m0 : Mat T}
    (hf : f.Orderly P m0) : ∀ (n : Nat) (m : Mat T) (it : Iter) (rest : List (Nat × Nat × T)), MapAt m it rest → P m →
      Same m m0 → (∀ a b : Nat, a < m0.rows → b < m0.cols → (m.Stored a b ↔ m0.Stored a b)) → rest.length ≤ n → mapAll f n m it = eachSet f (placesOf rest) m
  | n, m, it, [], h, _, _, _, _ => by
    unfold mapAll
    rw [h.nil]; rfl
  | 0, m, it, e :: rest, _, _, _, _, hn => by simp at hn
  | n + 1, m, it, e :: rest, h, hP, hs, hpat, hn => by
    obtain ⟨h1, it1, h2, h3, h4, h5, h6, -⟩ := h.cons
    have hat := at_ok h.wf h4 h5
    have hst' := h.stored
    rw [← h6] at hst'
    rw [mapAll, if_pos h1]
    simp only [mapOnce, h2, placesOf, List.map_cons, eachSet, hat]
    rw [h6]
    cases hfe : f e.1 e.2.1 e.2.2 m with
    | mk o t =>
      cases o with
      | panic => rfl
      | hang => rfl
      | ok x =>
        obtain ⟨k1, k2, k3, k4, k5⟩ := hf e.1 e.2.1 m e.2.2 hP hs.1 hs.2.1 hs.2.2 hpat (by rw [← hs.2.1]; exact h4)
          (by rw [← hs.2.2]; exact h5) (by rw [hat, h6]) ((stored_iff h.wf h4 h5).2 hst') x t hfe
        have ht := hwf t k1
        have hz : m.kind = .dense ∨ m.kind = .dvec ∨ (isZero x = false ∧
            ∀ i j, i < m.rows → j < m.cols → isZero (m.val i j) = isZero (t.val i j)) := by
          rcases k5 with k5 | k5 | ⟨k5, k6⟩
          · exact Or.inl k5
          · exact Or.inr (Or.inl k5)
          · by_cases hd : m.kind = .dense
            · exact Or.inl hd
            by_cases hd' : m.kind = .dvec
            · exact Or.inr (Or.inl hd')
            refine Or.inr (Or.inr ⟨k5, fun i j hi hj => ?_⟩)
            have := k6 i j hi hj
            rw [stored_iff h.wf hi hj, stored_iff ht (by rw [k3]; exact hi) (by rw [k4]; exact hj), k2] at this
            simp only [hd, hd', false_or] at this
            cases h1 : isZero (m.val i j) <;> cases h2 : isZero (t.val i j) <;> simp [h1, h2] at this ⊢
        have hx : Storable t.kind x := by
          unfold Storable
          rw [k2]
          rcases hz with hz | hz | ⟨hz, -⟩
          · rw [hz]; trivial
          · rw [hz]; trivial
          · split
            · trivial
            · trivial
            · exact hz
        obtain ⟨rest', g1, g2, gf⟩ := h.other ht ⟨k2, k3, k4⟩ (hz.imp_right (Or.imp_right And.right))
        obtain ⟨e', r', rfl⟩ : ∃ e' r', rest' = e' :: r' := by
          cases rest' with
          | nil => simp [placesOf] at g2
          | cons a b => exact ⟨a, b, rfl⟩
        simp only [placesOf, List.map_cons, List.cons.injEq] at g2
        obtain ⟨ge, gr⟩ := g2
        have ge1 : e'.1 = e.1 := (Prod.mk.inj ge).1
        have ge2 : e'.2.1 = e.2.1 := (Prod.mk.inj ge).2
        obtain ⟨-, it2, p2, -, p4, p5, p6, p7⟩ := g1.cons
        obtain ⟨u, p8, p9, p10⟩ := p7 x hx
        obtain rfl := gf.step h2 p2
        have hkeep : t.keep x = x := by
          unfold Storable at hx
          unfold keep
          split at hx <;> simp_all [norm]
        obtain ⟨u', -, s1, -, -, s4⟩ := g1.set_live p4 p5 (v := x) (by
          unfold Keeps
          rw [k2]
          rcases hz with hz | hz | ⟨hz, hp⟩
          · rw [hz]; trivial
          · rw [hz]; trivial
          · split
            · trivial
            · trivial
            · rename_i d1 d2
              rw [ge1, ge2, ← hp _ _ h4 h5, hz]
              exact (hst'.resolve_left d1).resolve_left d2)
        rw [hkeep] at s4
        have hu : u' = u := by
          refine ext' s4.wf p10.wf (s4.same.trans ⟨p10.same.1.symm, p10.same.2.1.symm, p10.same.2.2.symm⟩) ?_
          intro a b ha hb
          rw [s4.same.2.1] at ha; rw [s4.same.2.2] at hb
          by_cases he : a = e'.1 ∧ b = e'.2.1
          · obtain ⟨rfl, rfl⟩ := he
            rw [s4.hit, p10.hit]
          · rw [s4.miss a b ha hb he, p10.miss a b ha hb he]
        subst hu
        rw [ge1, ge2] at s1 p10
        simp only [p8, s1]
        rw [mapAll_eq hwf hset hf n u' it2 r' p9 (hset t u' _ _ x k1 p10.wf p10.same s1)
          (p10.same.trans (Same.trans ⟨k2, k3, k4⟩ hs)) ?_ ?_]
        · rw [← gr]; rfl
        · intro a b ha hb
          have ha' : a < m.rows := by rw [hs.2.1]; exact ha
          have hb' : b < m.cols := by rw [hs.2.2]; exact hb
          rw [← hpat a b ha hb, stored_iff h.wf ha' hb', stored_iff p10.wf (by rw [p10.same.2.1, k3]; exact ha')
            (by rw [p10.same.2.2, k4]; exact hb'), p10.same.1, k2]
          by_cases hd : m.kind = .dense
          · simp [hd]
          by_cases hd' : m.kind = .dvec
          · simp [hd']
          obtain ⟨hx0, hp⟩ := (hz.resolve_left hd).resolve_left hd'
          by_cases he : a = e.1 ∧ b = e.2.1
          · obtain ⟨rfl, rfl⟩ := he
            rw [p10.hit]
            simp [hx0, (hst'.resolve_left hd).resolve_left hd']
          · rw [p10.miss a b (by rw [k3]; exact ha') (by rw [k4]; exact hb') he, hp a b ha' hb']
        · have := congrArg List.length gr
          simp at this hn
          omega

end Mat
end GB
