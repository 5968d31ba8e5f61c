import Verif.Lemmas.MapDrive
import Verif.SpecLive

/-!
# Iterators over a matrix that is written to

An iterator created before a write goes on over the written matrix. The lemmas say what survives a
write that does not change which entries are stored.
-/

namespace GB

set_option linter.unusedSectionVars false

variable {T : Type} [GoNum T]

namespace CSR

theorem entriesFrom_places : ∀ {rows rows' : List (List (Nat × T))} (i : Nat),
    rows'.map (List.map Prod.fst) = rows.map (List.map Prod.fst) →
    placesOf (entriesFrom i rows') = placesOf (entriesFrom i rows)
  | [], [], _, _ => rfl
  | [], _ :: _, _, h => by simp at h
  | _ :: _, [], _, h => by simp at h
  | row :: rows, row' :: rows', i, h => by
    simp only [List.map_cons, List.cons.injEq] at h
    have ih := entriesFrom_places (i + 1) h.2
    have e : ∀ r : List (Nat × T), placesOf (r.map (fun e => (i, e.1, e.2))) = (r.map Prod.fst).map (fun j => (i, j)) := by
      intro r; simp [placesOf]
    simp only [entriesFrom]
    have ap : ∀ a b : List (Nat × Nat × T), placesOf (a ++ b) = placesOf a ++ placesOf b := by
      intro a b; simp [placesOf]
    rw [ap, ap, e, e, h.1, ih]

/-- `Set` that neither creates nor removes an entry. -/
theorem Rep.set_live [GoStore T] {s : CSR T} {rows : List (List (Nat × T))} (h : Rep s rows) {i j : Nat}
    (hi : i < s.r) (hj : j < s.c) {v : T} (hz : isZero (cellOf rows i j) = isZero v) :
    ∃ s' rows', s.set i j v = .ok s' ∧ Rep s' rows' ∧ (∀ it k, IterAt s rows it k → IterAt s' rows' it k) ∧
      placesOf (entriesFrom 0 rows') = placesOf (entriesFrom 0 rows) := by
  have hi' : i < rows.length := by rw [h.len]; exact hi
  obtain ⟨L, M, R, old, hs⟩ := rowSplit_exists (h.sorted _ (List.getElem_mem hi')) j
  have hold : cellOf rows i j = old := by rw [h.cell_eq hi, hs.get]
  obtain ⟨s', a, b, h1, h2, h3, h4, h5, h6⟩ := h.updateRP_ok hi hj hs (fun _ => ((), v))
  have hset : s.set i j v = .ok s' := by
    unfold set update updateWith
    simp only [h1, Out.ok_bind]
  rcases hs.mid with ⟨hM, h0⟩ | hM
  · have hv : isZero v = true := by rw [← hz, hold, h0]; exact isZero_zero
    have e := h6 hM hv
    subst e
    exact ⟨s', rows, hset, h, fun _ _ x => x, rfl⟩
  · have ho : isZero old = false := h.nz _ (List.getElem_mem hi') (j, old) (by rw [hs.eq, hM]; simp)
    have hv : isZero v = false := by rw [← hz, hold]; exact ho
    have e := h5 (by simp [hM]) hv
    have hmid : midOf j v = [(j, v)] := by simp [midOf, hv]
    simp only [hmid] at h2
    have hl : (L ++ [(j, v)] ++ R).length = rows[i].length := by rw [hs.eq, hM]; simp
    have hc : s'.cols = s.cols := by rw [e]
    have hf : (rows.set i (L ++ [(j, v)] ++ R)).flatten.length = rows.flatten.length := by
      rw [← h2.cols_length, ← h.cols_length, hc]
    have ho : ∀ k, k ≤ s.r → offs (rows.set i (L ++ [(j, v)] ++ R)) k = offs rows k := by
      intro k hk
      exact offs_set_same rows i _ hi' hl (by rw [h.len]; exact hk)
    refine ⟨s', _, hset, h2, ?_, entriesFrom_places 0 ?_⟩
    · intro it k hit
      have hrlo := hit.rlo
      have hrhi := hit.rhi
      refine ⟨by rw [hf]; exact hit.size, hit.last, hit.ps, hit.rlo, by rw [h3]; exact hit.rhi, ?_, ?_, hit.hi, ?_⟩
      · rw [ho _ hit.rhi]; exact hit.pe
      · rw [ho _ (by omega)]; exact hit.lo
      · intro hk hlt
        simp only [hc] at hlt ⊢
        exact hit.col hk hlt
    · rw [List.map_set]
      have : (L ++ [(j, v)] ++ R).map Prod.fst = (rows.map (List.map Prod.fst))[i]'(by simpa using hi') := by
        rw [List.getElem_map, hs.eq, hM]; simp
      rw [this, List.set_getElem_self]

end CSR

namespace CSC

theorem entries_places {cols cols' : List (List (Nat × T))}
    (h : placesOf (CSR.entriesFrom 0 cols') = placesOf (CSR.entriesFrom 0 cols)) :
    placesOf (entries cols') = placesOf (entries cols) := by
  have e : ∀ c : List (List (Nat × T)), placesOf (entries c) = (placesOf (CSR.entriesFrom 0 c)).map (fun p => (p.2, p.1)) := by
    intro c; simp [placesOf, entries, swapE]
  rw [e, e, h]

theorem Rep.set_live [GoStore T] {s : CSC T} {cols : List (List (Nat × T))} (h : Rep s cols) {i j : Nat}
    (hi : i < s.r) (hj : j < s.c) {v : T} (hz : isZero (cellOf cols j i) = isZero v) :
    ∃ s' cols', s.set i j v = .ok s' ∧ Rep s' cols' ∧ (∀ it k, IterAt s cols it k → IterAt s' cols' it k) ∧
      placesOf (entries cols') = placesOf (entries cols) := by
  obtain ⟨s', cols', h1, h2, h3, h4⟩ := CSR.Rep.set_live (s := mir s) h (i := j) (j := i) hj hi hz
  refine ⟨unmir s', cols', ?_, h2, fun it k hk => h3 _ _ hk, entries_places h4⟩
  rw [set_eq, h1]; rfl

end CSC

namespace SVec

theorem Rep.set_live [GoStore T] {s : SVec T} {es : List (Nat × T)} (h : Rep s es) (hp : Packed es) {i : Nat}
    (hi : i < s.l) {v : T} (hz : isZero (rowGet es i) = isZero v) :
    ∃ s' es', s.setVec i v = .ok s' ∧ Rep s' es' ∧ Packed es' ∧ s'.l = s.l ∧
      es'.map Prod.fst = es.map Prod.fst ∧ rowGet es' i = norm v ∧
      ∀ k, k ≠ i → rowGet es' k = rowGet es k := by
  obtain ⟨L, M, R, old, hs⟩ := rowSplit_exists h.sorted i
  have hold : rowGet es i = old := hs.get
  by_cases hle : i ≤ es.length
  · obtain ⟨s', h1, h2, h3⟩ := h.setVec_ok hi hs hle v
    refine ⟨s', _, h1, h3, ?_, h2, ?_, (hs.put_split v).get, fun k hk => hs.get_put_ne v hk⟩
    all_goals
      rcases hs.mid with ⟨hM, h0⟩ | hM
      · have hv : isZero v = true := by rw [← hz, hold, h0]; exact isZero_zero
        have e : L ++ midOf i v ++ R = es := by rw [hs.eq, hM]; simp [midOf, hv]
        rw [e] <;> exact hp
      · have ho : isZero old = false := h.nz (i, old) (by rw [hs.eq, hM]; simp)
        have hv : isZero v = false := by rw [← hz, hold]; exact ho
        have e : (L ++ midOf i v ++ R).map Prod.fst = es.map Prod.fst := by
          rw [hs.eq, hM]; simp [midOf, hv]
        first
          | exact e
          | intro x hx
            have hl : (L ++ midOf i v ++ R).length = es.length := by
              simpa using congrArg List.length e
            have : x.1 ∈ es.map Prod.fst := by rw [← e]; exact List.mem_map_of_mem hx
            obtain ⟨y, hy, hxy⟩ := List.mem_map.1 this
            rw [hl, ← hxy]; exact hp y hy
  · have hn : rowGet es i = 0 := by
      rw [rowGet_none]
      intro e he
      have := hp e he
      omega
    have hv : isZero v = true := by rw [← hz, hn]; exact isZero_zero
    refine ⟨s, es, ?_, h, hp, rfl, rfl, by rw [hn]; simp [norm, hv], fun _ _ => rfl⟩
    rw [h.setVec_gt hi (by omega)]
    simp [midOf, hv]

end SVec

namespace Mat

variable [GoStore T]

/-- May `v` be written to a cell holding `old` without the stored entries changing? -/
def Keeps (k : Kind) (old v : T) : Prop :=
  match k with
  | .dense | .dvec => True
  | _ => isZero old = isZero v

theorem MapAt.value {m : Mat T} : ∀ {rest : List (Nat × Nat × T)} {it : Iter}, MapAt m it rest →
    ∀ e ∈ rest, m.val e.1 e.2.1 = e.2.2
  | [], _, _ => by simp
  | e :: rest, it, h => by
    obtain ⟨-, it', -, h2, -, -, h3, -⟩ := h.cons
    intro x hx
    rcases List.mem_cons.1 hx with rfl | hx
    · exact h3
    · exact h2.value x hx

/-- `Set` under an iterator, when the stored entries stay where they are. -/
theorem MapAt.set_live {m : Mat T} {it : Iter} {rest : List (Nat × Nat × T)} (h : MapAt m it rest) {i j : Nat}
    (hi : i < m.rows) (hj : j < m.cols) {v : T} (hz : Keeps m.kind (m.val i j) v) :
    ∃ m' rest', m.set i j v = .ok m' ∧ MapAt m' it rest' ∧ placesOf rest' = placesOf rest ∧
      Wrote m m' i j (m.keep v) := by
  have hdrop : ∀ (es : List (Nat × Nat × T)) k, placesOf (es.drop k) = (placesOf es).drop k := by
    intro es k; simp [placesOf, List.map_drop]
  have hlen : ∀ (es es' : List (Nat × Nat × T)), placesOf es' = placesOf es → es'.length = es.length := by
    intro es es' h; simpa [placesOf] using congrArg List.length h
  have hw := h.wf
  cases m <;> cases it <;> simp only [MapAt] at h
  · rename_i s it
    obtain ⟨m', w1, w2⟩ := set_ok hw (by simp [kind]) hi hj v
    obtain ⟨rows, k, h, hit, hk, rfl⟩ := h
    rw [val_csr h hi hj] at hz
    obtain ⟨s', rows', g1, g2, g3, g4⟩ := h.set_live hi hj hz
    have e : m' = csr s' := by
      have : (csr s).set i j v = .ok (csr s') := by simp [set, g1]
      rw [w1] at this; injection this
    subst e
    exact ⟨_, _, w1, ⟨rows', k, g2, g3 _ _ hit, by rw [hlen _ _ g4]; exact hk, rfl⟩,
      by rw [hdrop, hdrop, g4], w2⟩
  · rename_i s it
    obtain ⟨m', w1, w2⟩ := set_ok hw (by simp [kind]) hi hj v
    obtain ⟨rows, k, h, hit, hk, rfl⟩ := h
    rw [val_csc h hi hj] at hz
    obtain ⟨s', rows', g1, g2, g3, g4⟩ := h.set_live hi hj hz
    have e : m' = csc s' := by
      have : (csc s).set i j v = .ok (csc s') := by simp [set, g1]
      rw [w1] at this; injection this
    subst e
    exact ⟨_, _, w1, ⟨rows', k, g2, g3 _ _ hit, by rw [hlen _ _ g4]; exact hk, rfl⟩,
      by rw [hdrop, hdrop, g4], w2⟩
  · rename_i s it
    obtain ⟨m', w1, w2⟩ := set_ok hw (by simp [kind]) hi hj v
    obtain ⟨h, k, hit, hk, rfl⟩ := h
    obtain ⟨s', p1, p2, p3, p4, p5⟩ := Dense.set_ok h hi hj v
    have e : m' = dense s' := by
      have : (dense s).set i j v = .ok (dense s') := by simp [set, p1]
      rw [w1] at this; injection this
    subst e
    have g4 : placesOf s'.entries = placesOf s.entries := by
      simp [placesOf, Dense.entries, p3, p4]
    refine ⟨_, _, w1, ⟨p2, k, ⟨by rw [p3, p4]; exact hit.size, hit.last, by rw [p4]; exact hit.pos, by rw [p4]; exact hit.le⟩,
      by rw [hlen _ _ g4]; exact hk, rfl⟩, by rw [hdrop, hdrop, g4], w2⟩
  · rename_i s it
    obtain ⟨m', w1, w2⟩ := set_ok hw (by simp [kind]) hi hj v
    obtain ⟨h, k, hit, hk, rfl⟩ := h
    obtain rfl : j = 0 := by simp [cols] at hj; omega
    have p1 := DVec.set_ok h hi v
    have e : m' = dvec { s with values := s.values.set i v } := by
      have : (dvec s).set i 0 v = .ok (dvec { s with values := s.values.set i v }) := by simp [set, p1]
      rw [Int.natCast_zero] at w1
      rw [w1] at this; injection this
    subst e
    refine ⟨_, _, w1, ⟨DVec.setVec_wf h, k, ⟨hit.size, hit.last, hit.r⟩,
      by simpa [DVec.entries] using hk, rfl⟩, ?_, w2⟩
    rw [hdrop, hdrop]
    congr 1
    simp [placesOf, DVec.entries]
  · rename_i s it
    obtain ⟨es, k, h, hp, h1, h2, hk, rfl⟩ := h
    obtain rfl : j = 0 := by simp [cols] at hj; omega
    rw [val_svec h hi, hp.get] at hz
    obtain ⟨s', es', g1, g2, g3, g4, g5, g6, g7⟩ := h.set_live hp hi hz
    have hl : es'.length = es.length := by simpa using congrArg List.length g5
    refine ⟨svec s', _, ?_, ⟨es', k, g2, g3, h1, by rw [hl]; exact h2, by rw [hl]; exact hk, rfl⟩, ?_,
      ⟨⟨es', g2, g3⟩, ⟨rfl, g4, rfl⟩, ?_, ?_⟩⟩
    · have e : inRange 0 1 = true := rfl
      have hi' : i < s.l := hi
      simp [set, SVec.set, hi', e, g1]
    · rw [hdrop, hdrop]
      congr 1
      have : ∀ l : List (Nat × T), placesOf (SVec.entries l) = (l.map Prod.fst).map (fun a => (a, 0)) := by
        intro l; simp [placesOf, SVec.entries]
      rw [this, this, g5]
    · rw [val_svec g2 (by rw [g4]; exact hi), g3.get, g6]; rfl
    · intro a b ha hb hne
      obtain rfl : b = 0 := by simp [cols] at hb; omega
      rw [val_svec g2 (by rw [g4]; exact ha), g3.get, val_svec h ha, hp.get]
      exact g7 a (fun hc => hne ⟨hc, rfl⟩)

end Mat

/-! ## Every delivery counts -/

namespace CSR

theorem skip_counts {s : CSR T} (hs : ∀ r a b, idxI s.rowStart r = .ok a → idxI s.rowStart (r + 1) = .ok b → a ≤ b) :
    ∀ (fuel : Nat) {it it' : Iter}, skip s fuel it = .ok it' → it.pointerStart ≤ it.pointerEnd →
      it'.pointerStart < it'.pointerEnd ∧ it'.last = it.last ∧ it'.size = it.size
  | 0, _, _, h, _ => by simp [skip] at h
  | fuel + 1, it, it', h, hle => by
    unfold skip at h
    split at h
    · cases h1 : idxI s.rowStart (it.r + 1) with
      | panic => simp [h1] at h
      | hang => simp [h1] at h
      | ok a =>
        cases h2 : idxI s.rowStart (it.r + 1 + 1) with
        | panic => simp [h1, h2] at h
        | hang => simp [h1, h2] at h
        | ok b =>
          cases h3 : idx s.cols a with
          | panic => simp [h1, h2, h3] at h
          | hang => simp [h1, h2, h3] at h
          | ok c =>
            simp only [h1, h2, h3, Out.ok_bind] at h
            have := skip_counts hs fuel h (hs _ _ _ h1 h2)
            exact this
    · injection h with h; subst h
      exact ⟨by omega, rfl, rfl⟩

theorem walk_counts {s : CSR T} : ∀ (fuel : Nat) {it it' : Iter}, walk s fuel it = .ok it' →
      it.pointerStart < it.pointerEnd →
      it'.pointerStart ≤ it'.pointerEnd ∧ it'.last = it.last + 1 ∧ it'.size = it.size
  | 0, _, _, h, _ => by simp [walk] at h
  | fuel + 1, it, it', h, hlt => by
    unfold walk at h
    rw [if_pos hlt] at h
    cases h1 : idx s.cols it.pointerStart with
    | panic => simp [h1] at h
    | hang => simp [h1] at h
    | ok x =>
      simp only [h1, Out.ok_bind] at h
      split at h
      · injection h with h; subst h
        exact ⟨hlt, rfl, rfl⟩
      · have := walk_counts fuel h hlt
        exact this

theorem step_counts {s : CSR T} (hs : ∀ r a b, idxI s.rowStart r = .ok a → idxI s.rowStart (r + 1) = .ok b → a ≤ b)
    {it it' : Iter} {e : Nat × Nat × T} (h : s.step it = .ok (it', e)) (hle : it.pointerStart ≤ it.pointerEnd) :
    it'.pointerStart ≤ it'.pointerEnd ∧ it'.last = it.last + 1 ∧ it'.size = it.size := by
  unfold step next at h
  cases h1 : skip s (s.rowStart.length + 1) it with
  | panic => simp [h1] at h
  | hang => simp [h1] at h
  | ok it1 =>
    simp only [h1, Out.ok_bind] at h
    cases h2 : walk s (s.cols.getD it1.pointerStart 0 + 1 - it1.cIndex + 1) it1 with
    | panic => simp only [h2] at h; cases h
    | hang => simp only [h2] at h; cases h
    | ok it2 =>
      simp only [h2, Out.ok_bind] at h
      cases h3 : idx s.values it2.index with
      | panic => simp [h3] at h
      | hang => simp [h3] at h
      | ok v =>
        simp only [h3, Out.ok_bind] at h
        injection h with h
        injection h with h h'
        subst h
        obtain ⟨a1, a2, a3⟩ := skip_counts hs _ h1 hle
        obtain ⟨b1, b2, b3⟩ := walk_counts _ h2 a1
        exact ⟨b1, by omega, by omega⟩

theorem Rep.monotone {s : CSR T} {rows : List (List (Nat × T))} (h : Rep s rows) (r : Int) (a b : Nat)
    (h1 : idxI s.rowStart r = .ok a) (h2 : idxI s.rowStart (r + 1) = .ok b) : a ≤ b := by
  have key : ∀ (r : Int) (x : Nat), idxI s.rowStart r = .ok x → 0 ≤ r ∧ r.toNat ≤ s.r ∧ x = offs rows r.toNat := by
    intro r x hx
    unfold idxI at hx
    split at hx
    · simp at hx
    · rename_i hr
      have hlt : r.toNat < s.rowStart.length := by
        by_contra hc
        unfold idx at hx
        rw [List.getElem?_eq_none (by omega)] at hx
        simp at hx
      rw [idx_ok hlt] at hx
      injection hx with hx
      simp only [h.starts, List.getElem_map, List.getElem_range] at hx
      rw [h.rowStart_length] at hlt
      exact ⟨by omega, by omega, hx.symm⟩
  obtain ⟨p1, p2, p3⟩ := key r a h1
  obtain ⟨q1, q2, q3⟩ := key (r + 1) b h2
  have e : (r + 1).toNat = r.toNat + 1 := by omega
  rw [p3, q3, e, offs_succ _ _ (by rw [h.len]; omega)]
  omega

end CSR

namespace Mat

/-- How many entries an iterator has delivered, and how many it set out to deliver. -/
def Iter.last : Iter → Nat
  | .csr it => it.last | .csc it => it.last | .dense it => it.last | .dvec it => it.last | .svec it => it.last

def Iter.size : Iter → Nat
  | .csr it => it.size | .csc it => it.size | .dense it => it.size | .dvec it => it.size | .svec it => it.size

/-- The iterator's window into the current line is not inverted. -/
def Iter.Sane : Iter → Prop
  | .csr it => it.pointerStart ≤ it.pointerEnd
  | .csc it => it.pointerStart ≤ it.pointerEnd
  | _ => True

theorem Iter.hasNext_eq (it : Iter) : it.hasNext = decide (it.last < it.size) := by
  cases it <;> rfl

theorem iter_start (m : Mat T) : m.iter.last = 0 ∧ m.iter.size = m.nvalues ∧ m.iter.Sane := by
  cases m <;> simp [iter, Iter.last, Iter.size, Iter.Sane, nvalues, CSR.iter, CSC.iter, Dense.iter, DVec.iter, SVec.iter]

theorem step_counts {m : Mat T} (hw : m.kind ≠ .svec → m.WF) {it it' : Iter} {e : Nat × Nat × T}
    (h : m.step it = .ok (it', e)) (hs : it.Sane) :
    it'.Sane ∧ it'.last = it.last + 1 ∧ it'.size = it.size := by
  cases m <;> cases it <;> simp only [step] at h <;> try (simp at h; done)
  · rename_i s it
    obtain ⟨rows, hr⟩ := hw (by simp [kind])
    cases h1 : s.step it with
    | panic => simp [h1] at h
    | hang => simp [h1] at h
    | ok x =>
      simp only [h1, Out.ok_bind] at h
      injection h with h; injection h with h h'; subst h
      exact CSR.step_counts hr.monotone (it' := x.1) (e := x.2) h1 hs
  · rename_i s it
    obtain ⟨rows, hr⟩ := hw (by simp [kind])
    rw [CSC.step_eq] at h
    cases h1 : (CSC.mir s).step (CSC.mirIt it) with
    | panic => simp [h1] at h
    | hang => simp [h1] at h
    | ok x =>
      simp only [h1, Out.map_ok, Out.ok_bind] at h
      injection h with h; injection h with h h'; subst h
      exact CSR.step_counts (CSR.Rep.monotone hr) (it' := x.1) (e := x.2) h1 hs
  · rename_i s it
    unfold Dense.step at h
    cases h1 : s.at' (s.next it).r (s.next it).cOld with
    | panic => simp [h1] at h
    | hang => simp [h1] at h
    | ok v =>
      simp only [h1, Out.ok_bind] at h
      injection h with h; injection h with h h'; subst h
      refine ⟨trivial, ?_, ?_⟩ <;> simp only [Iter.last, Iter.size, Dense.next] <;> split <;> rfl
  · rename_i s it
    unfold DVec.step at h
    cases h1 : s.atVec (s.next it).rOld with
    | panic => simp [h1] at h
    | hang => simp [h1] at h
    | ok v =>
      simp only [h1, Out.ok_bind] at h
      injection h with h; injection h with h h'; subst h
      refine ⟨trivial, ?_, ?_⟩ <;> simp only [Iter.last, Iter.size, DVec.next] <;> split <;> rfl
  · rename_i s it
    unfold SVec.step at h
    cases h1 : idx s.indices it.next.old with
    | panic => simp [h1] at h
    | hang => simp [h1] at h
    | ok i =>
      cases h2 : idx s.values it.next.old with
      | panic => simp [h1, h2] at h
      | hang => simp [h1, h2] at h
      | ok v =>
        simp only [h1, h2, Out.ok_bind] at h
        injection h with h; injection h with h h'; subst h
        exact ⟨trivial, rfl, rfl⟩

end Mat

/-! ## Sessions -/

variable [GoStore T]

theorem session_steady {r c : Nat} {kp : T → T} : ∀ (acts : List (IAct T)) (m : Mat T) (it : Mat.Iter)
    (rest : List (Nat × Nat × T)) (t : Nat → Nat → T), Mat.MapAt m it rest → m.rows = r → m.cols = c →
    (∀ v, m.keep v = kp v) → (∀ i j, i < r → j < c → m.val i j = t i j) →
    Steady m.kind r c kp acts t (placesOf rest) →
    ∃ m' it' rest', Mat.session acts m it = .ok (m', it', delivered kp acts t (placesOf rest)) ∧ Mat.MapAt m' it' rest' ∧
      Mat.Same m' m ∧ (∀ i j, i < r → j < c → m'.val i j = tableAfter kp acts t (placesOf rest) i j) ∧
      (delivered kp acts t (placesOf rest)).length + rest'.length = rest.length
  | [], m, it, rest, t, h, _, _, _, hv, _ => ⟨m, it, rest, rfl, h, Mat.Same.refl m, hv, by simp [delivered]⟩
  | .set i j v :: as, m, it, rest, t, h, hr, hc, hk, hv, hs => by
    obtain ⟨hi, hj, hz, hs⟩ := hs
    have hz' : Mat.Keeps m.kind (m.val i j) v := by
      rw [hv i j hi hj]
      unfold Mat.Keeps
      rcases hz with hz | hz | hz
      · rw [hz]; trivial
      · rw [hz]; trivial
      · split <;> trivial
    obtain ⟨m1, rest1, h1, h2, h3, h4⟩ := h.set_live (by rw [hr]; exact hi) (by rw [hc]; exact hj) hz'
    rw [← h3, ← h4.same.1] at hs
    have hv1 : ∀ a b, a < r → b < c → m1.val a b = put2 t i j (kp v) a b := by
      intro a b ha hb
      unfold put2
      split
      · rename_i he; obtain ⟨rfl, rfl⟩ := he
        rw [h4.hit, hk]
      · rename_i he
        rw [h4.miss a b (by omega) (by omega) he, hv a b ha hb]
    obtain ⟨m', it', rest', g1, g2, g3, g4, g5⟩ := session_steady as m1 it rest1 (put2 t i j (kp v)) h2
      (by rw [h4.same.2.1, hr]) (by rw [h4.same.2.2, hc]) (fun v => by rw [h4.same.keep, hk]) hv1 hs
    rw [h3] at g1 g4 g5
    have hl : rest1.length = rest.length := by simpa [placesOf] using congrArg List.length h3
    refine ⟨m', it', rest', ?_, g2, g3.trans h4.same, g4, by rw [← hl]; exact g5⟩
    simp only [Mat.session, h1, Out.ok_bind, g1, delivered]
  | .next :: as, m, it, [], t, h, hr, hc, hk, hv, hs => by
    obtain ⟨m', it', rest', g1, g2⟩ := session_steady as m it [] t h hr hc hk hv hs
    refine ⟨m', it', rest', ?_, g2⟩
    simp only [Mat.session, h.nil]
    exact g1
  | .map f :: as, m, it, [], t, h, hr, hc, hk, hv, hs => by
    obtain ⟨m', it', rest', g1, g2⟩ := session_steady as m it [] t h hr hc hk hv hs
    refine ⟨m', it', rest', ?_, g2⟩
    simp only [Mat.session, h.nil]
    exact g1
  | .next :: as, m, it, e :: rest, t, h, hr, hc, hk, hv, hs => by
    obtain ⟨h1, it1, h2, h3, h4, h5, h6, -⟩ := h.cons
    obtain ⟨m', it', rest', g1, g2, g3, g4, g5⟩ := session_steady as m it1 rest t h3 hr hc hk hv hs
    have he : (e.1, e.2.1, t e.1 e.2.1) = e := by
      rw [← hv _ _ (by omega) (by omega), h6]
    refine ⟨m', it', rest', ?_, g2, g3, g4, ?_⟩
    · simp only [Mat.session, h1, if_true, h2, Out.ok_bind, g1]
      show _ = Out.ok (m', it', (e.1, e.2.1, t e.1 e.2.1) :: delivered kp as t (placesOf rest))
      rw [he]
    · show (_ :: delivered kp as t (placesOf rest)).length + _ = _
      simp only [List.length_cons]; omega
  | .map f :: as, m, it, e :: rest, t, h, hr, hc, hk, hv, hs => by
    obtain ⟨h1, it1, h2, h3, h4, h5, h6, h7⟩ := h.cons
    obtain ⟨hz, hs⟩ := hs
    have he : (e.1, e.2.1, t e.1 e.2.1) = e := by
      rw [← hv _ _ (by omega) (by omega), h6]
    have ht : t e.1 e.2.1 = e.2.2 := by rw [← hv _ _ (by omega) (by omega), h6]
    simp only at hz hs
    have hst : Mat.Storable m.kind (f e.1 e.2.1 e.2.2) := by
      rw [← ht]
      unfold Mat.Storable
      rcases hz with hz | hz | hz
      · rw [hz]; trivial
      · rw [hz]; trivial
      · split <;> trivial
    obtain ⟨m1, p1, p2, p3⟩ := h7 _ hst
    rw [← p3.same.1] at hs
    have hv1 : ∀ a b, a < r → b < c → m1.val a b = put2 t e.1 e.2.1 (f e.1 e.2.1 (t e.1 e.2.1)) a b := by
      intro a b ha hb
      unfold put2
      split
      · rename_i hh; obtain ⟨rfl, rfl⟩ := hh
        rw [p3.hit, ht]
      · rename_i hh
        rw [p3.miss a b (by omega) (by omega) hh, hv a b ha hb]
    obtain ⟨m', it', rest', g1, g2, g3, g4, g5⟩ := session_steady as m1 it1 rest _ p2
      (by rw [p3.same.2.1, hr]) (by rw [p3.same.2.2, hc]) (fun v => by rw [p3.same.keep, hk]) hv1 hs
    refine ⟨m', it', rest', ?_, g2, g3.trans p3.same, g4, ?_⟩
    · simp only [Mat.session, h1, if_true, h2, Out.ok_bind, p1, g1]
      show _ = Out.ok (m', it', (e.1, e.2.1, t e.1 e.2.1) :: delivered kp as _ (placesOf rest))
      rw [he]
    · show (_ :: delivered kp as _ (placesOf rest)).length + _ = _
      simp only [List.length_cons]; omega

end GB
