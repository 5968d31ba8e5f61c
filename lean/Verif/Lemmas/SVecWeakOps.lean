import Verif.Lemmas.SVecEntries
import Verif.Lemmas.Meth
import Verif.Lemmas.Reduce2
import Verif.Props.Storage

/-!
# Operators on a sparse vector in an arbitrary reachable state
-/

namespace GB

set_option linter.unusedSectionVars false
set_option linter.unusedSimpArgs false

variable {T : Type} [GoNum T]
open M

namespace SVec

/-- The vector with every stored value mapped. -/
def mapped (s : SVec T) (g : T → T) : SVec T := { s with values := s.values.map g }

theorem Weak.mapped {s : SVec T} (h : s.Weak) {g : T → T} (hg : ∀ v ∈ s.values, isZero (g v) = false) :
    (s.mapped g).Weak := by
  refine ⟨by simp [SVec.mapped, h.len], h.bound, ?_⟩
  intro v hv
  obtain ⟨x, hx, rfl⟩ := List.mem_map.1 hv
  exact hg x hx

theorem mapped_pairs (s : SVec T) (g : T → T) :
    (s.mapped g).pairs = s.pairs.map (fun e => (e.1, g e.2)) := by
  unfold pairs mapped
  rw [List.zip_map_right]
  rfl

/-- `AtVec` looks at the positions only to find its entry. -/
theorem Weak.mapped_at {s : SVec T} (h : s.Weak) {g : T → T} (h0 : g 0 = 0) {i : Nat} (hi : i < s.l) :
    ∃ x, s.atVec i = .ok x ∧ (s.mapped g).atVec i = .ok (g x) := by
  obtain ⟨p, h1, h2⟩ := index_le s i
  have h1' : (s.mapped g).index i = .ok (p, s.indices.length) := h1
  have hi' : i < (s.mapped g).l := hi
  unfold atVec
  simp only [inRange_natCast, hi, hi', decide_true, if_true, Int.toNat_natCast, h1, h1', Out.ok_bind]
  by_cases hp : p < s.indices.length
  · have hp' : p < (s.mapped g).indices.length := hp
    have e : (s.mapped g).indices[p] = s.indices[p] := rfl
    simp only [hp, if_true, idx_ok hp, idx_ok hp', Out.ok_bind, e]
    by_cases hx : s.indices[p] = i
    · have hpv : p < s.values.length := by rw [← h.len]; exact hp
      have hpv' : p < (s.mapped g).values.length := by simpa [SVec.mapped] using hpv
      refine ⟨s.values[p], (if_pos hx).trans (idx_ok hpv), ?_⟩
      refine (if_pos hx).trans ((idx_ok hpv').trans ?_)
      simp [SVec.mapped]
    · exact ⟨0, if_neg hx, (if_neg hx).trans (by rw [h0])⟩
  · exact ⟨0, if_neg hp, (if_neg hp).trans (by rw [h0])⟩

/-- The entries `k` turns into a `Map` loop. -/
def partly (s : SVec T) (g : T → T) (k : Nat) : SVec T :=
  { s with values := (s.values.take k).map g ++ s.values.drop k }

/-- A `Map` loop over a sparse vector whose callback never returns zero. -/
theorem Weak.forMap_ok {w : World T} {p : Ref} {s : SVec T} (hp : w.heap p = .svec s) (h : s.Weak)
    (hc : w.cancel = none) (hgas : s.values.length ≤ w.gas) {f : Nat → Nat → T → M T T} {g : T → T}
    (hf : ∀ r c v w', f r c v w' = .ok (g v) w') (hz : ∀ v ∈ s.values, isZero (g v) = false) (oc : Bool) :
    M.forMap p oc f w = .ok false { w with heap := Function.update w.heap p (.svec (s.mapped g)) } := by
  let J : Mat.Iter → List (Nat × Nat × T) → World T → Prop := fun it rest w' =>
    ∃ k i, it = .svec i ∧ i.last = k ∧ i.size = s.values.length ∧ k ≤ s.values.length ∧
      rest = (s.pairs.drop k).map (fun e => (e.1, 0, e.2)) ∧
      w' = { w with heap := Function.update w.heap p (.svec (s.partly g k)) }
  have hlen : s.pairs.length = s.values.length := by rw [h.length, h.len]
  have e0 : s.partly g 0 = s := by simp [partly]
  have en : s.partly g s.values.length = s.mapped g := by simp [partly, SVec.mapped]
  have hw0 : ({ w with heap := Function.update w.heap p (.svec (s.partly g 0)) } : World T) = w := by
    rw [e0, ← hp]; simp
  rw [forMap_eq]
  obtain ⟨x, w', e1, hx⟩ := loopMap_rule (p := p) (f := f) (oc := oc) (J := J)
    (by
      rintro it w' ⟨k, i, rfl, h1, h2, h3, h4, h5⟩
      have : s.pairs.length ≤ k := by
        have h4' := congrArg List.length h4
        simp only [List.length_nil, List.length_map, List.length_drop] at h4'; omega
      simp only [Mat.Iter.hasNext, SVec.Iter.hasNext, h1, h2, decide_eq_false_iff_not]
      omega)
    (by
      rintro it rest w' ⟨k, i, h1, h2, h3, h4, h5, h6⟩
      refine ⟨k, i, h1, h2, h3, h4, h5, ?_⟩
      subst h6; simp [hc, tick])
    (by
      rintro - it rest w' ⟨k, i, h1, h2, h3, h4, h5, h6⟩
      subst h6; simp [hc])
    (by
      rintro it e rest w' ⟨k, i, rfl, h1, h2, h3, h4, h5⟩
      have hk : k < s.pairs.length := by
        by_contra hh
        rw [List.drop_eq_nil_of_le (by omega)] at h4; simp at h4
      have hkv : k < s.values.length := by omega
      have hki : k < s.indices.length := by rw [h.len]; exact hkv
      rw [List.drop_eq_getElem_cons hk, List.map_cons] at h4
      obtain ⟨rfl, rfl⟩ := List.cons.inj h4
      have hpair : s.pairs[k] = (s.indices[k], s.values[k]) := by simp [pairs]
      have hpl : k < (s.partly g k).values.length := by simp [partly]; omega
      have hpv : (s.partly g k).values[k] = s.values[k] := by
        simp only [partly]
        rw [List.getElem_append_right (by simp)]
        simp [Nat.min_eq_left h3]
      have hwp : w'.heap p = .svec (s.partly g k) := by rw [h5]; simp
      refine ⟨by simp [Mat.Iter.hasNext, SVec.Iter.hasNext, h1, h2, hkv], .svec i.next, ?_, _, w', hf _ _ _ _, ?_⟩
      · rw [hwp]
        have hold : i.next.old = k := by simp [SVec.Iter.next, h1]
        have a1 : idx (s.partly g k).indices k = .ok s.indices[k] := idx_ok hki
        have a2 : idx (s.partly g k).values k = .ok s.values[k] := by rw [idx_ok hpl, hpv]
        simp only [Mat.step, SVec.step, hold, a1, a2, Out.ok_bind, hpair]
      · have hold : i.next.old = k := by simp [SVec.Iter.next, h1]
        have hnz : isZero (g s.values[k]) = false := hz _ (List.getElem_mem hkv)
        refine ⟨.svec (s.partly g (k + 1)), ?_, k + 1, i.next, rfl, by simp [SVec.Iter.next, h1], by simp [SVec.Iter.next, h2],
          hkv, rfl, ?_⟩
        · rw [hwp]
          simp only [Mat.put, SVec.put, hold, hpair, hnz, Bool.not_false, if_true, setIdx_ok hpl, Out.ok_bind]
          congr 2
          simp only [partly]
          congr 1
          rw [List.set_append_right _ _ (by simp)]
          simp only [List.length_map, List.length_take, Nat.min_eq_left h3, Nat.sub_self]
          rw [List.drop_eq_getElem_cons hkv, List.set_cons_zero, List.take_succ_eq_append_getElem hkv]
          simp only [List.map_append, List.map_cons, List.map_nil, List.append_assoc, List.cons_append, List.nil_append]
        · subst h5; simp)
    w.gas (w.heap p).iter (s.pairs.map (fun e => (e.1, 0, e.2))) w (by rw [List.length_map, hlen]; exact hgas)
    ⟨0, s.iter, by rw [hp]; rfl, rfl, rfl, Nat.zero_le _, by simp, hw0.symm⟩
  have fin : ∀ it, J it [] w' → w' = { w with heap := Function.update w.heap p (.svec (s.mapped g)) } := by
    rintro it ⟨k, i, h1, h2, h3, h4, h5, h6⟩
    have : k = s.values.length := by
      have h5' := congrArg List.length h5
      simp only [List.length_nil, List.length_map, List.length_drop] at h5'; omega
    subst this
    rw [h6, en]
  rcases hx with ⟨rfl, it', hJ⟩ | ⟨-, hcan, it', e, rest, k, i, -, -, -, -, -, h6⟩
  · rw [e1, fin it' hJ]
  · rw [h6] at hcan; simp [hc] at hcan

/-- Transposing a sparse vector in any reachable state writes what the enumeration delivers, in that order. -/
theorem Weak.transpose_ok [GoStore T] {w : World T} {s out : Ref} {v : SVec T} (hs : w.heap s = .svec v) (h : v.Weak)
    (hne : s ≠ out) (hc : w.cancel = none) (hg : v.values.length ≤ w.gas) (hout : (w.heap out).WF)
    (hk : (w.heap out).kind ≠ .svec) (hr : (w.heap out).rows = 1) (hl : (w.heap out).cols = v.l)
    (h0 : ∀ i, i < v.l → (w.heap out).val 0 i = 0) :
    Writes w out (fun _ i => lastWrite 0 i v.pairs) (Ops.transpose s .nil out w) := by
  let J : Mat.Iter → List (Nat × Nat × T) → World T → Prop := fun it rest w' =>
    ∃ k m', Yields Mat.Iter.hasNext (Mat.svec v).step it rest ∧ rest = (v.pairs.drop k).map (fun e => (e.1, 0, e.2)) ∧
      w' = w.upd out m' none ∧ m'.WF ∧ Mat.Same m' (w.heap out) ∧
      ∀ i, i < v.l → m'.val 0 i = lastWrite 0 i (v.pairs.take k)
  let body : Nat → Nat → T → M T (Option Unit) := fun r c value => do
    let e ← (Mask.empty (w.heap out).rows (w.heap out).cols).element r c
    if !e then M.set out c r value
    pure none
  have e0 : Ops.transpose s .nil out w = (forEach s (some ()) body >>= fun _ => pure ()) w := by
    unfold Ops.transpose
    rw [bind_ok (show Mask.orEmpty .nil out w = .ok (.empty (w.heap out).rows (w.heap out).cols) w from rfl)]
    rw [bind_ok (show (Mask.empty (w.heap out).rows (w.heap out).cols).check out w = .ok () w by
      simp [Mask.check, Mask.rows, Mask.cols, M.rowsOf, M.colsOf, bind_apply])]
  obtain ⟨x, w', e1, hx⟩ := loopIter_rule (p := s) (b0 := ()) (body := body) (J := J) (Q := fun _ _ => False)
    (by rintro it w' ⟨k, m', h1, -⟩; exact h1)
    (by
      rintro it rest w' ⟨k, m', h1, h2, h3, h4⟩
      exact ⟨k, m', h1, h2, by rw [h3]; rfl, h4⟩)
    (by
      rintro it e rest w' ⟨k, m', ⟨h1, it', h1', h1''⟩, h2, h3, h4, h5, h6⟩
      have hkl : k < v.pairs.length := by
        by_contra hh
        rw [List.drop_eq_nil_of_le (by omega)] at h2; simp at h2
      rw [List.drop_eq_getElem_cons hkl, List.map_cons] at h2
      obtain ⟨rfl, rfl⟩ := List.cons.inj h2
      obtain ⟨hb, hnz⟩ := h.pairs_bound (List.getElem_mem hkl)
      have hw' : w'.heap out = m' := by rw [h3, World.upd_out]
      refine ⟨h1, it', by rw [h3, World.upd_ne _ _ _ hne, hs]; exact h1', ?_⟩
      obtain ⟨m2, g1, g2⟩ := M.set_ok (p := out) (w := w') (i := 0) (j := v.pairs[k].1) (by rw [hw']; exact h4)
        (by rw [hw', h5.1]; exact hk) (by rw [hw', h5.2.1, hr]; omega) (by rw [hw', h5.2.2, hl]; exact hb) v.pairs[k].2
      rw [hw'] at g2
      refine ⟨none, { w' with heap := Function.update w'.heap out m2 }, ?_, ?_, by simp⟩
      · show body v.pairs[k].1 0 v.pairs[k].2 w' = _
        show (M.set out 0 v.pairs[k].1 v.pairs[k].2 >>= fun _ => pure none) w' = _
        rw [bind_ok g1]; rfl
      · intro _
        refine ⟨k + 1, m2, h1'', rfl, by rw [h3, World.upd_heap], g2.wf, g2.same.trans h5, ?_⟩
        intro i hi
        rw [List.take_succ_eq_append_getElem hkl]
        have hla : lastWrite 0 i (v.pairs.take k ++ [v.pairs[k]]) =
            if v.pairs[k].1 = i then v.pairs[k].2 else lastWrite 0 i (v.pairs.take k) := by
          unfold lastWrite; rw [List.foldl_append]; rfl
        rw [hla]
        split
        · rename_i hh
          rw [← hh, g2.hit]
          unfold Mat.keep
          split <;> simp [norm, hnz]
        · rename_i hh
          rw [g2.miss 0 i (by rw [h5.2.1, hr]; omega) (by rw [h5.2.2, hl]; exact hi) (by rintro ⟨-, rfl⟩; exact hh rfl)]
          exact h6 i hi)
    w.gas (w.heap s).iter (v.pairs.map (fun e => (e.1, 0, e.2))) w
    (by rw [List.length_map, h.length, h.len]; exact hg)
    ⟨0, w.heap out, by rw [hs]; exact Mat.svec_yields _ _ h.yields, by simp, by rw [← hc, World.upd_self], hout,
      Mat.Same.refl _, fun i hi => by simp [lastWrite, h0 i hi]⟩
  rcases hx with ⟨rfl, it', k, m', -, hrest, h3, h4, h5, h6⟩ | ⟨b, -, hf⟩ | ⟨-, hcan, it', e, rest, k, m', -, -, h3, -⟩
  · have hk' : v.pairs.take k = v.pairs := by
      have h' := congrArg List.length hrest
      simp only [List.length_nil, List.length_map, List.length_drop] at h'
      exact List.take_of_length_le (by omega)
    refine ⟨m', none, ?_, h4, h5, fun _ => ⟨rfl, ?_⟩, ?_⟩
    · rw [e0, bind_ok (by rw [forEach_eq]; exact e1), h3]; rfl
    · intro i j hi hj
      rw [h5.2.1, hr] at hi
      obtain rfl : i = 0 := by omega
      rw [h6 j (by rw [h5.2.2, hl] at hj; exact hj), hk']
    · intro i j hi hj
      rw [h5.2.1, hr] at hi
      obtain rfl : i = 0 := by omega
      left
      rw [h6 j (by rw [h5.2.2, hl] at hj; exact hj), hk']
  · exact hf.elim
  · rw [h3] at hcan; simp [World.upd] at hcan

end SVec
end GB
