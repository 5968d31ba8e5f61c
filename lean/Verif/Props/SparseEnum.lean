import Verif.Lemmas.SVecEntries
import Verif.Lemmas.MapDrive
import Verif.Props.Reduce

/-!
# C50, C31: enumerating and summing a sparse vector, exactly
-/

namespace GB

set_option linter.unusedSectionVars false

variable {T : Type} [GoNum T] [GoStore T]

/-- C50 in full, for the vector of length `l` after the writes `p`: `Enumerate` ends without a panic, delivers
pairwise different positions, and delivers exactly the positions whose last written value is not zero, with
that value. -/
def EnumRight (l : Nat) (p : List (Nat × T)) : Prop :=
  ∃ s es, (SVec.new l).runVec p = .ok s ∧ Yields SVec.Iter.hasNext s.step s.iter es ∧
    (es.map (fun e => (e.1, e.2.1))).Nodup ∧
    ∀ i j v, (i, j, v) ∈ es ↔ i < l ∧ j = 0 ∧ v = lastWrite 0 i p ∧ isZero v = false

/-- `AtVec(i)` after the writes `p` returns the value last written at `i`. -/
def ReadsAt (l : Nat) (p : List (Nat × T)) (i : Nat) : Prop :=
  ∃ s, (SVec.new l).runVec p = .ok s ∧ s.atVec i = .ok (norm (lastWrite 0 i p))

theorem lastWrite_append (d : T) (i : Nat) (p : List (Nat × T)) (o : Nat × T) :
    lastWrite d i (p ++ [o]) = if o.1 = i then o.2 else lastWrite d i p := by
  simp [lastWrite]

theorem runVec_weak {l : Nat} (p : List (Nat × T)) (hp : ∀ o ∈ p, o.1 < l) :
    ∃ s, (SVec.new l).runVec p = .ok s ∧ s.l = l ∧ s.Weak := by
  induction p using List.reverseRecOn with
  | nil => exact ⟨SVec.new l, rfl, rfl, (SVec.rep_new l).weak⟩
  | append_singleton p o ih =>
    obtain ⟨s, h1, h2, h3⟩ := ih (fun x hx => hp x (by simp [hx]))
    obtain ⟨s', g1, g2, g3⟩ := h3.setVec_ok (i := o.1) (by rw [h2]; exact hp o (by simp)) o.2
    refine ⟨s', ?_, g2.trans h2, g3⟩
    rw [SVec.runVec_append, h1, Out.ok_bind]
    simp only [SVec.runVec, g1, Out.ok_bind]

/-- The stored pairs are those of the last writes. -/
def PairsRight (l : Nat) (p : List (Nat × T)) (ps : List (Nat × T)) : Prop :=
  (ps.map Prod.fst).Nodup ∧ ∀ i v, (i, v) ∈ ps ↔ i < l ∧ v = lastWrite 0 i p ∧ isZero v = false

theorem enumRight_iff {l : Nat} {p : List (Nat × T)} {s : SVec T} (h1 : (SVec.new l).runVec p = .ok s) (hw : s.Weak) :
    EnumRight l p ↔ PairsRight l p s.pairs := by
  have hmap : (s.pairs.map (fun e => (e.1, (0 : Nat), e.2))).map (fun e => (e.1, e.2.1)) =
      (s.pairs.map Prod.fst).map (fun i => (i, (0 : Nat))) := by simp
  constructor
  · rintro ⟨s', es, g1, g2, g3, g4⟩
    obtain rfl : s = s' := Out.ok.inj (h1.symm.trans g1)
    obtain rfl := yields_unique g2 hw.yields
    refine ⟨?_, fun i v => ?_⟩
    · rw [hmap] at g3
      exact List.Nodup.of_map _ g3
    · have := g4 i 0 v
      simp only [true_and] at this
      rw [← this]
      simp
  · rintro ⟨g1, g2⟩
    refine ⟨s, _, h1, hw.yields, ?_, fun i j v => ?_⟩
    · rw [hmap]
      exact g1.map (fun a b h => congrArg Prod.fst h)
    · constructor
      · intro h
        obtain ⟨e, he, hx⟩ := List.mem_map.1 h
        injection hx with e1 e2; injection e2 with e2 e3
        subst e1 e2 e3
        obtain ⟨a, b, c⟩ := (g2 e.1 e.2).1 he
        exact ⟨a, rfl, b, c⟩
      · rintro ⟨a, rfl, b, c⟩
        exact List.mem_map.2 ⟨(i, v), (g2 i v).2 ⟨a, b, c⟩, rfl⟩

/-- One write keeps the enumeration right exactly when `AtVec` read the position right before it. -/
theorem enumRight_step {l : Nat} {p : List (Nat × T)} {o : Nat × T} (hp : ∀ x ∈ p, x.1 < l) (ho : o.1 < l)
    (h : EnumRight l p) : EnumRight l (p ++ [o]) ↔ ReadsAt l p o.1 := by
  obtain ⟨s, h1, h2, h3⟩ := runVec_weak p hp
  rw [enumRight_iff h1 h3] at h
  obtain ⟨hn, hm⟩ := h
  obtain ⟨i, v⟩ := o
  obtain ⟨s', g1, g2, g3, g4⟩ := h3.write (i := i) (by rw [h2]; exact ho) v
  have hrun : (SVec.new l).runVec (p ++ [(i, v)]) = .ok s' := by
    rw [SVec.runVec_append, h1, Out.ok_bind]
    simp only [SVec.runVec, g1, Out.ok_bind]
  rw [enumRight_iff hrun g3]
  have hlw : ∀ k, lastWrite 0 k (p ++ [(i, v)]) = if i = k then v else lastWrite 0 k p := fun k => lastWrite_append 0 k p (i, v)
  have hread : ∀ x, s.atVec i = .ok x → (ReadsAt l p i ↔ x = norm (lastWrite 0 i p)) := by
    intro x hx
    constructor
    · rintro ⟨s'', k1, k2⟩
      obtain rfl : s = s'' := Out.ok.inj (h1.symm.trans k1)
      exact Out.ok.inj (hx.symm.trans k2)
    · intro hx'
      exact ⟨s, h1, by rw [hx, hx']⟩
  rcases g4 with ⟨a, x, b, e1, e2, e3⟩ | ⟨a, b, e1, e2, e3⟩
  · -- found
    have hx := (hm i x).1 (by rw [e1]; simp)
    rw [hread x e2]
    have hxn : x = norm (lastWrite 0 i p) := by
      unfold norm
      rw [← hx.2.1, if_neg (by rw [hx.2.2]; simp)]
    refine iff_of_true ?_ hxn
    rw [e1] at hn hm
    have hnot : ∀ y, (i, y) ∉ a ++ b := by
      intro y hy
      have hn' : (i :: (a ++ b).map Prod.fst).Nodup := by
        have : ((a ++ (i, x) :: b).map Prod.fst).Perm (i :: (a ++ b).map Prod.fst) := by
          simp
        exact this.nodup_iff.1 hn
      exact (List.nodup_cons.1 hn').1 (List.mem_map.2 ⟨_, hy, rfl⟩)
    have hab : ∀ k y, (k, y) ∈ a ++ b ↔ k ≠ i ∧ (k, y) ∈ a ++ (i, x) :: b := by
      intro k y
      constructor
      · intro hk
        refine ⟨fun hki => hnot y (hki ▸ hk), ?_⟩
        simp only [List.mem_append, List.mem_cons] at hk ⊢
        tauto
      · rintro ⟨hk, hk'⟩
        simp only [List.mem_append, List.mem_cons, Prod.mk.injEq] at hk' ⊢
        tauto
    by_cases hz : isZero v = true
    · rw [if_pos hz] at e3
      rw [e3]
      refine ⟨?_, fun k y => ?_⟩
      · exact hn.sublist (List.Sublist.map _ (List.Sublist.append (List.Sublist.refl a) (List.sublist_cons_self _ _)))
      · rw [hab, hm, hlw]
        by_cases hk : i = k
        · subst hk
          simp only [ne_eq, not_true, false_and, if_true, false_iff, not_and]
          rintro - rfl; simp [hz]
        · rw [if_neg hk]
          have : k ≠ i := Ne.symm hk
          tauto
    · rw [if_neg hz] at e3
      rw [e3]
      refine ⟨?_, fun k y => ?_⟩
      · have : (a ++ (i, v) :: b).map Prod.fst = (a ++ (i, x) :: b).map Prod.fst := by simp
        rw [this]; exact hn
      · have hsp : (k, y) ∈ a ++ (i, v) :: b ↔ (k = i ∧ y = v) ∨ (k, y) ∈ a ++ b := by
          simp only [List.mem_append, List.mem_cons, Prod.mk.injEq]; tauto
        rw [hsp, hab, hm, hlw]
        by_cases hk : i = k
        · subst hk
          simp only [true_and, ne_eq, not_true, false_and, or_false, if_true]
          constructor
          · rintro rfl; exact ⟨ho, rfl, by simpa using hz⟩
          · exact fun h => h.2.1
        · rw [if_neg hk]
          have : k ≠ i := Ne.symm hk
          tauto
  · -- not found
    rw [hread 0 e2]
    rw [← e1] at e3
    constructor
    · rintro ⟨k1, k2⟩
      by_contra hne
      have hnz : isZero (lastWrite 0 i p) = false := by
        by_contra h0
        have h0 : isZero (lastWrite 0 i p) = true := by simpa using h0
        exact hne (by unfold norm; rw [if_pos h0])
      have hmem : (i, lastWrite 0 i p) ∈ s.pairs := (hm _ _).2 ⟨ho, rfl, hnz⟩
      by_cases hz : isZero v = true
      · rw [if_pos hz] at e3
        rw [e3] at k2
        have := (k2 _ _).1 hmem
        rw [hlw, if_pos rfl] at this
        rw [this.2.1, hz] at hnz
        simp at hnz
      · rw [if_neg hz] at e3
        rw [e3] at k1
        have hn' : (i :: (a ++ b).map Prod.fst).Nodup := by
          have : ((a ++ (i, v) :: b).map Prod.fst).Perm (i :: (a ++ b).map Prod.fst) := by
            simp
          exact this.nodup_iff.1 k1
        exact (List.nodup_cons.1 hn').1 (List.mem_map.2 ⟨_, e1 ▸ hmem, rfl⟩)
    · intro h0
      have hz0 : isZero (lastWrite 0 i p) = true := by
        by_contra hc
        unfold norm at h0
        rw [if_neg hc] at h0
        exact hc (by rw [← h0, isZero_zero])
      have hnot : ∀ y, (i, y) ∉ s.pairs := by
        intro y hy
        have := (hm _ _).1 hy
        rw [this.2.1, hz0] at this
        simp at this
      by_cases hz : isZero v = true
      · rw [if_pos hz] at e3
        rw [e3]
        refine ⟨hn, fun k y => ?_⟩
        rw [hm, hlw]
        by_cases hk : i = k
        · subst hk
          rw [if_pos rfl]
          constructor
          · rintro ⟨_, rfl, h⟩; rw [hz0] at h; simp at h
          · rintro ⟨_, rfl, h⟩; rw [hz] at h; simp at h
        · rw [if_neg hk]
      · rw [if_neg hz] at e3
        rw [e3]
        rw [e1] at hn hm hnot
        refine ⟨?_, fun k y => ?_⟩
        · have : ((a ++ (i, v) :: b).map Prod.fst).Perm (i :: (a ++ b).map Prod.fst) := by
            simp
          rw [this.nodup_iff]
          refine List.nodup_cons.2 ⟨fun hi => ?_, hn⟩
          obtain ⟨e, he, hei⟩ := List.mem_map.1 hi
          exact hnot e.2 (by rw [← hei]; exact he)
        · have hsp : (k, y) ∈ a ++ (i, v) :: b ↔ (k = i ∧ y = v) ∨ (k, y) ∈ a ++ b := by
            simp only [List.mem_append, List.mem_cons, Prod.mk.injEq]; tauto
          rw [hsp, hlw]
          by_cases hk : i = k
          · subst hk
            simp only [true_and, if_true, hnot, or_false]
            constructor
            · rintro rfl; exact ⟨ho, rfl, by simpa using hz⟩
            · exact fun h => h.2.1
          · rw [if_neg hk, hm]
            have : k ≠ i := Ne.symm hk
            tauto

/-- C50, exactly when: after every write of a history `Enumerate` is right if and only if each write finds
its position as it was left: `AtVec` at the position about to be written returns the value last written
there. -/
theorem C50_iff (l : Nat) (ops : List (Nat × T)) (hops : ∀ o ∈ ops, o.1 < l) :
    (∀ n, EnumRight l (ops.take n)) ↔ ∀ n (h : n < ops.length), ReadsAt l (ops.take n) ops[n].1 := by
  have hr : ∀ n, ∀ o ∈ ops.take n, o.1 < l := fun n o ho => hops o (List.mem_of_mem_take ho)
  have hst : ∀ n (h : n < ops.length), EnumRight l (ops.take n) →
      (EnumRight l (ops.take (n + 1)) ↔ ReadsAt l (ops.take n) ops[n].1) := by
    intro n h he
    rw [List.take_succ_eq_append_getElem h]
    exact enumRight_step (hr n) (hops _ (List.getElem_mem h)) he
  constructor
  · intro h n hn
    exact (hst n hn (h n)).1 (h (n + 1))
  · intro h n
    induction n with
    | zero =>
      refine ⟨SVec.new l, [], rfl, (SVec.rep_new l).yields, by simp, fun i j v => ?_⟩
      simp only [List.take_zero, List.not_mem_nil, lastWrite, List.foldl_nil, false_iff, not_and]
      rintro - - rfl
      simp [isZero_zero]
    | succ n ih =>
      by_cases hn : n < ops.length
      · exact (hst n hn ih).2 (h n hn)
      · rw [List.take_of_length_le (by omega)]
        rwa [List.take_of_length_le (by omega)] at ih

/-- Out of order, past the number of entries, and still right: 7 at 5, then 8 at 3, then 9 at 4. -/
example : ∃ s : SVec ℤ, (SVec.new 6).runVec [(5, 7), (3, 8), (4, 9)] = .ok s ∧ s.indices = [5, 3, 4] ∧ s.values = [7, 8, 9] :=
  ⟨_, rfl, rfl, rfl⟩

example : ∀ n, EnumRight (T := ℤ) 6 ([(5, 7), (3, 8), (4, 9)].take n) :=
  (C50_iff 6 [(5, 7), (3, 8), (4, 9)] (by decide)).2 (by
    intro n hn
    have hn : n < 3 := hn
    obtain rfl | rfl | rfl : n = 0 ∨ n = 1 ∨ n = 2 := by omega
    · exact ⟨_, rfl, rfl⟩
    · exact ⟨_, rfl, rfl⟩
    · exact ⟨_, rfl, rfl⟩)

/-! ## C31 -/

/-- C31 for a sparse vector in any reachable state: a reduction folds over what `Enumerate` delivers, in that
order. -/
theorem C31_sparse_vector_fold {w : World T} {s : Ref} {v : SVec T} (mo : MonoID T) (hv : w.heap s = .svec v)
    (hs : Reach (w.heap s)) (hg : (w.heap s).nvalues ≤ w.gas) (hc : w.cancel = none) {mask : Mask}
    (hS : mask.Sound w) (hF : mask.Fits w s) :
    ∃ es, Yields SVec.Iter.hasNext v.step v.iter es ∧ Ops.reduceScalar s mo mask w =
        .ok (((es.filter (fun e => !mask.bit w e.1 e.2.1)).map (fun e => e.2.2)).foldl mo.op mo.unit) w := by
  rw [hv] at hs hg
  have hw := hs.weak
  refine ⟨_, hw.yields, ?_⟩
  refine Ops.reduceScalar_ok mo (by rw [hv]; exact Mat.svec_yields _ _ hw.yields) ?_ ?_ hS hF hc
  · intro e he
    obtain ⟨x, hx, rfl⟩ := List.mem_map.1 he
    rw [hv]
    exact ⟨(hw.pairs_bound hx).1, Nat.one_pos⟩
  · rw [List.length_map, hw.length, hw.len]
    exact hg

end GB

namespace GB

/-- C31 for a sparse vector after any history of writes of which `Enumerate` is right (`C50_iff` tells which):
`ReduceMatrixToScalar` is the sum of the values last written, also where `AtVec` misses some of them. Missing:
histories of which the enumeration is wrong. -/
theorem C31_history_partial {T : Type} [GoRing T] [GoStore T] [GoLawful T] {w : World T} {s : Ref} {v : SVec T} {l : Nat} {p : List (Nat × T)}
    (hv : w.heap s = .svec v) (hrun : (SVec.new l).runVec p = .ok v) (hp : ∀ o ∈ p, o.1 < l) (hE : EnumRight l p)
    (hg : (w.heap s).nvalues ≤ w.gas) (hc : w.cancel = none) :
    Ops.reduceMatrixToScalar s .nil w = .ok (∑ i ∈ Finset.range l, lastWrite 0 i p) w := by
  obtain ⟨v', h1, h2, hw⟩ := runVec_weak p hp
  obtain rfl : v = v' := Out.ok.inj (hrun.symm.trans h1)
  rw [enumRight_iff h1 hw] at hE
  obtain ⟨hn, hm⟩ := hE
  rw [hv] at hg
  unfold Ops.reduceMatrixToScalar
  rw [Ops.reduceScalar_ok (mask := .nil) (MonoID.addition T) (by rw [hv]; exact Mat.svec_yields _ _ hw.yields) (by
      intro e he
      obtain ⟨x, hx, rfl⟩ := List.mem_map.1 he
      rw [hv]
      exact ⟨(hw.pairs_bound hx).1, Nat.one_pos⟩) (by rw [List.length_map, hw.length, hw.len]; exact hg) trivial trivial hc]
  congr 1
  refine (foldl_add _).trans ?_
  have e1 : Ops.sent w .nil (v.pairs.map (fun e => (e.1, (0 : Nat), e.2))) = (v.pairs.map Prod.fst).map (fun i => lastWrite 0 i p) := by
    unfold Ops.sent
    have hf : (v.pairs.map (fun e => (e.1, (0 : Nat), e.2))).filter (fun e => !Mask.nil.bit w e.1 e.2.1) =
        v.pairs.map (fun e => (e.1, (0 : Nat), e.2)) := by
      rw [List.filter_eq_self]; intro e _; rfl
    rw [hf, List.map_map, List.map_map]
    exact List.map_congr_left (fun e he => ((hm e.1 e.2).1 he).2.1)
  rw [e1, ← List.sum_toFinset _ hn]
  refine Finset.sum_subset ?_ ?_
  · intro i hi
    obtain ⟨e, he, rfl⟩ := List.mem_map.1 (List.mem_toFinset.1 hi)
    exact Finset.mem_range.2 ((hm e.1 e.2).1 he).1
  · intro i hi hni
    by_contra h0
    refine hni (List.mem_toFinset.2 (List.mem_map.2 ⟨(i, lastWrite 0 i p), (hm _ _).2 ⟨Finset.mem_range.1 hi, rfl, ?_⟩, rfl⟩))
    rw [Bool.eq_false_iff]
    exact fun hz => h0 ((isZero_iff _).1 hz)

/-- `C31_history_partial` on the vector of the example above, where `AtVec(5)` and `AtVec(4)` are 0: the sum is 24. -/
example : (Ops.reduceMatrixToScalar 0 .nil (World.of (T := ℤ) 10 [.svec { l := 6, values := [7, 8, 9], indices := [5, 3, 4] }])).val =
    some 24 := by decide +kernel

end GB
