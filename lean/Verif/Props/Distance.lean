import Verif.Props.BFS
import Mathlib.Data.Set.Card
import Mathlib.Data.Int.Cast.Lemmas

/-!
# Distances and numbers of shortest paths by breadth-first search: C72
-/

namespace GB

set_option linter.unusedSectionVars false

open M

/-- The edges of a matrix read as a graph: `l → r` when cell `(r, l)` is not 0. -/
def edgeOf {T : Type} [GoNum T] (A : Mat T) (l r : Nat) : Prop := l < A.cols ∧ r < A.rows ∧ A.val r l ≠ 0

/-- The predicate `func(v) bool { return v.AtVec(t) != 0 }`: it looks at the vector of the last call. -/
def reached {T : Type} [GoNum T] (t : Nat) (calls : List (Mat T)) : Bool :=
  match calls.getLast? with
  | some m => !isZero (m.val t 0)
  | none => false

/-- The walks of `k` edges from `s` to `v`, as lists of vertices, last vertex first. -/
def pathsTo (E : Nat → Nat → Prop) (s k v : Nat) : Set (List Nat) :=
  {p | p.length = k + 1 ∧ p.head? = some v ∧ p.getLast? = some s ∧ p.IsChain (fun b a => E a b)}

theorem pathsTo_zero {E : Nat → Nat → Prop} {s v : Nat} : pathsTo E s 0 v = if v = s then {[s]} else ∅ := by
  ext p
  constructor
  · rintro ⟨h1, h2, h3, -⟩
    obtain ⟨x, rfl⟩ := List.length_eq_one_iff.1 h1
    simp at h2 h3
    rw [if_pos (h2.symm.trans h3), h3]
    rfl
  · split
    · rintro rfl
      exact ⟨rfl, by simp [*], rfl, by simp⟩
    · rintro ⟨⟩

theorem pathsTo_succ {E : Nat → Nat → Prop} {s k v : Nat} :
    pathsTo E s (k + 1) v = ⋃ l ∈ {l | E l v}, (List.cons v) '' pathsTo E s k l := by
  ext p
  simp only [Set.mem_iUnion, Set.mem_image, Set.mem_ofPred_eq, exists_prop]
  constructor
  · rintro ⟨h1, h2, h3, h4⟩
    match p, h1, h2, h3, h4 with
    | x :: y :: q, h1, h2, h3, h4 =>
      simp only [List.head?_cons, Option.some.injEq] at h2
      subst h2
      rw [List.isChain_cons_cons] at h4
      refine ⟨y, h4.1, y :: q, ⟨by simpa using h1, rfl, by simpa using h3, h4.2⟩, rfl⟩
  · rintro ⟨l, he, q, ⟨h1, h2, h3, h4⟩, rfl⟩
    match q, h1, h2, h3, h4 with
    | y :: q, h1, h2, h3, h4 =>
      simp only [List.head?_cons, Option.some.injEq] at h2
      subst h2
      exact ⟨by simpa using h1, rfl, by simpa using h3, by rw [List.isChain_cons_cons]; exact ⟨he, h4⟩⟩

/-- The number of walks is the sum over walks of the weights 0 and 1. -/
theorem pathsTo_card {E : Nat → Nat → Prop} [∀ l r, Decidable (E l r)] {n s : Nat} (hE : ∀ l r, E l r → l < n) :
    ∀ k v, ∃ P : Finset (List Nat), (P : Set (List Nat)) = pathsTo E s k v ∧
      P.card = walkSum (fun l r => if E l r then 1 else 0) n s k v := by
  intro k
  induction k with
  | zero =>
    intro v
    rw [pathsTo_zero, walkSum]
    split
    · exact ⟨{[s]}, by simp, rfl⟩
    · exact ⟨∅, by simp, rfl⟩
  | succ k ih =>
    intro v
    choose P h1 h2 using ih
    refine ⟨((Finset.range n).filter (fun l => E l v)).biUnion (fun l => (P l).image (List.cons v)), ?_, ?_⟩
    · rw [pathsTo_succ]
      ext p
      simp only [Finset.coe_biUnion, Finset.coe_filter, Finset.mem_range, Finset.coe_image, h1, Set.mem_iUnion,
        Set.mem_ofPred_eq, exists_prop]
      exact ⟨fun ⟨l, hl, hp⟩ => ⟨l, hl.2, hp⟩, fun ⟨l, hl, hp⟩ => ⟨l, ⟨hE l v hl, hl⟩, hp⟩⟩
    · rw [Finset.card_biUnion, walkSum, Finset.sum_filter]
      · refine Finset.sum_congr rfl fun l _ => ?_
        rw [Finset.card_image_of_injective _ (List.cons_injective), h2]
        split <;> simp
      · intro l _ l' _ hne
        rw [Function.onFun, Finset.disjoint_left]
        intro p hp hp'
        obtain ⟨q, hq, rfl⟩ := Finset.mem_image.1 hp
        obtain ⟨q', hq', e⟩ := Finset.mem_image.1 hp'
        obtain rfl : q' = q := by simpa using e
        have a : q' ∈ pathsTo E s k l := by rw [← h1]; exact hq
        have b : q' ∈ pathsTo E s k l' := by rw [← h1]; exact hq'
        exact hne (Option.some.inj (a.2.1.symm.trans b.2.1))

section
variable {T : Type} [GoRing T] [GoLawful T]

/-- What a correct search does with the predicate `reached t`. -/
theorem SearchCorrect.target {w : World T} {a : Ref} {s t : Nat} (h : SearchCorrect w a s (reached t))
    (hs : s < (w.heap a).rows) (ht : t < (w.heap a).rows) :
    ∃ p calls w', BFS.search a s (reached t) w = .ok (p, calls) w' ∧
      (∀ k, Dist (edgeOf (w.heap a)) s (k + 1) t → calls.length = k + 1 ∧
        (∀ hk : k < calls.length, w'.heap p = calls[k]) ∧ (w'.heap p).val t 0 ≠ 0) ∧
      ((∀ k, ¬ Dist (edgeOf (w.heap a)) s (k + 1) t) → calls.length = (w.heap a).rows ∧
        ∀ v, v < (w.heap a).rows → (w'.heap p).val v 0 = 0) := by
  obtain ⟨p, calls, w', h1, h2, h3, h4, h5, -, -⟩ := h
  have key : ∀ d (hd : d < calls.length), (reached t (calls.take (d + 1)) = true ↔
      Dist (edgeOf (w.heap a)) s (d + 1) t) := by
    intro d hd
    rw [← (show _ ↔ Dist (edgeOf (w.heap a)) s (d + 1) t from (h3 d hd).2.2 t ht)]
    unfold reached
    rw [List.getLast?_eq_getElem?, List.length_take, Nat.min_eq_left hd, Nat.succ_sub_one, List.getElem?_take,
      if_pos (Nat.lt_succ_self d), List.getElem?_eq_getElem hd]
    simp only [Bool.not_eq_true']
    rw [← Bool.not_eq_true, isZero_iff]
  refine ⟨p, calls, w', h1, fun k hk => ?_, fun hn => ?_⟩
  · have hlt : k + 1 < (w.heap a).rows := hk.lt hs (fun u v he => he.2.1)
    have hlen : calls.length = k + 1 := by
      rcases Nat.lt_trichotomy calls.length (k + 1) with hl | he | hg
      · exfalso
        rcases h5 with ⟨h6, -⟩ | ⟨-, h6, -⟩
        · rcases Nat.eq_zero_or_pos calls.length with h0 | h0
          · rw [List.length_eq_zero_iff.1 h0] at h6
            exact absurd h6 (by simp [reached])
          · have := key (calls.length - 1) (by omega)
            rw [List.take_of_length_le (by omega)] at this
            have := (this.1 h6).unique hk
            omega
        · omega
      · exact he
      · have := h4 k hg
        rw [← Bool.not_eq_true, key k (by omega)] at this
        exact absurd hk this
    have hc : reached t calls = true := by
      have := (key k (by omega)).2 hk
      rwa [List.take_of_length_le (by omega)] at this
    rcases h5 with ⟨-, h7⟩ | ⟨h6, -⟩
    · have e : w'.heap p = calls[k]'(by omega) := by
        rw [List.getLast?_eq_getElem?, hlen, Nat.add_sub_cancel, List.getElem?_eq_getElem (by omega)] at h7
        exact (Option.some.inj h7).symm
      refine ⟨hlen, fun _ => e, ?_⟩
      rw [e]
      exact ((h3 k (by omega)).2.2 t ht).2 hk
    · rw [hc] at h6; cases h6
  · rcases h5 with ⟨h6, -⟩ | ⟨-, h7, -, -, h8⟩
    · exfalso
      rcases Nat.eq_zero_or_pos calls.length with h0 | h0
      · rw [List.length_eq_zero_iff.1 h0] at h6
        exact absurd h6 (by simp [reached])
      · have := key (calls.length - 1) (by omega)
        rw [List.take_of_length_le (by omega)] at this
        exact hn _ (this.1 h6)
    · exact ⟨h7, h8⟩

/-- C72, distances. With the predicate "the vector is not 0 at `t`", for a graph no set of shortest
walks of which weighs 0 or less, the predicate is called exactly as often as the distance from the
source to `t` (and the result is not 0 at `t`); if `t` is the source or cannot be reached, it is called
`Rows()` times and the result is 0 everywhere. -/
theorem C72_distance {w : World T} {a : Ref} {s t : Nat} (han : a < w.next)
    (hw : (w.heap a).WF) (hsq : (w.heap a).cols = (w.heap a).rows) (hfit : (w.heap a).RowsFit)
    (hz : GoNum.glt (0 : T) 0 = false) (hpos : ShortestPositive (w.heap a) s)
    (hs : s < (w.heap a).rows) (ht : t < (w.heap a).rows) (hc : w.cancel = none) (hg : (w.heap a).rows ≤ w.gas) :
    ∃ p calls w', BFS.search a s (reached t) w = .ok (p, calls) w' ∧
      (∀ k, Dist (edgeOf (w.heap a)) s (k + 1) t → calls.length = k + 1 ∧ (w'.heap p).val t 0 ≠ 0) ∧
      (t = s ∨ (∀ k, ¬ Walk (edgeOf (w.heap a)) s k t) → calls.length = (w.heap a).rows ∧
        ∀ v, v < (w.heap a).rows → (w'.heap p).val v 0 = 0) := by
  obtain ⟨p, calls, w', h1, h2, h3⟩ := (C36_search (reached t) han hw hsq hfit hz hpos hs hc hg).1.target hs ht
  refine ⟨p, calls, w', h1, fun k hk => ⟨(h2 k hk).1, (h2 k hk).2.2⟩, fun h => h3 fun k hd => ?_⟩
  rcases h with rfl | h
  · exact hd.2 0 (Nat.succ_pos k) .zero
  · exact h _ hd.1

/-- The sums over walks of a matrix of zeros and ones are numbers of walks. -/
theorem walkSum_paths {A : Mat T} {s : Nat} (hsq : A.cols = A.rows)
    (h01 : ∀ i j, i < A.rows → j < A.cols → A.val i j = 0 ∨ A.val i j = 1) (hne : (1 : T) ≠ 0) (k v : Nat) (hv : v < A.rows) :
    walkSum (fun l r => A.val r l) A.rows s k v = (((pathsTo (edgeOf A) s k v).ncard : Nat) : T) := by
  classical
  have hN : ∀ l r, l < A.rows → r < A.rows → A.val r l = (((fun l r => if edgeOf A l r then 1 else 0) l r : Nat) : T) := by
    intro l r hl hr
    rcases h01 r l hr (by rw [hsq]; exact hl) with h | h
    · rw [h]
      simp only
      rw [if_neg (fun e => e.2.2 h), Nat.cast_zero]
    · rw [h]
      simp only
      rw [if_pos ⟨by rw [hsq]; exact hl, hr, by rw [h]; exact hne⟩, Nat.cast_one]
  rw [BFS.walkSum_cast hN k v hv]
  obtain ⟨P, p1, p2⟩ := pathsTo_card (E := edgeOf A) (n := A.rows) (s := s) (fun l r h => hsq ▸ h.1) k v
  rw [← p1, Set.ncard_coe_finset, p2]

/-- The result of a search that is correct and weighs walks, with the predicate `reached t`. -/
theorem SearchWeighs.target {w : World T} {a : Ref} {s t : Nat} (hC : SearchCorrect w a s (reached t))
    (hW : SearchWeighs w a s (reached t)) (hs : s < (w.heap a).rows) (ht : t < (w.heap a).rows) :
    ∃ p calls w', BFS.search a s (reached t) w = .ok (p, calls) w' ∧
      ∀ k, Dist (edgeOf (w.heap a)) s (k + 1) t → calls.length = k + 1 ∧
        (w'.heap p).val t 0 = walkSum (fun l r => (w.heap a).val r l) (w.heap a).rows s (k + 1) t := by
  obtain ⟨p, calls, w', h1, h2, -⟩ := hC.target hs ht
  obtain ⟨p', calls', w'', g1, g2⟩ := hW
  rw [h1] at g1
  cases g1
  refine ⟨p, calls, w', h1, fun k hk => ?_⟩
  obtain ⟨e1, e2, -⟩ := h2 k hk
  refine ⟨e1, ?_⟩
  rw [e2 (by omega)]
  exact (g2 k (by omega) t ht).1 hk

/-- C72, counting. If the cells are 0 and 1 and the numbers of shortest walks are positive in the
arithmetic (they do not wrap), the result holds, at `t`, the number of shortest walks from the source
to `t`. -/
theorem C72_count {w : World T} {a : Ref} {s t : Nat} (han : a < w.next)
    (hw : (w.heap a).WF) (hsq : (w.heap a).cols = (w.heap a).rows) (hfit : (w.heap a).RowsFit)
    (h01 : ∀ i j, i < (w.heap a).rows → j < (w.heap a).cols → (w.heap a).val i j = 0 ∨ (w.heap a).val i j = 1)
    (hne : (1 : T) ≠ 0) (hz : GoNum.glt (0 : T) 0 = false)
    (hpos : ∀ k v, v < (w.heap a).rows → Dist (edgeOf (w.heap a)) s k v →
      GoNum.glt 0 (((pathsTo (edgeOf (w.heap a)) s k v).ncard : Nat) : T) = true)
    (hs : s < (w.heap a).rows) (ht : t < (w.heap a).rows) (hc : w.cancel = none) (hg : (w.heap a).rows ≤ w.gas) :
    ∃ p calls w', BFS.search a s (reached t) w = .ok (p, calls) w' ∧
      ∀ k, Dist (edgeOf (w.heap a)) s (k + 1) t → calls.length = k + 1 ∧
        (w'.heap p).val t 0 = (((pathsTo (edgeOf (w.heap a)) s (k + 1) t).ncard : Nat) : T) := by
  obtain ⟨hC, hW⟩ := C36_search (reached t) han hw hsq hfit hz
    (fun k v hv hd => by rw [walkSum_paths hsq h01 hne k v hv]; exact hpos k v hv hd) hs hc hg
  obtain ⟨p, calls, w', h1, h2⟩ := SearchWeighs.target hC hW hs ht
  exact ⟨p, calls, w', h1, fun k hk => ⟨(h2 k hk).1, by rw [(h2 k hk).2, walkSum_paths hsq h01 hne _ t ht]⟩⟩

end

section
variable {T : Type} [GoRing T] [GoLawful T] [LinearOrder T] [GoOrd T] [IsStrictOrderedRing T]

/-- C72, counting, in exact arithmetic: for every matrix of zeros and ones. -/
theorem C72_count_exact {w : World T} {a : Ref} {s t : Nat} (han : a < w.next)
    (hw : (w.heap a).WF) (hsq : (w.heap a).cols = (w.heap a).rows) (hfit : (w.heap a).RowsFit)
    (h01 : ∀ i j, i < (w.heap a).rows → j < (w.heap a).cols → (w.heap a).val i j = 0 ∨ (w.heap a).val i j = 1)
    (hs : s < (w.heap a).rows) (ht : t < (w.heap a).rows) (hc : w.cancel = none) (hg : (w.heap a).rows ≤ w.gas) :
    ∃ p calls w', BFS.search a s (reached t) w = .ok (p, calls) w' ∧
      ∀ k, Dist (edgeOf (w.heap a)) s (k + 1) t → calls.length = k + 1 ∧
        (w'.heap p).val t 0 = (((pathsTo (edgeOf (w.heap a)) s (k + 1) t).ncard : Nat) : T) := by
  obtain ⟨hC, hW⟩ := C36_search_partial (reached t) han hw hsq hfit (fun i j hi hj => by
    rcases h01 i j hi hj with h | h <;> rw [h]
    exact zero_le_one) hs hc hg
  obtain ⟨p, calls, w', h1, h2⟩ := SearchWeighs.target hC hW hs ht
  exact ⟨p, calls, w', h1, fun k hk => ⟨(h2 k hk).1, by rw [(h2 k hk).2, walkSum_paths hsq h01 one_ne_zero _ t ht]⟩⟩

end

/-! ## Cases -/

/-- 0 → 1 → 3 and 0 → 2 → 3. -/
def twoPaths : Mat ℤ := .dense ⟨4, 4, [[0, 0, 0, 0], [1, 0, 0, 0], [1, 0, 0, 0], [0, 1, 1, 0]]⟩

/-- The predicate is called twice and the result is 2 at the vertex 3. -/
example : (match BFS.search 0 0 (reached 3) (World.of (T := ℤ) 9 [twoPaths]) with
    | .ok (p, calls) w => some (w.heap p, calls.length)
    | _ => none) = some (.dvec ⟨4, [0, 0, 0, 2]⟩, 2) := by kernel_rfl

/-- The hypotheses of `C72_count_exact` hold of it, so there are two shortest walks. -/
example : (pathsTo (edgeOf twoPaths) 0 2 3).ncard = 2 := by
  obtain ⟨p, calls, w', h1, h2⟩ := C72_count_exact (w := World.of (T := ℤ) 9 [twoPaths]) (a := 0) (s := 0) (t := 3)
    (by decide) (by
      refine ⟨rfl, ?_⟩
      intro row hr; simp at hr; rcases hr with rfl | rfl | rfl | rfl <;> rfl) rfl (Mat.fit_dense (by decide)).1 (by
      intro i j hi hj
      have hi : i < 4 := hi
      have hj : j < 4 := hj
      interval_cases i <;> interval_cases j <;> decide +kernel) (by decide) (by decide) rfl (by decide)
  have hrun : (match BFS.search 0 0 (reached 3) (World.of (T := ℤ) 9 [twoPaths]) with
    | .ok (p, _) w => (w.heap p).val 3 0
    | _ => 0) = 2 := by kernel_rfl
  have hD : Dist (edgeOf twoPaths) 0 2 3 := by
    refine ⟨.succ (u := 1) (.succ (u := 0) .zero ⟨by decide, by decide, by decide +kernel⟩)
      ⟨by decide, by decide, by decide +kernel⟩, ?_⟩
    intro k hk hwk
    rcases hwk with _ | ⟨hw, he⟩
    rename_i k' u
    obtain rfl : k' = 0 := by omega
    cases hw
    exact absurd he.2.2 (by decide +kernel)
  have h3 := (h2 1 hD).2
  rw [show ((0 : Nat) : Int) = 0 from rfl] at h1
  rw [h1] at hrun
  exact_mod_cast h3.symm.trans hrun

end GB
