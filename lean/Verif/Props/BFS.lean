import Verif.Lemmas.BFS
import Mathlib.Tactic.IntervalCases
import Mathlib.Data.Matrix.Mul
import Mathlib.Algebra.BigOperators.Fin

/-!
# Breadth-first search: C36
-/

namespace GB

set_option linter.unusedSectionVars false

open M

/-- C36 for the call `Search(A, s, c)` in `w`: it returns; the predicate was called at most `Rows()`
times; the vector of its `d`-th call is a dense vector of length `Rows()`, non-zero exactly at the
vertices at distance `d` from the source; only the last call may have answered true, and then that
vector is the result; otherwise there were `Rows()` calls and the result is 0 everywhere. No object
of the caller was written. -/
def SearchCorrect {T : Type} [GoNum T] (w : World T) (a : Ref) (s : Nat) (c : List (Mat T) → Bool) : Prop :=
  ∃ p calls w', BFS.search a s c w = .ok (p, calls) w' ∧ calls.length ≤ (w.heap a).rows ∧
    (∀ d (hd : d < calls.length), calls[d].kind = .dvec ∧ calls[d].rows = (w.heap a).rows ∧
      ∀ v, v < (w.heap a).rows → (calls[d].val v 0 ≠ 0 ↔
        Dist (fun l r => l < (w.heap a).cols ∧ r < (w.heap a).rows ∧ (w.heap a).val r l ≠ 0) s (d + 1) v)) ∧
    (∀ d, d + 1 < calls.length → c (calls.take (d + 1)) = false) ∧
    ((c calls = true ∧ calls.getLast? = some (w'.heap p)) ∨
      (c calls = false ∧ calls.length = (w.heap a).rows ∧ (w'.heap p).kind = .dvec ∧
        (w'.heap p).rows = (w.heap a).rows ∧ ∀ v, v < (w.heap a).rows → (w'.heap p).val v 0 = 0)) ∧
    w.next ≤ p ∧ ∀ q, q < w.next → w'.heap q = w.heap q

/-- The `d`-th vector given to the predicate holds, at a vertex at distance `d` from the source, the sum
over the shortest walks to it of the products of their weights; 0 elsewhere. -/
def SearchWeighs {T : Type} [GoRing T] (w : World T) (a : Ref) (s : Nat) (c : List (Mat T) → Bool) : Prop :=
  ∃ p calls w', BFS.search a s c w = .ok (p, calls) w' ∧
    ∀ d (hd : d < calls.length), ∀ v, v < (w.heap a).rows →
      (Dist (fun l r => l < (w.heap a).cols ∧ r < (w.heap a).rows ∧ (w.heap a).val r l ≠ 0) s (d + 1) v →
        calls[d].val v 0 = walkSum (fun l r => (w.heap a).val r l) (w.heap a).rows s (d + 1) v) ∧
      (¬ Dist (fun l r => l < (w.heap a).cols ∧ r < (w.heap a).rows ∧ (w.heap a).val r l ≠ 0) s (d + 1) v →
        calls[d].val v 0 = 0)

/-- The weight of every set of shortest walks counts as positive. -/
def ShortestPositive {T : Type} [GoRing T] (A : Mat T) (s : Nat) : Prop :=
  ∀ k v, v < A.rows → Dist (fun l r => l < A.cols ∧ r < A.rows ∧ A.val r l ≠ 0) s k v →
    GoNum.glt 0 (walkSum (fun l r => A.val r l) A.rows s k v) = true

section ring
variable {T : Type} [GoRing T] [GoLawful T]

/-- C36 for every arithmetic, wrapping included: every square matrix whose rows multiplication reads
back exactly (dense matrices always, `Mat.fit_dense`), every source, every predicate (it may keep
state), as long as no sum over shortest walks fails to be positive. -/
theorem C36_search {w : World T} {a : Ref} {s : Nat} (c : List (Mat T) → Bool) (han : a < w.next)
    (hw : (w.heap a).WF) (hsq : (w.heap a).cols = (w.heap a).rows) (hfit : (w.heap a).RowsFit)
    (hz : GoNum.glt (0 : T) 0 = false) (hpos : ShortestPositive (w.heap a) s)
    (hs : s < (w.heap a).rows) (hc : w.cancel = none) (hg : (w.heap a).rows ≤ w.gas) :
    SearchCorrect w a s c ∧ SearchWeighs w a s c := by
  obtain ⟨w3, frontier, visited, result, hrun, hinv⟩ := BFS.start han hs hc
  have hgraph : BFS.Graph (w.heap a) := ⟨hw, hsq, hfit, hz⟩
  obtain ⟨tr, w', t1, -, t3, t4, t5, t6, -, -, -, -, -, t7⟩ :=
    BFS.turns_ok hgraph hg c (w.heap a).rows w3 frontier 0 [] hinv rfl (fun k _ i hi hd => hpos k i hi hd)
      (fun k hk => absurd hk (by simp)) (fun k hk => absurd hk (by simp))
  have hret : BFS.search a s c w = .ok (result, tr) w' := by rw [hrun, bind_ok t1]; rfl
  refine ⟨⟨result, tr, w', hret, by simpa using t3, ?_, t5, ?_, hinv.oR, t6⟩,
    ⟨result, tr, w', hret, fun d hd v hv => (t4 d hd).2 v hv⟩⟩
  · intro d hd
    refine ⟨(t4 d hd).1.kind, (t4 d hd).1.rows, fun v hv => ⟨fun h => ?_, fun h => ?_⟩⟩
    · by_contra hn
      exact h (((t4 d hd).2 v hv).2 hn)
    · rw [((t4 d hd).2 v hv).1 h]
      intro h0
      have := hpos _ v hv h
      rw [show walkSum _ _ _ _ _ = _ from h0, hz] at this
      cases this
  · rcases t7 with ⟨-, u1, u2⟩ | ⟨u1, u2, u3, u4⟩
    · exact Or.inl ⟨u1, u2⟩
    · have hlen : tr.length = (w.heap a).rows := by omega
      have hlast := u2 (tr.length - 1) (by omega)
      rw [List.take_of_length_le (by omega)] at hlast
      exact Or.inr ⟨hlast, hlen, u3.kind, u3.rows, u4⟩

/-- For a type without negative numbers (the unsigned integers) the condition of `C36_search` is exact:
the search visits the level sets if and only if no sum over shortest walks wraps around to 0. -/
theorem C36_iff {w : World T} {a : Ref} {s : Nat} (han : a < w.next)
    (hw : (w.heap a).WF) (hsq : (w.heap a).cols = (w.heap a).rows) (hfit : (w.heap a).RowsFit)
    (hu : ∀ x : T, GoNum.glt 0 x = true ↔ x ≠ 0) (h1 : (1 : T) ≠ 0)
    (hs : s < (w.heap a).rows) (hc : w.cancel = none) (hg : (w.heap a).rows ≤ w.gas) :
    SearchCorrect w a s (fun _ => false) ↔
      ∀ k v, v < (w.heap a).rows →
        Dist (fun l r => l < (w.heap a).cols ∧ r < (w.heap a).rows ∧ (w.heap a).val r l ≠ 0) s k v →
        walkSum (fun l r => (w.heap a).val r l) (w.heap a).rows s k v ≠ 0 := by
  have hz : GoNum.glt (0 : T) 0 = false := by
    cases h : GoNum.glt (0 : T) 0
    · rfl
    · exact absurd rfl ((hu 0).1 h)
  constructor
  · rintro ⟨p, calls, w', h2, -, h3, -, h4, -⟩
    obtain ⟨w3, frontier, visited, result, hrun, hinv⟩ := BFS.start han hs hc
    have hgraph : BFS.Graph (w.heap a) := ⟨hw, hsq, hfit, hz⟩
    rw [hrun, bind_apply] at h2
    cases ht : BFS.turns a visited result (fun _ => false) (w.heap a).rows frontier [] w3 with
    | panic w1 => rw [ht] at h2; cases h2
    | hang w1 => rw [ht] at h2; cases h2
    | ok tr w1 =>
      rw [ht] at h2
      cases h2
      intro k
      induction k using Nat.strong_induction_on with
      | _ k ih =>
        intro v hv hd
        rcases k with _ | k
        · rw [walkSum]
          have : v = s := by cases hd.1; rfl
          rw [if_pos this]; exact h1
        · have hk : k + 1 < (w.heap a).rows := hd.lt hs (fun u v he => he.2.1)
          obtain ⟨hl, hL⟩ := BFS.turns_level hgraph hg k (w.heap a).rows w3 frontier 0 [] calls w' hinv rfl
            (fun j hj i hi hdi => (hu _).2 (ih j (by omega) i hi hdi)) (by omega) ht
          simp only [Nat.zero_add] at hl hL
          have := (h3 k hl).2.2 v hv
          rw [(hL v hv).1 hd] at this
          exact this.2 hd
  · intro h
    exact (C36_search _ han hw hsq hfit hz (fun k v hv hd => (hu _).2 (h k v hv hd)) hs hc hg).1

/-- What fixed-width integers can do: with weights that are natural numbers, the search is right as soon
as the true sums over shortest walks stay below the bound up to which positive numbers are positive. -/
theorem C36_below {w : World T} {a : Ref} {s B : Nat} {N : Nat → Nat → Nat} (c : List (Mat T) → Bool) (han : a < w.next)
    (hw : (w.heap a).WF) (hsq : (w.heap a).cols = (w.heap a).rows) (hfit : (w.heap a).RowsFit)
    (hz : GoNum.glt (0 : T) 0 = false) (hB : ∀ m : Nat, 0 < m → m < B → GoNum.glt 0 (m : T) = true)
    (hN : ∀ l r, l < (w.heap a).rows → r < (w.heap a).rows → (w.heap a).val r l = (N l r : T))
    (hlt : ∀ k v, v < (w.heap a).rows →
      Dist (fun l r => l < (w.heap a).cols ∧ r < (w.heap a).rows ∧ (w.heap a).val r l ≠ 0) s k v →
      walkSum N (w.heap a).rows s k v < B)
    (hs : s < (w.heap a).rows) (hc : w.cancel = none) (hg : (w.heap a).rows ≤ w.gas) :
    SearchCorrect w a s c ∧ SearchWeighs w a s c := by
  refine C36_search c han hw hsq hfit hz (fun k v hv hd => ?_) hs hc hg
  rw [BFS.walkSum_cast (N := N) hN k v hv]
  refine hB _ ?_ (hlt k v hv hd)
  refine (walkSum_pos (W := N) (fun _ _ _ _ => Nat.zero_le _) ?_).2 k v hd.1
  rintro l r ⟨h2, h3, h4⟩
  rw [hsq] at h2
  refine ⟨h2, h3, Nat.pos_of_ne_zero fun h0 => h4 ?_⟩
  rw [hN l r h2 h3, h0, Nat.cast_zero]

end ring

/-- `0 < x` means `x ≠ 0` on unsigned integers. -/
theorem USInt.pos_iff {n : Nat} (x : USInt n) : GoNum.glt 0 x = true ↔ x ≠ 0 := by
  have h : ∀ y : BitVec n, BitVec.ult 0 y = true ↔ y ≠ 0 := by
    intro y
    rw [ne_eq, ← BitVec.toNat_inj]
    simp only [BitVec.ult, decide_eq_true_iff, BitVec.ofNat_eq_ofNat, BitVec.toNat_ofNat, Nat.zero_mod]
    omega
  exact h x

/-- The unsigned integers of `n` bits: the true sums stay below `2 ^ n`. -/
theorem C36_uint {n : Nat} {w : World (USInt n)} {a : Ref} {s : Nat} {N : Nat → Nat → Nat}
    (c : List (Mat (USInt n)) → Bool) (han : a < w.next)
    (hw : (w.heap a).WF) (hsq : (w.heap a).cols = (w.heap a).rows) (hfit : (w.heap a).RowsFit)
    (hN : ∀ l r, l < (w.heap a).rows → r < (w.heap a).rows → (w.heap a).val r l = (N l r : USInt n))
    (hlt : ∀ k v, v < (w.heap a).rows →
      Dist (fun l r => l < (w.heap a).cols ∧ r < (w.heap a).rows ∧ (w.heap a).val r l ≠ 0) s k v →
      walkSum N (w.heap a).rows s k v < 2 ^ n)
    (hs : s < (w.heap a).rows) (hc : w.cancel = none) (hg : (w.heap a).rows ≤ w.gas) :
    SearchCorrect w a s c ∧ SearchWeighs w a s c := by
  refine C36_below c han hw hsq hfit ?_ (fun m h0 hm => ?_) hN hlt hs hc hg
  · show BitVec.ult (0 : BitVec n) 0 = false
    simp [BitVec.ult]
  · show BitVec.ult (0 : BitVec n) (BitVec.ofNat n m) = true
    simp [BitVec.ult, Nat.mod_eq_of_lt hm, h0]

/-- The signed integers of `n + 1` bits: the true sums stay below `2 ^ n`. -/
theorem C36_int {n : Nat} {w : World (SInt (n + 1))} {a : Ref} {s : Nat} {N : Nat → Nat → Nat}
    (c : List (Mat (SInt (n + 1))) → Bool) (han : a < w.next)
    (hw : (w.heap a).WF) (hsq : (w.heap a).cols = (w.heap a).rows) (hfit : (w.heap a).RowsFit)
    (hN : ∀ l r, l < (w.heap a).rows → r < (w.heap a).rows → (w.heap a).val r l = (N l r : SInt (n + 1)))
    (hlt : ∀ k v, v < (w.heap a).rows →
      Dist (fun l r => l < (w.heap a).cols ∧ r < (w.heap a).rows ∧ (w.heap a).val r l ≠ 0) s k v →
      walkSum N (w.heap a).rows s k v < 2 ^ n)
    (hs : s < (w.heap a).rows) (hc : w.cancel = none) (hg : (w.heap a).rows ≤ w.gas) :
    SearchCorrect w a s c ∧ SearchWeighs w a s c := by
  refine C36_below c han hw hsq hfit ?_ (fun m h0 hm => ?_) hN hlt hs hc hg
  · show BitVec.slt (0 : BitVec (n + 1)) 0 = false
    simp [BitVec.slt]
  · show BitVec.slt (0 : BitVec (n + 1)) (BitVec.ofNat (n + 1) m) = true
    have h2 : m < 2 ^ (n + 1) := by rw [pow_succ]; omega
    rw [BitVec.slt, BitVec.toInt_eq_toNat_of_lt (x := BitVec.ofNat (n + 1) m)]
    · simp [Nat.mod_eq_of_lt h2, h0]
    · simp only [BitVec.toNat_ofNat, Nat.mod_eq_of_lt h2]; rw [pow_succ]; omega

section ordered
variable {T : Type} [GoRing T] [GoLawful T] [LinearOrder T] [GoOrd T] [IsStrictOrderedRing T]

/-- C36, the part that holds unconditionally: every square matrix with non-negative entries whose rows
multiplication reads back exactly (dense matrices always, `Mat.fit_dense`), every source, every
predicate (it may keep state), exact arithmetic.

Missing: fixed-width integers, where a sum of products of positive numbers may wrap around to 0
(`C36_refuted`; `C36_iff` says exactly when). -/
theorem C36_search_partial {w : World T} {a : Ref} {s : Nat} (c : List (Mat T) → Bool) (han : a < w.next)
    (hw : (w.heap a).WF) (hsq : (w.heap a).cols = (w.heap a).rows) (hfit : (w.heap a).RowsFit)
    (hpos : ∀ i j, i < (w.heap a).rows → j < (w.heap a).cols → 0 ≤ (w.heap a).val i j)
    (hs : s < (w.heap a).rows) (hc : w.cancel = none) (hg : (w.heap a).rows ≤ w.gas) :
    SearchCorrect w a s c ∧ SearchWeighs w a s c := by
  refine C36_search c han hw hsq hfit ?_ (fun k v hv hd => (GoOrd.lt_iff _ _).2 ?_) hs hc hg
  · by_contra h
    exact absurd ((GoOrd.lt_iff _ _).1 (by simpa using h)) (lt_irrefl (0 : T))
  · refine (walkSum_pos (fun l r hl hr => hpos r l hr (by rw [hsq]; exact hl)) ?_).2 k v hd.1
    rintro l r ⟨h2, h3, h4⟩
    exact ⟨by rw [← hsq]; exact h2, h3, lt_of_le_of_ne (hpos r l h3 h2) (Ne.symm h4)⟩

end ordered

/-- The sums over walks are the entries of the powers of the matrix. -/
theorem walkSum_pow {T : Type} [CommRing T] {n : Nat} (M : Matrix (Fin n) (Fin n) T) (s : Fin n) :
    ∀ k (v : Fin n), walkSum (fun l r => if h : r < n ∧ l < n then M ⟨r, h.1⟩ ⟨l, h.2⟩ else 0) n s k v = (M ^ k) v s := by
  intro k
  induction k with
  | zero =>
    intro v
    rw [walkSum, pow_zero, Matrix.one_apply]
    simp [Fin.ext_iff]
  | succ k ih =>
    intro v
    rw [walkSum, pow_succ', Matrix.mul_apply, Finset.sum_range]
    refine Finset.sum_congr rfl fun l _ => ?_
    rw [dif_pos ⟨v.2, l.2⟩, ih l]

section general
variable {T : Type} [GoNum T]

/-- A source outside the matrix is a panic, before anything is called or written. -/
theorem C36_source_panic {w : World T} {a : Ref} {s : Int} {c : List (Mat T) → Bool}
    (h : s < 0 ∨ (w.heap a).rows ≤ s) : BFS.search a s c w = .panic w := by
  unfold BFS.search
  rw [bind_ok (show rowsOf a w = .ok (w.heap a).rows w from rfl)]
  have : (DVec.new (w.heap a).rows : DVec T).setVec s 1 = .panic := by
    unfold DVec.setVec
    rw [if_neg]
    rw [inRange_iff]
    rintro ⟨h1, h2⟩
    have h2 : s < ((w.heap a).rows : Int) := h2
    omega
  rw [this]
  rfl

end general

/-! ## Witnesses -/

/-- The path 0 → 1 → 2 with an edge 0 → 0. -/
def pathGraph : Mat ℤ := .dense { r := 3, c := 3, data := [[1, 0, 0], [1, 0, 0], [0, 1, 0]] }

/-- The hypotheses of `C36_search_partial` hold of a graph with three levels, and the search stops at
the second call of the predicate with the vertex 2. -/
example : SearchCorrect (World.of (T := ℤ) 9 [pathGraph]) 0 0 (fun calls => decide (calls.length = 2)) := by
  refine (C36_search_partial _ (by decide) ?_ rfl (Mat.fit_dense (by decide)).1 ?_ (by decide) rfl (by decide)).1
  · constructor
    · rfl
    · intro row hr; simp at hr; rcases hr with rfl | rfl | rfl <;> rfl
  · intro i j hi hj
    have hi : i < 3 := hi
    have hj : j < 3 := hj
    interval_cases i <;> interval_cases j <;> decide

example : (match BFS.search 0 0 (fun calls => decide (calls.length = 2)) (World.of (T := ℤ) 9 [pathGraph]) with
    | .ok (p, calls) w => some (w.heap p, calls)
    | _ => none) = some (.dvec ⟨3, [0, 0, 1]⟩, [.dvec ⟨3, [0, 1, 0]⟩, .dvec ⟨3, [0, 0, 1]⟩]) := by kernel_rfl

/-- The 8-bit number 16. -/
def w16 : USInt 8 := (16 : BitVec 8)
/-- 0 → 1 → 2 with weights 16. -/
def heavy : Mat (USInt 8) := .dense { r := 3, c := 3, data := [[0, 0, 0], [w16, 0, 0], [0, w16, 0]] }

/-- In 8 bits `16·16 = 0`: the vertex 2, at distance 2, is missing from the second level. -/
theorem C36_refuted : Reach heavy ∧ ¬ SearchCorrect (World.of 9 [heavy]) 0 0 (fun _ => false) := by
  constructor
  · exact Reach.arrDense (data := [[0, 0, 0], [w16, 0, 0], [0, w16, 0]]) (c := 3)
      (by intro row hr; simp at hr; rcases hr with rfl | rfl | rfl <;> rfl) (by kernel_rfl)
  · rintro ⟨p, calls, w', h1, -, h2, -⟩
    have hrun : (BFS.search 0 0 (fun _ => false) (World.of 9 [heavy])).val = some (3,
        [.dvec ⟨3, [0, w16, 0]⟩, .dvec ⟨3, [0, 0, 0]⟩, .dvec ⟨3, [0, 0, 0]⟩]) := by kernel_rfl
    have hcalls := congrArg Res.val h1
    rw [show ((0 : Nat) : Int) = 0 from rfl, hrun] at hcalls
    simp only [Res.val, Option.some.injEq, Prod.mk.injEq] at hcalls
    obtain ⟨-, rfl⟩ := hcalls
    have h3 := (h2 1 (by decide)).2.2 2 (by decide)
    have e01 : (World.of 9 [heavy]).heap 0 = heavy := rfl
    rw [e01] at h3
    have hD : Dist (fun l r => l < heavy.cols ∧ r < heavy.rows ∧ heavy.val r l ≠ 0) 0 2 2 := by
      refine ⟨.succ (u := 1) (.succ (u := 0) .zero ⟨by decide, by decide, by decide +kernel⟩)
        ⟨by decide, by decide, by decide +kernel⟩, ?_⟩
      intro k hk hwk
      rcases hwk with _ | ⟨hw, he⟩
      rename_i k' u
      obtain rfl : k' = 0 := by omega
      cases hw
      exact absurd he.2.2 (by decide +kernel)
    exact absurd (h3.2 hD) (by decide +kernel)

/-- 0 → 1 → 3 and 0 → 2 → 3 with weights 2, 3, 5 and 7, in 8 bits, and an edge back to the source. -/
def diamond : Mat (USInt 8) := .dense { r := 4, c := 4, data :=
  [[0, 0, 0, (1 : BitVec 8)], [(2 : BitVec 8), 0, 0, 0], [(3 : BitVec 8), 0, 0, 0], [0, (5 : BitVec 8), (7 : BitVec 8), 0]] }

/-- Its weights. -/
def diamondW : Nat → Nat → Nat
  | 3, 0 => 1
  | 0, 1 => 2
  | 0, 2 => 3
  | 1, 3 => 5
  | 2, 3 => 7
  | _, _ => 0

/-- The search is right on it: the hypotheses of `C36_uint` hold (the sums are at most 31 on the walks of
at most three edges). -/
example : SearchCorrect (World.of 9 [diamond]) 0 0 (fun _ => false) ∧ SearchWeighs (World.of 9 [diamond]) 0 0 (fun _ => false) := by
  refine C36_uint (N := diamondW) _ (by decide) ?_ rfl (Mat.fit_dense (by decide)).1 ?_ ?_ (by decide) rfl (by decide)
  · constructor
    · rfl
    · intro row hr
      simp at hr
      rcases hr with rfl | rfl | rfl | rfl <;> rfl
  · intro l r hl hr
    have hl : l < 4 := hl
    have hr : r < 4 := hr
    interval_cases l <;> interval_cases r <;> decide +kernel
  · intro k v hv hd
    have hv : v < 4 := hv
    have hk : k < 4 := hd.lt (s := 0) (n := 4) (by decide) (fun u v he => he.2.1)
    interval_cases k <;> interval_cases v <;> decide +kernel

/-- The two shortest walks to the vertex 3 weigh `2·5 + 3·7 = 31`. -/
example : (match BFS.search 0 0 (fun _ => false) (World.of 9 [diamond]) with
    | .ok (_, calls) _ => some calls
    | _ => none) = some [.dvec ⟨4, [0, (2 : BitVec 8), (3 : BitVec 8), 0]⟩, .dvec ⟨4, [0, 0, 0, (31 : BitVec 8)]⟩,
      .dvec ⟨4, [0, 0, 0, 0]⟩, .dvec ⟨4, [0, 0, 0, 0]⟩] := by kernel_rfl

/-- The condition of `C36_iff` fails of the graph of `C36_refuted`. -/
example : ¬ ∀ k v, v < heavy.rows → Dist (fun l r => l < heavy.cols ∧ r < heavy.rows ∧ heavy.val r l ≠ 0) 0 k v →
    walkSum (fun l r => heavy.val r l) heavy.rows 0 k v ≠ 0 := by
  intro h
  refine C36_refuted.2 ((C36_iff (w := World.of 9 [heavy]) (a := 0) (s := 0) (by decide) ?_ rfl
    (Mat.fit_dense (by decide)).1 ?_ (by decide) (by decide) rfl (by decide)).2 h)
  · constructor
    · rfl
    · intro row hr; simp at hr; rcases hr with rfl | rfl | rfl <;> rfl
  · exact USInt.pos_iff

end GB
