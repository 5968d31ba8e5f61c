import Verif.Lemmas.SearchCut
import Verif.Props.BFS
import Verif.KernelRfl

/-!
# C109: a search whose context is cancelled on the way

The claim: a search whose context is cancelled, before it or during it, still returns; up to a round the predicate is given
the exact levels; in that round, some of the cells of the level, the rest 0; in later rounds, 0 everywhere. So a vertex that
is found is at the distance that the number of calls says, however the call ended.
-/

namespace GB

set_option linter.unusedSectionVars false

open M

/-- There is an edge from `l` to `r`. -/
def Edge {T : Type} [GoNum T] (A : Mat T) (l r : Nat) : Prop := l < A.cols ∧ r < A.rows ∧ A.val r l ≠ 0

/-- The `d`-th vector (counted from 0) is the exact level: the sum over the shortest walks at every vertex at distance
`d + 1`, 0 elsewhere. -/
def LevelAt {T : Type} [GoRing T] (A : Mat T) (s d : Nat) (v : Mat T) : Prop :=
  ∀ i, i < A.rows → (Dist (Edge A) s (d + 1) i → v.val i 0 = walkSum (fun l r => A.val r l) A.rows s (d + 1) i) ∧
    (¬ Dist (Edge A) s (d + 1) i → v.val i 0 = 0)

/-- C109 for the call `Search(A, s, c)` in `w`: it returns; the predicate was called at most `Rows()` times, each time with a
dense vector of length `Rows()`; there is a round `m` before which those are the exact levels, in which every cell is 0 or
that of the level, and after which they are 0; only the last call may have answered true, and then that vector is the
result; otherwise there were `Rows()` calls and the result is 0. No object of the caller was written. -/
def SearchCut {T : Type} [GoRing T] (w : World T) (a : Ref) (s : Nat) (c : List (Mat T) → Bool) : Prop :=
  ∃ p calls w' m, BFS.search a s c w = .ok (p, calls) w' ∧ calls.length ≤ (w.heap a).rows ∧
    (∀ d (hd : d < calls.length), calls[d].kind = .dvec ∧ calls[d].rows = (w.heap a).rows ∧
      (d < m → LevelAt (w.heap a) s d calls[d]) ∧
      (d = m → ∀ i, i < (w.heap a).rows → calls[d].val i 0 = 0 ∨ (Dist (Edge (w.heap a)) s (d + 1) i ∧
        calls[d].val i 0 = walkSum (fun l r => (w.heap a).val r l) (w.heap a).rows s (d + 1) i)) ∧
      (m < d → ∀ i, i < (w.heap a).rows → calls[d].val i 0 = 0)) ∧
    (∀ d, d + 1 < calls.length → c (calls.take (d + 1)) = false) ∧
    ((c calls = true ∧ calls.getLast? = some (w'.heap p)) ∨
      (c calls = false ∧ calls.length = (w.heap a).rows ∧ (w'.heap p).kind = .dvec ∧
        (w'.heap p).rows = (w.heap a).rows ∧ ∀ i, i < (w.heap a).rows → (w'.heap p).val i 0 = 0)) ∧
    (w.cancel = some 0 → ∀ v ∈ calls, ∀ i, i < (w.heap a).rows → v.val i 0 = 0) ∧
    w.next ≤ p ∧ ∀ q, q < w.next → w'.heap q = w.heap q

section ring
variable {T : Type} [GoRing T] [GoLawful T]

/-- C109: every moment of cancellation, with the hypotheses of `C36_search` otherwise. -/
theorem C109_search {w : World T} {a : Ref} {s k : Nat} (c : List (Mat T) → Bool) (han : a < w.next)
    (hw : (w.heap a).WF) (hsq : (w.heap a).cols = (w.heap a).rows) (hfit : (w.heap a).RowsFit)
    (hz : GoNum.glt (0 : T) 0 = false) (hpos : ShortestPositive (w.heap a) s)
    (hs : s < (w.heap a).rows) (hc : w.cancel = some k) (hg : (w.heap a).rows ≤ w.gas) : SearchCut w a s c := by
  obtain ⟨w3, frontier, visited, result, hrun, hold, hcan, hst⟩ :=
    BFS.startCut (n := (w.heap a).rows) han ⟨hw, rfl, hsq, hfit⟩ hs
  have h0 : ∀ i, Dist (Edge (w.heap a)) s 0 i ↔ i = s := by
    intro i
    constructor
    · intro h; cases h.1; rfl
    · rintro rfl; exact ⟨.zero, fun j hj => absurd hj (Nat.not_lt_zero _)⟩
  obtain ⟨tr, w', m, t1, -, t3, t4, t5, t6, t7, t8⟩ := BFS.turns_cut (W := fun l r => (w.heap a).val r l) (E := Edge (w.heap a))
    (s := s) rfl hsq (fun _ _ => rfl) (fun l r => by unfold Edge; rw [hsq]) hz (fun k i hi hd => hpos k i hi hd) (by omega) hg c
    (w.heap a).rows w3 k frontier _ _ [] hst (hcan.trans hc) hold
    (Or.inl ⟨fun j hj => absurd hj (by simp), fun i hi => by
      simp only [List.length_nil, h0, walkSum]; constructor <;> intro h <;> simp [h], fun i hi => by
      refine ⟨fun j hj hd => ?_, fun hn => ?_⟩
      · obtain rfl : j = 0 := by simpa using hj
        simp [(h0 i).1 hd, walkSum]
      · exact if_neg fun he => hn ⟨0, by simp, ((h0 i).2 he).1⟩⟩)
    (fun j hj => absurd hj (by simp))
  refine ⟨result, tr, w', m, by rw [hrun, bind_ok t1]; rfl, by simpa using t3, ?_, t5, ?_,
    fun h0 => t7 (by rw [hc] at h0; injection h0) (by simp), hst.oR, t6⟩
  · intro d hd
    obtain ⟨a1, a2, a3, a4⟩ := t4 d hd
    exact ⟨a1.kind, a1.rows, a2, a3, a4⟩
  · rcases t8 with ⟨-, u1, u2⟩ | ⟨u1, u2, u3, u4⟩
    · exact Or.inl ⟨u1, u2⟩
    · have hlen : tr.length = (w.heap a).rows := by simpa using u1
      have hlast := u2 (tr.length - 1) (by omega)
      rw [List.take_of_length_le (by omega)] at hlast
      exact Or.inr ⟨hlast, hlen, u3.kind, u3.rows, u4⟩

/-- C109: what a cancelled search returns can be trusted where it is not 0: the vertex is at the distance that the number of
calls says, and the number there is the sum over the shortest walks to it. -/
theorem C109_found {w : World T} {a : Ref} {s k : Nat} (c : List (Mat T) → Bool) (han : a < w.next)
    (hw : (w.heap a).WF) (hsq : (w.heap a).cols = (w.heap a).rows) (hfit : (w.heap a).RowsFit)
    (hz : GoNum.glt (0 : T) 0 = false) (hpos : ShortestPositive (w.heap a) s)
    (hs : s < (w.heap a).rows) (hc : w.cancel = some k) (hg : (w.heap a).rows ≤ w.gas) :
    ∃ p calls w', BFS.search a s c w = .ok (p, calls) w' ∧ ∀ t, t < (w.heap a).rows → (w'.heap p).val t 0 ≠ 0 →
      c calls = true ∧ Dist (Edge (w.heap a)) s calls.length t ∧
        (w'.heap p).val t 0 = walkSum (fun l r => (w.heap a).val r l) (w.heap a).rows s calls.length t := by
  obtain ⟨p, calls, w', m, h1, -, h2, -, h3, -⟩ := C109_search c han hw hsq hfit hz hpos hs hc hg
  refine ⟨p, calls, w', h1, fun t ht hne => ?_⟩
  rcases h3 with ⟨g1, g2⟩ | ⟨-, -, -, -, g⟩
  · refine ⟨g1, ?_⟩
    obtain ⟨d, hd⟩ : ∃ d, calls.length = d + 1 := by
      cases calls with
      | nil => simp at g2
      | cons x l => exact ⟨l.length, rfl⟩
    have hlt : d < calls.length := by omega
    have he : calls[d] = w'.heap p := by
      rw [List.getLast?_eq_getElem?, hd, Nat.add_sub_cancel, List.getElem?_eq_getElem hlt] at g2
      injection g2
    obtain ⟨-, -, b1, b2, b3⟩ := h2 d hlt
    rw [he] at b1 b2 b3
    rw [hd]
    rcases lt_trichotomy d m with hm | hm | hm
    · by_cases hD : Dist (Edge (w.heap a)) s (d + 1) t
      · exact ⟨hD, (b1 hm t ht).1 hD⟩
      · exact absurd ((b1 hm t ht).2 hD) hne
    · exact (b2 hm t ht).resolve_left hne
    · exact absurd (b3 hm t ht) hne
  · exact absurd (g t ht) hne

end ring

/-- The predicate that waits for the vertex 2. -/
def want2 (calls : List (Mat ℤ)) : Bool := match calls.getLast? with
  | some v => decide (v.val 2 0 ≠ 0)
  | none => false

/-- `w` with a context that is cancelled after `k` looks. -/
def World.cutAt {T : Type} [GoNum T] (w : World T) (k : Nat) : World T := { w with cancel := some k }

theorem pathGraph_pos : ShortestPositive pathGraph 0 := by
  have nonneg : ∀ i j, i < 3 → j < 3 → 0 ≤ pathGraph.val i j := by
    intro i j hi hj
    interval_cases i <;> interval_cases j <;> decide
  intro k v hv hd
  refine (GoOrd.lt_iff _ _).2 ((walkSum_pos (fun l r hl hr => nonneg r l hr hl) ?_).2 k v hd.1)
  rintro l r ⟨h2, h3, h4⟩
  exact ⟨h2, h3, lt_of_le_of_ne (nonneg r l h3 h2) (Ne.symm h4)⟩

/-- The hypotheses of `C109_search` hold of a graph with three levels, at every moment of cancellation. -/
example (k : Nat) : SearchCut ((World.of (T := ℤ) 9 [pathGraph]).cutAt k) 0 0 want2 :=
  C109_search (k := k) want2 (show 0 < 1 by decide)
    ⟨rfl, by intro row hr; simp at hr; rcases hr with rfl | rfl | rfl <;> rfl⟩ rfl
    (Mat.fit_dense (m := pathGraph) (by decide)).1 rfl pathGraph_pos (show 0 < 3 by decide) rfl (show 3 ≤ 9 by decide)

/-- Cancelled late, the search for the vertex 2 finds it with its second call; cancelled earlier, it does not. -/
example :
    (match BFS.search 0 0 want2 ((World.of (T := ℤ) 9 [pathGraph]).cutAt 100) with
      | .ok (p, calls) w => some (w.heap p, calls)
      | _ => none) = some (.dvec ⟨3, [0, 0, 1]⟩, [.dvec ⟨3, [0, 1, 0]⟩, .dvec ⟨3, [0, 0, 1]⟩]) ∧
    (match BFS.search 0 0 want2 ((World.of (T := ℤ) 9 [pathGraph]).cutAt 8) with
      | .ok (p, calls) w => some (w.heap p, calls)
      | _ => none) = some (.dvec ⟨3, [0, 0, 0]⟩,
        [.dvec ⟨3, [0, 1, 0]⟩, .dvec ⟨3, [0, 0, 0]⟩, .dvec ⟨3, [0, 0, 0]⟩]) := by
  constructor <;> kernel_rfl

/-- What the claim does not say: that a vertex that is not found cannot be reached. The vertex 2 is at distance 2 and the
search, cancelled before it starts, makes all its calls, answers 0 everywhere, and reports nothing. -/
theorem C109_missed : Dist (Edge pathGraph) 0 2 2 ∧
    (match BFS.search 0 0 want2 ((World.of (T := ℤ) 9 [pathGraph]).cutAt 0) with
      | .ok (p, calls) w => some (w.heap p, calls.length)
      | _ => none) = some (.dvec ⟨3, [0, 0, 0]⟩, 3) := by
  have e1 : Edge pathGraph 0 1 := ⟨by decide, by decide, by decide⟩
  have e2 : Edge pathGraph 1 2 := ⟨by decide, by decide, by decide⟩
  refine ⟨⟨.succ (.succ .zero e1) e2, fun k hk h => ?_⟩, by kernel_rfl⟩
  interval_cases k
  · cases h
  · cases h with
    | succ h e =>
      cases h
      exact absurd e.2.2 (by decide)

end GB
