import Verif.Props.Distance

/-!
# Walks, closed walks and their numbers
-/

namespace GB

theorem pathsTo_nonempty {E : Nat → Nat → Prop} {s : Nat} : ∀ {k v : Nat}, (pathsTo E s k v).Nonempty ↔ Walk E s k v
  | 0, v => by
    rw [pathsTo_zero]
    constructor
    · rintro ⟨p, hp⟩
      split at hp
      · rename_i h; subst h; exact .zero
      · exact absurd hp (by simp)
    · intro h
      cases h
      exact ⟨[s], by simp⟩
  | k + 1, v => by
    rw [pathsTo_succ]
    constructor
    · rintro ⟨p, hp⟩
      simp only [Set.mem_iUnion, Set.mem_image, Set.mem_ofPred_eq, exists_prop] at hp
      obtain ⟨l, hl, q, hq, -⟩ := hp
      exact .succ (pathsTo_nonempty.1 ⟨q, hq⟩) hl
    · intro h
      cases h with
      | succ hw he =>
        obtain ⟨q, hq⟩ := pathsTo_nonempty.2 hw
        refine ⟨v :: q, ?_⟩
        simp only [Set.mem_iUnion, Set.mem_image, Set.mem_ofPred_eq, exists_prop]
        exact ⟨_, he, q, hq, rfl⟩

theorem pathsTo_ncard {E : Nat → Nat → Prop} {n s k v : Nat} (hE : ∀ l r, E l r → l < n) :
    (pathsTo E s k v).ncard = 0 ↔ ¬ Walk E s k v := by
  classical
  obtain ⟨P, h1, -⟩ := pathsTo_card (s := s) hE k v
  have hf : (pathsTo E s k v).Finite := by rw [← h1]; exact P.finite_toSet
  rw [Set.ncard_eq_zero hf, ← pathsTo_nonempty, Set.not_nonempty_iff_eq_empty]

/-- Only the weights between vertices below `n` matter. -/
theorem walkSum_congr {T : Type} [Semiring T] {n s : Nat} {W W' : Nat → Nat → T}
    (h : ∀ u v, u < n → v < n → W u v = W' u v) : ∀ k v, v < n → walkSum W n s k v = walkSum W' n s k v
  | 0, _, _ => rfl
  | k + 1, v, hv => by
    rw [walkSum, walkSum]
    refine Finset.sum_congr rfl fun u hu => ?_
    rw [Finset.mem_range] at hu
    rw [h u v hu hv, walkSum_congr h k u hu]

namespace Walk

variable {E : Nat → Nat → Prop}

theorem trans {s u : Nat} {k : Nat} (h : Walk E s k u) : ∀ {m v : Nat}, Walk E u m v → Walk E s (k + m) v
  | 0, _, g => by cases g; exact h
  | m + 1, _, g => by cases g with | succ g e => exact .succ (trans h g) e

theorem shorten {s : Nat} {k : Nat} : ∀ {m v : Nat}, Walk E s (k + m) v → ∃ u, Walk E s k u
  | 0, v, h => ⟨v, h⟩
  | m + 1, _, h => by cases h with | succ g _ => exact shorten (m := m) g

theorem rounds {s k : Nat} (h : Walk E s k s) : ∀ m, Walk E s (m * k) s
  | 0 => by rw [Nat.zero_mul]; exact .zero
  | m + 1 => by rw [Nat.succ_mul]; exact trans (rounds h m) h

/-- The vertex a walk is at after `i` edges. -/
theorem stops {s : Nat} : ∀ {k v : Nat}, Walk E s k v → ∃ f : Nat → Nat, f 0 = s ∧ f k = v ∧ ∀ i, i < k → E (f i) (f (i + 1))
  | 0, _, h => by cases h; exact ⟨fun _ => s, rfl, rfl, fun _ h => absurd h (Nat.not_lt_zero _)⟩
  | k + 1, v, h => by
    cases h with
    | succ g e =>
      obtain ⟨f, h1, h2, h3⟩ := stops g
      refine ⟨fun i => if i ≤ k then f i else v, by simpa using h1, by simp, fun i hi => ?_⟩
      show E (if i ≤ k then f i else v) (if i + 1 ≤ k then f (i + 1) else v)
      rw [if_pos (Nat.le_of_lt_succ hi)]
      split
      · exact h3 i (by omega)
      · obtain rfl : i = k := by omega
        rw [h2]; exact e

theorem between {f : Nat → Nat} {k : Nat} (h : ∀ i, i < k → E (f i) (f (i + 1))) (i : Nat) : ∀ m, i + m ≤ k → Walk E (f i) m (f (i + m))
  | 0, _ => .zero
  | m + 1, hm => .succ (between h i m (by omega)) (h (i + m) (by omega))

/-- On `n` vertices, there is a walk of `n` edges exactly when some walk of at least one edge returns to its start. -/
theorem long_iff {n : Nat} (hn : 0 < n) (hl : ∀ l r, E l r → l < n) (hr : ∀ l r, E l r → r < n) :
    (∃ s v, s < n ∧ v < n ∧ Walk E s n v) ↔ ∃ v k, 0 < k ∧ Walk E v k v := by
  constructor
  · rintro ⟨s, v, hs, hv, h⟩
    obtain ⟨f, h1, h2, h3⟩ := h.stops
    have hf : ∀ i ∈ Finset.range (n + 1), f i ∈ Finset.range n := by
      intro i hi
      rw [Finset.mem_range] at hi ⊢
      rcases Nat.lt_or_ge i n with h | h
      · exact hl _ _ (h3 i h)
      · obtain rfl : i = n := by omega
        rw [h2]; exact hv
    obtain ⟨i, hi, j, hj, hne, he⟩ := Finset.exists_ne_map_eq_of_card_lt_of_maps_to (by simp) hf
    rw [Finset.mem_range] at hi hj
    rcases Nat.lt_or_ge i j with h | h
    · refine ⟨f i, j - i, by omega, ?_⟩
      have := between h3 i (j - i) (by omega)
      rwa [show i + (j - i) = j from by omega, ← he] at this
    · refine ⟨f j, i - j, by omega, ?_⟩
      have := between h3 j (i - j) (by omega)
      rwa [show j + (i - j) = i from by omega, he] at this
  · rintro ⟨v, k, hk, h⟩
    have hm : n * k = n + n * (k - 1) := by
      obtain ⟨k, rfl⟩ : ∃ m, k = m + 1 := ⟨k - 1, by omega⟩
      rw [Nat.mul_succ, Nat.add_sub_cancel, Nat.add_comm]
    have hw := h.rounds n
    rw [hm] at hw
    obtain ⟨u, hu⟩ := hw.shorten
    have hvn : v < n := by
      obtain ⟨f, h1, -, h3⟩ := h.stops
      rw [← h1]; exact hl _ _ (h3 0 hk)
    refine ⟨v, u, hvn, ?_, hu⟩
    obtain ⟨m, rfl⟩ : ∃ m, n = m + 1 := ⟨n - 1, by omega⟩
    cases hu with | succ _ e => exact hr _ _ e

end Walk
end GB
