import Verif.Props.SparseVec

/-!
# C04: exactly which histories of writes a sparse vector remembers
-/

namespace GB

set_option linter.unusedSectionVars false

variable {T : Type} [GoNum T] [GoStore T]

/-- After the writes `p` every read gives the last value written. -/
def ReadsRight (l : Nat) (p : List (Nat × T)) : Prop :=
  ∃ s, (SVec.new l).runVec p = .ok s ∧ ∀ i : Nat, i < l → s.atVec i = .ok (norm (lastWrite 0 i p))

/-- After the writes `p` no position that should be non-zero exceeds the number of such positions. -/
def AllVisible (l : Nat) (p : List (Nat × T)) : Prop :=
  ∀ i, i < l → isZero (lastWrite 0 i p) = false → i ≤ ((List.range l).filter (fun j => !isZero (lastWrite 0 j p))).length

omit [GoStore T] in
theorem SVec.runVec_append (s : SVec T) (p q : List (Nat × T)) : s.runVec (p ++ q) = s.runVec p >>= fun s' => s'.runVec q := by
  induction p generalizing s with
  | nil => rfl
  | cons o p ih =>
    simp only [List.cons_append, SVec.runVec]
    cases h : s.setVec o.1 o.2 with
    | ok s' => simp only [Out.ok_bind]; exact ih s'
    | panic => rfl
    | hang => rfl

/-- The state behind a history that was seen right so far. -/
def Tracks (l : Nat) (p : List (Nat × T)) (s : SVec T) (es : List (Nat × T)) : Prop :=
  (SVec.new l).runVec p = .ok s ∧ s.l = l ∧ SVec.Rep s es ∧ ∀ i, i < l → rowGet es i = norm (lastWrite 0 i p)

theorem Tracks.length {l : Nat} {p : List (Nat × T)} {s : SVec T} {es : List (Nat × T)} (h : Tracks l p s es) :
    es.length = ((List.range l).filter (fun j => !isZero (lastWrite 0 j p))).length := by
  obtain ⟨-, h2, h3, h4⟩ := h
  have e := row_eq_nz h3.sorted (fun e he => by have := h3.bound e he; rw [h2] at this; exact this) h3.nz
  have e' := congrArg (fun x => (x.map (fun e => (e.1, (0 : Nat), e.2))).length) e
  simp only [nz_map, List.length_map] at e'
  rw [e']
  refine congrArg _ (List.filter_congr (fun i hi => ?_))
  rw [h4 i (by simpa using hi)]
  unfold norm
  split
  · rename_i h; rw [h, isZero_zero]
  · rfl

theorem Tracks.packed_iff {l : Nat} {p : List (Nat × T)} {s : SVec T} {es : List (Nat × T)} (h : Tracks l p s es) :
    SVec.Packed es ↔ AllVisible l p := by
  have hl := h.length
  obtain ⟨-, h2, h3, h4⟩ := h
  constructor
  · intro hp i hi hz
    rw [← hl]
    by_contra hlt
    have : rowGet es i = 0 := rowGet_none (fun e he heq => hlt (heq ▸ hp e he))
    rw [h4 i hi] at this
    unfold norm at this
    rw [if_neg (by simp [hz])] at this
    rw [this, isZero_zero] at hz
    exact absurd hz (by decide)
  · intro hd e he
    have hb : e.1 < l := by have := h3.bound e he; rwa [h2] at this
    have hv : rowGet es e.1 = e.2 := CSR.rowGet_of_mem h3.sorted he
    rw [h4 e.1 hb] at hv
    rw [hl]
    refine hd e.1 hb ?_
    cases hz : isZero (lastWrite 0 e.1 p) with
    | false => rfl
    | true =>
      have : norm (lastWrite 0 e.1 p) = 0 := by unfold norm; rw [if_pos hz]
      have hn := h3.nz e he
      rw [← hv, this, isZero_zero] at hn
      exact absurd hn (by decide)

theorem Tracks.reads_iff {l : Nat} {p : List (Nat × T)} {s : SVec T} {es : List (Nat × T)} (h : Tracks l p s es) :
    ReadsRight l p ↔ AllVisible l p := by
  rw [← h.packed_iff]
  obtain ⟨h1, h2, h3, h4⟩ := h
  constructor
  · rintro ⟨s', g1, g2⟩ e he
    obtain rfl : s = s' := by rw [h1] at g1; exact Out.ok.inj g1
    have hb : e.1 < l := by have := h3.bound e he; rwa [h2] at this
    by_contra hlt
    have := g2 e.1 hb
    rw [h3.atVec_ok (by rw [h2]; exact hb), if_neg hlt, ← h4 e.1 hb, CSR.rowGet_of_mem h3.sorted he] at this
    have hn := h3.nz e he
    rw [← Out.ok.inj this, isZero_zero] at hn
    exact absurd hn (by decide)
  · intro hp
    refine ⟨s, h1, fun i hi => ?_⟩
    rw [h3.atVec_ok (by rw [h2]; exact hi), hp.get, h4 i hi]

theorem tracks_of_prefixes {l : Nat} (p : List (Nat × T)) : (∀ o ∈ p, o.1 < l) →
    (∀ n, n < p.length → AllVisible l (p.take n)) → ∃ s es, Tracks l p s es := by
  induction p using List.reverseRecOn with
  | nil => intro _ _; exact ⟨SVec.new l, [], rfl, rfl, SVec.rep_new l, fun i _ => by simp [rowGet, lastWrite, norm, isZero_zero]⟩
  | append_singleton p o ih =>
    intro ho hd
    obtain ⟨s, es, ht⟩ := ih (fun x hx => ho x (by simp [hx])) (fun n hn => by
      have := hd n (by simp; omega)
      rwa [List.take_append_of_le_length (by omega)] at this)
    have hp : SVec.Packed es := ht.packed_iff.2 (by
      have := hd p.length (by simp)
      rwa [List.take_left] at this)
    obtain ⟨h1, h2, h3, h4⟩ := ht
    obtain ⟨s', es', g1, g2, g3, g4⟩ := h3.set_tame (i := o.1) (by rw [h2]; exact ho o (by simp))
      (by
        by_cases h : o.1 ≤ s.values.length
        · exact Or.inl h
        · right
          intro k hk
          rw [h3.indices] at hk
          obtain ⟨e, he, rfl⟩ := List.mem_map.1 hk
          have := hp e he
          rw [h3.values, List.length_map] at h
          omega) o.2
    refine ⟨s', es', ?_, g2.trans h2, g3, fun i hi => ?_⟩
    · rw [SVec.runVec_append, h1, Out.ok_bind]
      simp only [SVec.runVec, g1, Out.ok_bind]
    · rw [g4]
      unfold lastWrite
      rw [List.foldl_append]
      simp only [List.foldl_cons, List.foldl_nil]
      by_cases hoi : o.1 = i
      · rw [if_pos hoi.symm, if_pos hoi]
      · rw [if_neg (fun h => hoi h.symm), if_neg hoi, h4 i hi]
        rfl

/-- C04, exactly: every read along a history of `SetVec` calls gives the last value written if and only if at no
moment a position that holds a non-zero value exceeds the number of such positions. -/
theorem C04_iff (l : Nat) (ops : List (Nat × T)) (hops : ∀ o ∈ ops, o.1 < l) :
    (∀ n, ReadsRight l (ops.take n)) ↔ ∀ n, AllVisible l (ops.take n) := by
  have hr : ∀ n, ∀ o ∈ ops.take n, o.1 < l := fun n o ho => hops o (List.mem_of_mem_take ho)
  have htk : ∀ n m, m < (ops.take n).length → (ops.take n).take m = ops.take m := by
    intro n m hm
    rw [List.take_take, Nat.min_eq_left]
    rw [List.length_take] at hm
    omega
  constructor
  · intro h n
    induction n using Nat.strong_induction_on with
    | _ n ih =>
      obtain ⟨s, es, ht⟩ := tracks_of_prefixes (ops.take n) (hr n) (fun m hm => by
        rw [htk n m hm]
        refine ih m ?_
        rw [List.length_take] at hm
        omega)
      exact ht.reads_iff.1 (h n)
  · intro h n
    obtain ⟨s, es, ht⟩ := tracks_of_prefixes (ops.take n) (hr n) (fun m hm => by rw [htk n m hm]; exact h m)
    exact ht.reads_iff.2 (h n)

/-- C04: in particular one write of a non-zero value into an empty vector is remembered exactly for positions 0 and 1. -/
theorem C04_first_write (l i : Nat) (v : T) (hi : i < l) (hv : isZero v = false) : ReadsRight l [(i, v)] ↔ i ≤ 1 := by
  obtain ⟨s, es, ht⟩ := tracks_of_prefixes (l := l) [(i, v)] (by simpa using hi) (fun n hn k hk hz => by
    obtain rfl : n = 0 := by simpa using hn
    simp [lastWrite, isZero_zero] at hz)
  rw [ht.reads_iff]
  have hf : ((List.range l).filter (fun j => !isZero (lastWrite 0 j [(i, v)]))).length = 1 := by
    have e : (List.range l).filter (fun j => !isZero (lastWrite 0 j [(i, v)])) = (List.range l).filter (fun j => decide (j = i)) := by
      refine List.filter_congr (fun j _ => ?_)
      by_cases h : i = j
      · subst h; simp [lastWrite, hv]
      · simp [lastWrite, h, isZero_zero, Ne.symm h]
    rw [e]
    have hn : (List.range l).Nodup := List.nodup_range
    have : (List.range l).filter (fun j => decide (j = i)) = (List.range l).filter (fun j => j == i) := by
      refine List.filter_congr (fun j _ => rfl)
    rw [this, List.filter_beq, List.length_replicate]
    exact List.count_eq_one_of_mem hn (by simpa using hi)
  constructor
  · intro h
    have := h i hi (by simpa [lastWrite] using hv)
    omega
  · intro h k hk hz
    rw [hf]
    by_cases hik : i = k
    · omega
    · simp [lastWrite, hik, isZero_zero] at hz

/-- A history that stays visible although it is not filled strictly from the front … -/
example : (∀ n, ReadsRight 4 (([(1, 5), (2, 6), (0, 7), (3, 8)] : List (Nat × ℤ)).take n)) := by
  rw [C04_iff 4 _ (by decide)]
  intro n
  rcases n with _ | _ | _ | _ | n
  · intro i; revert i; decide
  · intro i; revert i; decide
  · intro i; revert i; decide
  · intro i; revert i; decide
  · intro i
    rw [show (([(1, 5), (2, 6), (0, 7), (3, 8)] : List (Nat × ℤ)).take (n + 4)) = [(1, 5), (2, 6), (0, 7), (3, 8)] from by simp]
    revert i; decide

/-- … and one that removes two entries and loses sight of the last. -/
example : ¬ ∀ n, ReadsRight 3 (([(0, 5), (1, 6), (2, 7), (0, 0), (1, 0)] : List (Nat × ℤ)).take n) := by
  rw [C04_iff 3 _ (by decide)]
  intro h
  have := h 5 2
  revert this
  decide

end GB
