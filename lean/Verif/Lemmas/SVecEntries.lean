import Verif.Props.SparseVecIff

/-!
# The entries of a sparse vector in an arbitrary reachable state
-/

namespace GB

set_option linter.unusedSectionVars false

variable {T : Type} [GoNum T]

namespace SVec

/-- The stored pairs, in storage order. -/
def pairs (s : SVec T) : List (Nat × T) := s.indices.zip s.values

theorem Weak.map_fst {s : SVec T} (h : Weak s) : s.pairs.map Prod.fst = s.indices :=
  List.map_fst_zip (by rw [h.len])

theorem Weak.map_snd {s : SVec T} (h : Weak s) : s.pairs.map Prod.snd = s.values :=
  List.map_snd_zip (by rw [h.len])

theorem Weak.length {s : SVec T} (h : Weak s) : s.pairs.length = s.indices.length := by
  rw [← h.map_fst, List.length_map]

theorem Weak.yields {s : SVec T} (h : Weak s) :
    Yields SVec.Iter.hasNext s.step s.iter (s.pairs.map (fun e => (e.1, 0, e.2))) := by
  have := SVec.yields_aux s s.pairs h.map_fst.symm h.map_snd.symm s.pairs.length 0 s.iter (by omega) rfl
    (by rw [h.length, h.len]; rfl)
  simpa using this

theorem Weak.pairs_bound {s : SVec T} (h : Weak s) {e : Nat × T} (he : e ∈ s.pairs) :
    e.1 < s.l ∧ isZero e.2 = false :=
  ⟨h.bound _ (List.of_mem_zip he).1, h.nz _ (List.of_mem_zip he).2⟩

theorem zip_take {α β : Type} (a : List α) (b : List β) (p : Nat) : (a.zip b).take p = (a.take p).zip (b.take p) := by
  simp [List.zip, List.take_zipWith]

theorem zip_drop {α β : Type} (a : List α) (b : List β) (p : Nat) : (a.zip b).drop p = (a.drop p).zip (b.drop p) := by
  simp [List.zip, List.drop_zipWith]

theorem zip_take_drop {α β : Type} (a : List α) (b : List β) (hl : a.length = b.length) (p : Nat) (x : α) (y : β) :
    (a.take p ++ x :: a.drop p).zip (b.take p ++ y :: b.drop p) =
      (a.zip b).take p ++ (x, y) :: (a.zip b).drop p := by
  rw [List.zip_append (by simp [hl]), List.zip_cons_cons, zip_take, zip_drop]

theorem zip_take_drop' {α β : Type} (a : List α) (b : List β) (hl : a.length = b.length) (p q : Nat) :
    (a.take p ++ a.drop q).zip (b.take p ++ b.drop q) = (a.zip b).take p ++ (a.zip b).drop q := by
  rw [List.zip_append (by simp [hl]), zip_take, zip_drop]

/-- What one write does: either it finds a stored pair at its position, and replaces or removes that pair, or
it finds none, and stores a pair somewhere (nothing for a zero). `AtVec` finds the same pair. -/
theorem Weak.write {s : SVec T} (h : Weak s) {i : Nat} (hi : i < s.l) (v : T) :
    ∃ s', s.setVec i v = .ok s' ∧ s'.l = s.l ∧ Weak s' ∧
      ((∃ a x b, s.pairs = a ++ (i, x) :: b ∧ s.atVec i = .ok x ∧
          s'.pairs = if isZero v then a ++ b else a ++ (i, v) :: b) ∨
       (∃ a b, s.pairs = a ++ b ∧ s.atVec i = .ok 0 ∧
          s'.pairs = if isZero v then a ++ b else a ++ (i, v) :: b)) := by
  obtain ⟨s', g1, g2, g3⟩ := h.setVec_ok hi v
  refine ⟨s', g1, g2, g3, ?_⟩
  obtain ⟨p, h1, h2⟩ := index_le s i
  have hpv : p ≤ s.values.length := by rw [← h.len]; exact h2
  have hins : s.insert p i v = .ok s' → s'.pairs =
      if isZero v then s.pairs.take p ++ s.pairs.drop p else s.pairs.take p ++ (i, v) :: s.pairs.drop p := by
    unfold insert
    split
    · intro e; injection e with e; subst e; simp
    · simp only [splice, h2, hpv, if_true, Out.ok_bind]
      intro e; injection e with e; subst e
      exact zip_take_drop _ _ h.len p i v
  unfold setVec at g1
  unfold atVec
  simp only [inRange_natCast, hi, decide_true, if_true, Int.toNat_natCast, h1, Out.ok_bind] at g1 ⊢
  by_cases hp : p < s.indices.length
  · simp only [hp, if_true, idx_ok hp, Out.ok_bind] at g1 ⊢
    have hpv' : p < s.values.length := by rw [← h.len]; exact hp
    by_cases hx : s.indices[p] = i
    · left
      have hpe : p < s.pairs.length := by rw [h.length]; exact hp
      have hE : s.pairs = s.pairs.take p ++ (i, s.values[p]) :: s.pairs.drop (p + 1) := by
        conv_lhs => rw [← List.take_append_drop p s.pairs, List.drop_eq_getElem_cons hpe]
        have : s.pairs[p] = (i, s.values[p]) := by simp [pairs, hx]
        rw [this]
      refine ⟨_, _, _, hE, by rw [if_pos hx, idx_ok hpv'], ?_⟩
      simp only [hx, if_true] at g1
      by_cases hz : isZero v = true
      · rw [if_pos hz] at g1 ⊢
        simp only [remove, unsplice, hp, hpv', if_true, Out.ok_bind] at g1
        injection g1 with g1; subst g1
        exact zip_take_drop' _ _ h.len p (p + 1)
      · rw [if_neg hz] at g1 ⊢
        rw [setIdx_ok hpv'] at g1
        simp only [Out.ok_bind] at g1
        injection g1 with g1; subst g1
        have e1 : s.indices = s.indices.take p ++ i :: s.indices.drop (p + 1) := by
          conv_lhs => rw [← List.take_append_drop p s.indices, List.drop_eq_getElem_cons hp, hx]
        show s.indices.zip (s.values.set p v) = _
        rw [List.set_eq_take_append_cons_drop, if_pos hpv']
        conv_lhs => rw [e1]
        rw [List.zip_append (by simp [h.len]), List.zip_cons_cons, ← zip_take, ← zip_drop]
        rfl
    · right
      rw [if_neg hx] at g1 ⊢
      exact ⟨_, _, (List.take_append_drop p s.pairs).symm, rfl, hins g1⟩
  · right
    rw [if_neg hp] at g1 ⊢
    exact ⟨_, _, (List.take_append_drop p s.pairs).symm, rfl, hins g1⟩

end SVec
end GB
