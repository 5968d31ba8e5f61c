import Verif.Model.Basic

/-!
# Lemmas about loops and slices
-/

namespace GB

theorem loop_inv {σ : Type} (Inv : Nat → σ → Prop) {f : Nat → σ → Out σ} :
    ∀ (n i0 : Nat) (s : σ), Inv i0 s →
      (∀ i s, i0 ≤ i → i < i0 + n → Inv i s → ∃ s', f i s = .ok s' ∧ Inv (i + 1) s') →
      ∃ s', loop n i0 f s = .ok s' ∧ Inv (i0 + n) s' := by
  intro n
  induction n with
  | zero => intro i0 s h _; exact ⟨s, rfl, h⟩
  | succ n ih =>
    intro i0 s h hstep
    obtain ⟨s1, h1, h2⟩ := hstep i0 s (Nat.le_refl _) (by omega) h
    obtain ⟨s2, h3, h4⟩ := ih (i0 + 1) s1 h2 (fun i s a b => hstep i s (by omega) (by omega))
    refine ⟨s2, ?_, ?_⟩
    · simp [loop, h1, h3]
    · have : i0 + (n + 1) = i0 + 1 + n := by omega
      rw [this]; exact h4

theorem loop_congr {σ : Type} {f g : Nat → σ → Out σ} :
    ∀ (n i0 : Nat) (s : σ), (∀ i s, i0 ≤ i → i < i0 + n → f i s = g i s) →
      loop n i0 f s = loop n i0 g s := by
  intro n
  induction n with
  | zero => intros; rfl
  | succ n ih =>
    intro i0 s h
    simp only [loop]
    rw [h i0 s (by omega) (by omega)]
    congr 1
    funext x
    exact ih _ _ (fun i s a b => h i s (by omega) (by omega))

theorem idxPred_ok {α : Type} {l : List α} {n : Nat} (h0 : 0 < n) (h : n - 1 < l.length) :
    idxPred l n = .ok l[n - 1] := by
  unfold idxPred; rw [if_neg (by omega)]; exact idx_ok h

theorem idxI_nat {α : Type} {l : List α} {n : Nat} : idxI l (n : Int) = idx l n := by
  simp [idxI]

theorem splice_append {α : Type} (A B : List α) (a : α) :
    splice (A ++ B) A.length a = .ok (A ++ a :: B) := by
  simp [splice]

theorem unsplice_append {α : Type} (A B : List α) (a : α) :
    unsplice (A ++ a :: B) A.length = .ok (A ++ B) := by
  simp [unsplice, List.drop_append]

theorem setIdx_append {α : Type} (A B : List α) (a b : α) :
    setIdx (A ++ a :: B) A.length b = .ok (A ++ b :: B) := by
  simp [setIdx]

theorem idx_append {α : Type} (A B : List α) (a : α) : idx (A ++ a :: B) A.length = .ok a := by
  simp [idx]

end GB

namespace GB

/-- One step of an element-by-element slice copy. -/
theorem copy_step {α : Type} (xs : List α) (z : α) {i : Nat} (h : i < xs.length) :
    setIdx (xs.take i ++ List.replicate (xs.length - i) z) i xs[i] =
      .ok (xs.take (i + 1) ++ List.replicate (xs.length - (i + 1)) z) := by
  have e : xs.length - i = (xs.length - (i + 1)) + 1 := by omega
  rw [e, List.replicate_succ]
  have := setIdx_append (xs.take i) (List.replicate (xs.length - (i + 1)) z) z xs[i]
  rw [List.length_take, Nat.min_eq_left (by omega)] at this
  rw [this]
  congr 1
  have e2 := List.take_concat_get' xs i h
  rw [← e2, List.append_assoc]
  rfl

end GB

namespace GB

/-- Filling a fresh slice position by position. -/
theorem loop_fill {α : Type} (n : Nat) (z : α) (h : Nat → α) (f : Nat → List α → Out (List α))
    (hf : ∀ i l, i < n → f i l = setIdx l i (h i)) :
    loop n 0 f (List.replicate n z) = .ok ((List.range n).map h) := by
  have hlen : ((List.range n).map h).length = n := by simp
  obtain ⟨l, h1, h2⟩ := loop_inv (f := f)
    (Inv := fun i l => l = ((List.range n).map h).take i ++
      List.replicate (((List.range n).map h).length - i) z)
    n 0 (List.replicate n z) (by simp)
    (by
      intro i l _ hi e
      have hi : i < n := by omega
      have := copy_step ((List.range n).map h) z (i := i) (by simpa using hi)
      rw [hf i l hi, e]
      have e2 : ((List.range n).map h)[i]'(by simpa using hi) = h i := by simp
      rw [e2] at this
      exact ⟨_, this, rfl⟩)
  rw [h1, h2]
  simp

theorem map_range_getElem {α : Type} (l : List α) (z : α) :
    (List.range l.length).map (fun i => l.getD i z) = l := by
  apply List.ext_getElem
  · simp
  · intro n a b; simp at a; simp [List.getD, a]

end GB
