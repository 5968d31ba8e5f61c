import Verif.Lemmas.Retry
import Verif.Lemmas.Ops3
import Verif.Lemmas.Meth
import Verif.Props.Symm

/-!
# `Negative` cancelled and called again
-/

namespace GB

set_option linter.unusedSectionVars false
set_option linter.unusedSimpArgs false

open M

section any
variable {T : Type} [GoNum T] {w : World T} {out : Ref} {mask : Mask}

theorem Mask.bit_apart (hmo : mask ≠ .ref out) (m : Mat T) (c : Option Nat) (i j : Nat) :
    mask.bit (w.upd out m c) i j = mask.bit w i j := by
  cases mask with
  | ref p =>
    have : p ≠ out := fun h => hmo (by rw [h])
    simp [Mask.bit, World.upd_ne _ _ _ this]
  | _ => rfl

theorem Mask.Fits.upd_apart (hF : mask.Fits w out) (hmo : mask ≠ .ref out) {m : Mat T} (hS : Mat.Same m (w.heap out))
    (c : Option Nat) : mask.Fits (w.upd out m c) out := by
  have hr : ((w.upd out m c).heap out).rows = (w.heap out).rows := by rw [World.upd_out]; exact hS.2.1
  have hcl : ((w.upd out m c).heap out).cols = (w.heap out).cols := by rw [World.upd_out]; exact hS.2.2
  cases mask with
  | ref p =>
    have hp : p ≠ out := fun e => hmo (by rw [e])
    simp only [Mask.Fits] at hF ⊢
    rw [World.upd_ne _ _ _ hp, hr, hcl]; exact hF
  | empty a b | given a b el =>
    simp only [Mask.Fits] at hF ⊢
    rw [hr, hcl]; exact hF
  | nil => trivial

theorem Mask.Sound.upd_apart (hS : mask.Sound w) (hmo : mask ≠ .ref out) (m : Mat T) (c : Option Nat) :
    mask.Sound (w.upd out m c) := by
  cases mask with
  | ref p =>
    have hp : p ≠ out := fun e => hmo (by rw [e])
    simp only [Mask.Sound] at hS ⊢
    rw [World.upd_ne _ _ _ hp]; exact hS
  | given a b el => exact hS
  | _ => trivial

end any

variable {T : Type} [GoRing T] [GoLawful T] {out : Ref} {mask : Mask}

theorem Mat.Storable.neg {k : Kind} {v : T} (h : Mat.Storable k v) : Mat.Storable k (-v) := by
  have hz : isZero v = false → isZero (-v) = false := by
    intro h
    rw [Bool.eq_false_iff] at h ⊢
    exact fun e => h ((isZero_iff _).2 (neg_eq_zero.1 ((isZero_iff _).1 e)))
  cases k <;> first | trivial | exact hz h

theorem negative_tries (s : Ref) : ∀ (cs : List (Option Nat)) (w : World T), (w.heap out).WF → mask.Fits w out → mask.Sound w →
    mask ≠ .ref out → (w.heap out).rows * (w.heap out).cols ≤ w.gas →
    ∃ m' c, (OpCall.negative s).tries mask out w cs = .ok () (w.upd out m' c) ∧ m'.WF ∧ Mat.Same m' (w.heap out) ∧
      ∀ i j, i < (w.heap out).rows → j < (w.heap out).cols →
        m'.val i j = (w.heap out).val i j ∨ (mask.bit w i j = false ∧ m'.val i j = -((w.heap out).val i j))
  | [], w, hout, _, _, _, _ => ⟨w.heap out, w.cancel, by simp [OpCall.tries, World.upd], hout, Mat.Same.refl _,
      fun i j _ _ => Or.inl rfl⟩
  | c :: cs, w, hout, hF, hS, hmo, hg => by
    have hw : w.upd out (w.heap out) c = { w with cancel := c } := by simp [World.upd]
    have hF' := hF.upd_apart hmo (Mat.Same.refl _) c
    have hS' := hS.upd_apart hmo (w.heap out) c
    rw [hw] at hF' hS'
    have key := Ops.negative_writes (w := { w with cancel := c }) (s := s) (mask := mask) hout hF' hS'
      ((Mat.nvalues_le hout).trans hg) (fun i j hi hj hv _ => (Mat.visits_storable hout hi hj hv).neg)
    obtain ⟨m', c', h1, h2, h3, -, h5⟩ := key
    have h3 : Mat.Same m' (w.heap out) := h3
    have hu : World.upd { w with cancel := c } out m' c' = w.upd out m' c' := rfl
    rw [hu] at h1
    obtain ⟨m2, c2, g1, g2, g3, g4⟩ := negative_tries s cs (w.upd out m' c') (by rw [World.upd_out]; exact h2)
      (hF.upd_apart hmo h3 c') (hS.upd_apart hmo m' c') hmo (by rw [World.upd_out, h3.2.1, h3.2.2]; exact hg)
    rw [World.upd_upd] at g1
    rw [World.upd_out] at g3 g4
    refine ⟨m2, c2, ?_, g2, g3.trans h3, fun i j hi hj => ?_⟩
    · unfold OpCall.tries
      rw [show (OpCall.negative s).run mask out { w with cancel := c } = .ok () (w.upd out m' c') from h1]
      exact g1
    · have a := g4 i j (by rw [h3.2.1]; exact hi) (by rw [h3.2.2]; exact hj)
      have b := h5 i j (by rw [h3.2.1]; exact hi) (by rw [h3.2.2]; exact hj)
      have hbit : mask.bit { w with cancel := c } i j = mask.bit w i j := by
        rw [← hw]; exact Mask.bit_apart hmo _ _ _ _
      rw [Mask.bit_apart hmo] at a
      simp only [hbit] at b
      have b : m'.val i j = (w.heap out).val i j ∨ (mask.bit w i j = false ∧ m'.val i j = -((w.heap out).val i j)) := by
        rcases b with b | b
        · split at b
          · rename_i hb; exact Or.inr ⟨hb.2, b⟩
          · exact Or.inl b
        · exact Or.inl b
      rcases a with a | ⟨a0, a⟩ <;> rcases b with b | ⟨b0, b⟩ <;> rw [b] at a
      · exact Or.inl a
      · exact Or.inr ⟨b0, a⟩
      · exact Or.inr ⟨a0, a⟩
      · rw [neg_neg] at a; exact Or.inl a

end GB
