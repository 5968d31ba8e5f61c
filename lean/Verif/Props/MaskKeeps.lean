import Verif.Lemmas.Keeps
import Verif.Props.Masks
import Verif.Lemmas.SVecEntries
import Verif.KernelRfl

/-!
# C22: masked cells, whatever the aliasing and however the call ends
-/

namespace GB

set_option linter.unusedSectionVars false

variable {T : Type} [GoNum T] [GoStore T]

/-- The operators that ask the mask about the cell they are about to write: all but `Transpose`, `Apply` and `Negative`. -/
def OpCall.Guarded : OpCall T → Prop
  | .apply _ _ | .negative _ | .transpose _ => False
  | _ => True

theorem KeepsFrom.run {P : Mat T → Prop} {w : World T} {out : Ref} {mask : Mask} (h0 : KeepsFrom P w out mask)
    {call : OpCall T} (hg : call.Guarded) : CellsKept P w out (call.run mask out w).world := by
  have key : Keeps P w out (call.run mask out) := by
    cases call with
    | mxm s m => exact Keeps.multiply h0 s m
    | mxv s m => exact Keeps.multiply h0 s m
    | vxm s m => exact Keeps.multiply h0 m s
    | add s m => exact Keeps.add h0 s m
    | subtract s m => exact Keeps.subtract h0 s m
    | eMulMatrix s m => exact Keeps.elementWiseMatrixMultiply h0 s m
    | eMulVector s m => exact Keeps.elementWiseVectorMultiply h0 s m
    | eAddMatrix s m => exact Keeps.elementWiseMatrixAdd h0 s m
    | eAddVector s m => exact Keeps.elementWiseVectorAdd h0 s m
    | apply s u => exact hg.elim
    | negative s => exact hg.elim
    | transpose s => exact hg.elim
  exact key w h0.kept

theorem SVec.inRange01 : inRange (0 : Int) 1 = true := rfl

/-- C22, the first half of the claim, for every such operator: operands, mask and output may be any objects in reachable
states and any of them the same one, of any shapes, and the call may return, be cancelled at any point, panic, or still be
running. A cell of the output where the mask was set before the call holds what it held before the call. The output is in
a state a program can bring about, of its type and shape; a mask of the caller may panic. Missing: outputs that are sparse
vectors, for which see `C22_keeps_sparse_vector` and `C22_refuted_sparse_vector`. -/
theorem C22_keeps_partial {w : World T} {out : Ref} (mask : Mask) {call : OpCall T} (hg : call.Guarded)
    (hI : ∀ q, q ≠ out → (w.heap q).Inv) (hout : (w.heap out).WF) (hk : (w.heap out).kind ≠ .svec) :
    ((call.run mask out w).world.heap out).WF ∧ Mat.Same ((call.run mask out w).world.heap out) (w.heap out) ∧
    ∀ i j, i < (w.heap out).rows → j < (w.heap out).cols → mask.bit w i j = true →
      ((call.run mask out w).world.heap out).val i j = (w.heap out).val i j := by
  by_cases hF : mask.Fits w out
  · have miss : ∀ (m m' : Mat T) r c v, Mat.Same m (w.heap out) → Mat.Wrote m m' r c v → r < m.rows → c < m.cols →
        ¬ (r < (w.heap out).rows ∧ c < (w.heap out).cols ∧ mask.bit w r c = true) →
        (∀ i j, i < (w.heap out).rows → j < (w.heap out).cols → mask.bit w i j = true → m.val i j = (w.heap out).val i j) →
        m'.WF ∧ Mat.Same m' (w.heap out) ∧
        ∀ i j, i < (w.heap out).rows → j < (w.heap out).cols → mask.bit w i j = true → m'.val i j = (w.heap out).val i j := by
      intro m m' r c v hs hW hr hc hn hcells
      refine ⟨hW.wf, ⟨hW.same.1.trans hs.1, hW.same.2.1.trans hs.2.1, hW.same.2.2.trans hs.2.2⟩, fun i j hi hj hb => ?_⟩
      rw [hW.miss i j (by rw [hs.2.1]; exact hi) (by rw [hs.2.2]; exact hj) (fun h => by
        obtain ⟨rfl, rfl⟩ := h
        exact hn ⟨hi, hj, hb⟩)]
      exact hcells i j hi hj hb
    have h0 : KeepsFrom (fun m => m.WF ∧ Mat.Same m (w.heap out) ∧
        ∀ i j, i < (w.heap out).rows → j < (w.heap out).cols → mask.bit w i j = true → m.val i j = (w.heap out).val i j)
        w out mask :=
      { inv := hI
        good := ⟨hout, ⟨rfl, rfl, rfl⟩, fun _ _ _ _ _ => rfl⟩
        reach := fun m h => h.1.inv
        same := fun m h => h.2.1
        asks := by
          rintro rfl m ⟨-, -, h⟩ r c hr hc hb
          rw [h r c hr hc hb]
          exact hb
        set := by
          rintro m r c v m' ⟨h1, h2, h3⟩ hr hc hn e
          obtain ⟨m'', e', hW⟩ := Mat.set_ok h1 (by rw [h2.1]; exact hk) hr hc v
          rw [e'] at e
          injection e with e
          subst e
          exact miss m m'' r c _ h2 hW hr hc hn h3
        update := by
          rintro m r c f m' ⟨h1, h2, h3⟩ hr hc hn e
          obtain ⟨m'', e', hW⟩ := Mat.update_ok h1 (by rw [h2.1]; exact hk) hr hc f
          rw [e'] at e
          injection e with e
          subst e
          exact miss m m'' r c _ h2 hW hr hc hn h3
        fits := hF }
    exact (h0.run hg).good
  · rw [C22_wrong_shape_panics w mask out call hF]
    exact ⟨hout, ⟨rfl, rfl, rfl⟩, fun _ _ _ _ _ => rfl⟩

/-- What `Enumerate` delivers on a sparse vector at the positions the mask protects. -/
def SVec.maskedPairs (mask : Mask) (w : World T) (s : SVec T) : List (Nat × T) :=
  s.pairs.filter (fun e => mask.bit w e.1 0)

omit [GoStore T] in
theorem SVec.Weak.kept {s s' : SVec T} (h : s.Weak) {i : Nat} (hi : i < s.l) {v : T} (e : s.setVec i v = .ok s')
    {t : Nat → Bool} (ht : t i = false) :
    s'.Weak ∧ s'.l = s.l ∧ s'.pairs.filter (fun e => t e.1) = s.pairs.filter (fun e => t e.1) := by
  obtain ⟨s'', h1, h2, h3, h4⟩ := h.write hi v
  rw [h1] at e
  injection e with e
  subst e
  refine ⟨h3, h2, ?_⟩
  rcases h4 with ⟨a, x, b, hp, -, hq⟩ | ⟨a, b, hp, -, hq⟩ <;> rw [hp, hq] <;> split <;> simp [ht]

/-- C22, the first half of the claim, for outputs that are sparse vectors, in every reachable state: with any aliasing
(except of the mask) and any outcome, `Enumerate` afterwards delivers at the masked positions what it delivered before, in
the same order. `At` may answer differently, see `C22_refuted_sparse_vector`. -/
theorem C22_keeps_sparse_vector {w : World T} {out : Ref} (mask : Mask) {call : OpCall T} (hg : call.Guarded)
    (hI : ∀ q, (w.heap q).Inv) (hm : mask ≠ .ref out) {s : SVec T} (hs : w.heap out = .svec s) :
    ∃ s' : SVec T, (call.run mask out w).world.heap out = .svec s' ∧ s'.l = s.l ∧
      Yields SVec.Iter.hasNext s.step s.iter (s.pairs.map (fun e => (e.1, 0, e.2))) ∧
      Yields SVec.Iter.hasNext s'.step s'.iter (s'.pairs.map (fun e => (e.1, 0, e.2))) ∧
      s'.maskedPairs mask w = s.maskedPairs mask w := by
  have hsw : s.Weak := by have := hI out; rw [hs] at this; exact this
  by_cases hF : mask.Fits w out
  · have h0 : KeepsFrom (fun m => ∃ t : SVec T, m = .svec t ∧ t.Weak ∧ t.l = s.l ∧
        t.maskedPairs mask w = s.maskedPairs mask w) w out mask :=
      { inv := fun q _ => hI q
        good := ⟨s, hs, hsw, rfl, rfl⟩
        reach := by rintro m ⟨t, rfl, ht, -⟩; exact ht
        same := by
          rintro m ⟨t, rfl, -, hl, -⟩
          rw [hs]
          exact ⟨rfl, hl, rfl⟩
        asks := fun h => absurd h hm
        set := by
          rintro m r c v m' ⟨t, rfl, h1, h2, h3⟩ hr hc hn e
          obtain rfl : c = 0 := Nat.lt_one_iff.1 hc
          have hr' : r < t.l := hr
          have e : t.setVec r v >>= (fun s => Out.ok (Mat.svec s)) = .ok m' := by
            simpa [Mat.set, SVec.set, hr', SVec.inRange01] using e
          cases ht : t.setVec r v with
          | panic => rw [ht] at e; cases e
          | hang => rw [ht] at e; cases e
          | ok t' =>
            rw [ht] at e
            injection e with e
            obtain ⟨k1, k2, k3⟩ := h1.kept hr' ht (t := fun i => mask.bit w i 0) (by
              rw [hs] at hn
              simpa [Mat.rows, Mat.cols, ← h2, hr'] using hn)
            exact ⟨t', e.symm, k1, k2.trans h2, k3.trans h3⟩
        update := by
          rintro m r c f m' ⟨t, rfl, h1, h2, h3⟩ hr hc hn e
          obtain rfl : c = 0 := Nat.lt_one_iff.1 hc
          have hr' : r < t.l := hr
          obtain ⟨x, hx, -⟩ := h1.at_self hr'
          have e : t.setVec r (f x) >>= (fun s => Out.ok (Mat.svec s)) = .ok m' := by
            simpa [Mat.update, SVec.update, SVec.updateWith, hr', SVec.inRange01, hx] using e
          cases ht : t.setVec r (f x) with
          | panic => rw [ht] at e; cases e
          | hang => rw [ht] at e; cases e
          | ok t' =>
            rw [ht] at e
            injection e with e
            obtain ⟨k1, k2, k3⟩ := h1.kept hr' ht (t := fun i => mask.bit w i 0) (by
              rw [hs] at hn
              simpa [Mat.rows, Mat.cols, ← h2, hr'] using hn)
            exact ⟨t', e.symm, k1, k2.trans h2, k3.trans h3⟩
        fits := hF }
    obtain ⟨t, ht, h1, h2, h3⟩ := (h0.run hg).good
    exact ⟨t, ht, h2, hsw.yields, h1.yields, h3⟩
  · rw [C22_wrong_shape_panics w mask out call hF]
    exact ⟨s, hs, rfl, hsw.yields, hsw.yields, rfl⟩

/-- C22 is false for sparse vectors as outputs, even with contents that `At` reads right: `Subtract` of `[1, 1, 0]` and
something into `[1, 1, 7]` with a mask that protects position 2 makes positions 0 and 1 zero, and then `At(2)` is 0. -/
theorem C22_refuted_sparse_vector :
    ∃ (w : World ℤ) (u : World ℤ), (∀ q, Reach (w.heap q)) ∧ (OpCall.subtract 0 1).run (.ref 2) 3 w = .ok () u ∧
      (w.heap 3).at' 2 0 = .ok (7, w.heap 3) ∧ (w.heap 2).element 2 0 = .ok (true, w.heap 2) ∧
      (u.heap 3).at' 2 0 = .ok (0, u.heap 3) := by
  refine ⟨World.of 9 [.dvec ⟨3, [1, 1, 0]⟩, .dvec ⟨3, [1, 1, 0]⟩, .dvec ⟨3, [0, 0, 1]⟩, .svec ⟨3, [1, 1, 7], [0, 1, 2]⟩],
    _, ?_, rfl, rfl, rfl, rfl⟩
  intro q
  match q with
  | 0 => exact Reach.arrDVec [1, 1, 0]
  | 1 => exact Reach.arrDVec [1, 1, 0]
  | 2 => exact Reach.arrDVec [0, 0, 1]
  | 3 => exact Reach.arrSVec (data := [1, 1, 7]) rfl
  | n + 4 => exact Reach.newDVec 0

/-! ## Concrete cases -/

/-- Multiplication into its right operand, as in `C22_refuted_multiply`. -/
def keptWorld : World ℤ := World.of 9 [.dense ⟨2, 2, [[1, 1], [1, 1]]⟩, .dense ⟨2, 2, [[1, 1], [1, 1]]⟩,
  .dense ⟨2, 2, [[1, 0], [0, 0]]⟩]

/-- The masked cell (0,0) stays 1; another cell is not what it is without a mask. -/
example : ((OpCall.mxm 0 1).run (.ref 2) 1 keptWorld).world.heap 1 = .dense ⟨2, 2, [[1, 2], [2, 3]]⟩ ∧
    ((OpCall.mxm 0 1).run .nil 1 keptWorld).world.heap 1 = .dense ⟨2, 2, [[2, 2], [3, 3]]⟩ := by constructor <;> rfl

/-- The hypotheses of `C22_keeps_partial` hold there. -/
example : (((OpCall.mxm 0 1).run (.ref 2) 1 keptWorld).world.heap 1).val 0 0 = 1 :=
  (C22_keeps_partial (w := keptWorld) (out := 1) (.ref 2) (call := .mxm 0 1) trivial (by
    intro q hq
    match q with
    | 0 => exact Mat.WF.inv (m := .dense ⟨2, 2, [[1, 1], [1, 1]]⟩) ⟨rfl, by simp⟩
    | 2 => exact Mat.WF.inv (m := .dense ⟨2, 2, [[1, 0], [0, 0]]⟩) ⟨rfl, by simp⟩
    | n + 3 => exact Mat.WF.inv (m := (keptWorld.heap (n + 3))) (by
        show Mat.WF (Mat.dvec ⟨0, []⟩ : Mat ℤ)
        rfl)) ⟨rfl, by simp⟩ (by decide)).2.2 0 0 (by decide) (by decide) rfl

/-- A sparse vector as output and left operand: `Subtract` removes the entry at 0 while it enumerates,
then panics; the entry at 2 is as it was. -/
example : ∃ s s' : SVec ℤ, s.maskedPairs (.ref 1) (World.of 9 [.svec s, .dvec ⟨3, [0, 0, 1]⟩, .dvec ⟨3, [1, 5, 2]⟩]) = [(2, 7)] ∧
    s.pairs = [(0, 1), (1, 1), (2, 7)] ∧ s'.pairs = [(1, 1), (2, 7)] ∧
    ((OpCall.subtract 0 2).run (.ref 1) 0 (World.of 9 [.svec s, .dvec ⟨3, [0, 0, 1]⟩, .dvec ⟨3, [1, 5, 2]⟩])).world.heap 0
      = .svec s' :=
  ⟨⟨3, [1, 1, 7], [0, 1, 2]⟩, ⟨3, [1, 7], [1, 2]⟩, rfl, rfl, rfl, rfl⟩

end GB
