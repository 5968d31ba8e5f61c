import Verif.Props.Exact
import Verif.Lemmas.IntoSVec
import Verif.Lemmas.Reduce2

/-!
# C91: results written into an empty sparse vector
-/

namespace GB

set_option linter.unusedSectionVars false
set_option linter.unusedSimpArgs false

open M Meth

section spec
variable {T : Type} [GoNum T]

/-- A sparse vector of length `l` that holds `f`: `Enumerate` delivers the non-zero values of `f` in order of position,
`Values` counts them. -/
structure HoldsVec (m : Mat T) (l : Nat) (f : Nat → T) : Prop where
  kind : m.kind = .svec
  shape : m.rows = l ∧ m.cols = 1
  enum : Yields Mat.Iter.hasNext m.step m.iter (((List.range l).filter fun i => !isZero (f i)).map fun i => (i, 0, f i))
  values : m.nvalues = nonzeros l f

/-- The operators that write each cell of another object at most once. -/
def OpCall.OnePass : OpCall T → Prop
  | .eAddMatrix _ _ | .eAddVector _ _ | .negative _ => False
  | _ => True

end spec

section ring
variable {T : Type} [GoRing T] [GoLawful T] {w : World T} {out : Ref} {mask : Mask}

theorem nz_get (f : Nat → T) (n i : Nat) (hi : i < n) : rowGet (SVec.nz f n) i = f i := by
  by_cases h : f i = 0
  · rw [h]
    unfold rowGet
    rw [List.find?_eq_none.2 ?_]
    intro e he hei
    obtain ⟨-, h2, -⟩ := (mem_nz f n e).1 he
    have : e.1 = i := by simpa using hei
    rw [this, h, (isZero_iff (0 : T)).2 rfl] at h2
    cases h2
  · have hm : (i, f i) ∈ SVec.nz f n := (mem_nz f n _).2 ⟨hi, by
      rw [Bool.eq_false_iff, ne_eq, isZero_iff]; exact h, rfl⟩
    exact CSR.rowGet_of_mem (nz_sorted f n) hm

theorem HoldsVec.of_filled {l : Nat} {f : Nat → T} {s' : SVec T} (hl : s'.l = l) (hr : SVec.Rep s' (SVec.nz f l)) :
    HoldsVec (.svec s') l f ∧ ∀ i, i < l → (Mat.svec s').at' i (0 : Nat) = .ok (shortRead l f i, .svec s') := by
  refine ⟨⟨rfl, ⟨hl, rfl⟩, ?_, ?_⟩, fun i hi => ?_⟩
  · have := Mat.svec_yields _ _ hr.yields
    rw [nz_map] at this
    exact this
  · rw [← nonzeros_eq]
    simp [Mat.nvalues, hr.values]
  · have hw : (Mat.svec s').Inv := hr.weak
    rw [hw.at_ok (i := i) (j := 0) (by show i < s'.l; omega) Nat.one_pos, Mat.val_svec hr (by omega), nz_get f l i hi,
      nonzeros_eq]
    rfl

/-- **C91**: the output being an empty sparse vector apart from the operands and the mask, every operator that makes one
pass succeeds, leaves everything else alone, and leaves a vector that holds what the operator computes (C54), with 0 where
the mask protects. `AtVec`, `At` and `Element` of the result see it only up to the position that is the number of its
non-zero values. -/
theorem C91_holds (call : OpCall T) (h1p : call.OnePass) (hops : ∀ p ∈ call.operands, (w.heap p).WF)
    (hout : (w.heap out).WF) (hk : (w.heap out).kind = .svec) (h0 : (w.heap out).nvalues = 0)
    (hsh : call.Shapes w mask out) (hap : call.Apart out) (hF : mask.Fits w out) (hS : mask.Sound w) (hmo : mask ≠ .ref out)
    (hg : ∀ p ∈ call.operands, (w.heap p).nvalues ≤ w.gas) (hc : w.cancel = none) :
    ∃ m', call.run mask out w = .ok () (w.upd out m' none) ∧
      HoldsVec m' (w.heap out).rows (fun i => if call.asks w mask i 0 then 0 else call.cell w out i 0) ∧
      ∀ i, i < (w.heap out).rows → m'.at' i (0 : Nat) = .ok (shortRead (w.heap out).rows
        (fun i => if call.asks w mask i 0 then 0 else call.cell w out i 0) i, m') := by
  classical
  have hE : EmptyVec w out (w.heap out).rows := by
    cases hm : w.heap out with
    | svec s0 =>
      rw [hm] at hout h0
      obtain ⟨es, hr, -⟩ := hout
      have hv : s0.values.length = 0 := h0
      rw [hr.values, List.length_map, List.length_eq_zero_iff] at hv
      subst hv
      exact ⟨s0, hm, rfl, hr⟩
    | _ => rw [hm] at hk; simp [Mat.kind] at hk
  generalize hl : (w.heap out).rows = l at *
  have hz : ∀ i, i < l → (w.heap out).val i 0 = 0 := fun i hi => hE.val hi
  have fin : ∀ {f : Nat → T} {res : Res T Unit}, Filled w out l f res → (∀ i, i < l → f i =
      if call.asks w mask i 0 then 0 else call.cell w out i 0) → ∃ m', res = .ok () (w.upd out m' none) ∧
      HoldsVec m' l (fun i => if call.asks w mask i 0 then 0 else call.cell w out i 0) ∧
      ∀ i, i < l → m'.at' i (0 : Nat) = .ok (shortRead l
        (fun i => if call.asks w mask i 0 then 0 else call.cell w out i 0) i, m') := by
    intro f res h hf
    obtain ⟨s', e1, e2, e3⟩ := h.congr hf
    exact ⟨.svec s', e1, HoldsVec.of_filled e2 e3⟩
  have over : ∀ s m : Ref, (Ops.addOver w s m = s ∧ Ops.addSource w s m = m ∧ lead w s m = w.heap s) ∨
      (Ops.addOver w s m = m ∧ Ops.addSource w s m = s ∧ lead w s m = w.heap m) := by
    intro s m; unfold Ops.addOver Ops.addSource lead; split <;> simp
  have emul : ∀ s m : Ref, (w.heap s).WF → (w.heap m).WF → s ≠ out → m ≠ out →
      (w.heap s).nvalues ≤ w.gas → (w.heap m).nvalues ≤ w.gas →
      SameShape (w.heap s) (w.heap out) → SameShape (w.heap m) (w.heap out) →
      Filled w out l (fun i => if mask.bit w i 0 then 0 else (OpCall.eMulMatrix s m).cell w out i 0)
        (Ops.elementWiseMultiply s m mask out w) := by
    intro s m hs hm hso hmo' hgs hgm h1 h2
    refine (Ops.eMul_fills hs hm hE h1 h2 hF hS hmo hso hmo' hgs hgm hc).congr ?_
    intro i hi
    simp only [OpCall.cell, GoLawful.eq_iff, hz i hi]
    by_cases hb : mask.bit w i 0 = true
    · simp [hb]
    · have hb' : mask.bit w i 0 = false := by simpa using hb
      rcases over s m with ⟨e1, e2, e3⟩ | ⟨e1, e2, e3⟩
      · rw [e1, e2, e3]; simp [hb']
      · rw [e1, e2, e3]
        by_cases h : (w.heap m).Visits i 0 ∧ (w.heap m).val i 0 = (w.heap s).val i 0
        · simp [hb', h.1, h.2]
        · have h' : ¬ ((w.heap m).Visits i 0 ∧ (w.heap s).val i 0 = (w.heap m).val i 0) := fun h' => h ⟨h'.1, h'.2.symm⟩
          simp only [hb', true_and]
          rw [if_neg h, if_neg h']; simp
  have mul : ∀ s m : Ref, (w.heap s).WF → (w.heap m).WF → s ≠ out → m ≠ out → (w.heap m).rows = (w.heap s).cols ∧
      (w.heap out).rows = (w.heap s).rows ∧ (w.heap out).cols = (w.heap m).cols →
      Filled w out l (fun i => if mask.bit w i 0 then 0 else (OpCall.mxm s m).cell w out i 0) (Ops.multiply s m mask out w) := by
    intro s m hs hm hso hmo' h
    refine (Ops.multiply_fills hs hm hE h.1 h.2.1 h.2.2 hF hS hmo hso hmo' hc).congr ?_
    intro i hi
    simp only [OpCall.cell, dotSum_eq]
  have cross : ∀ (s : Ref) (u : T → T), OpCall.Shapes.Crossed w mask s out →
      ((w.heap s).rows = (w.heap out).cols ∧ (w.heap s).cols = (w.heap out).rows) ∧
        ((w.heap out).rows = (w.heap out).cols ∨ mask.Blank) ∧
      ∀ i, i < l → (if (w.heap s).Visits 0 i ∧ mask.bit w 0 i = false then u ((w.heap s).val 0 i) else 0) =
        if mask.bit w 0 i then 0 else if (w.heap s).Visits 0 i then u ((w.heap s).val 0 i) else (w.heap out).val i 0 := by
    intro s u h
    refine ⟨⟨h.2.1.symm, h.1.symm⟩, ?_, fun i hi => ?_⟩
    · rcases h.2.2 with h' | h'
      · exact Or.inr h'
      · left; rw [h.1, h.2.1, h']
    · rw [hz i hi]
      by_cases hb : mask.bit w 0 i = true
      · simp [hb]
      · have hb' : mask.bit w 0 i = false := by simpa using hb
        by_cases hv : (w.heap s).Visits 0 i <;> simp [hv, hb']
  cases call with
  | mxm s m =>
    simp only [OpCall.operands, List.mem_cons, List.not_mem_nil, or_false, forall_eq_or_imp, forall_eq, OpCall.Apart] at *
    exact fin (mul s m hops.1 hops.2 hap.1 hap.2 hsh) (fun _ _ => rfl)
  | mxv s m =>
    simp only [OpCall.operands, List.mem_cons, List.not_mem_nil, or_false, forall_eq_or_imp, forall_eq, OpCall.Apart] at *
    exact fin (mul s m hops.1 hops.2 hap.1 hap.2 hsh) (fun _ _ => rfl)
  | vxm m s =>
    simp only [OpCall.operands, List.mem_cons, List.not_mem_nil, or_false, forall_eq_or_imp, forall_eq, OpCall.Apart] at *
    exact fin (mul s m hops.2 hops.1 hap.2 hap.1 hsh) (fun _ _ => rfl)
  | add s m =>
    simp only [OpCall.operands, List.mem_cons, List.not_mem_nil, or_false, forall_eq_or_imp, forall_eq, OpCall.Apart] at *
    refine fin (Ops.add_fills hops.1 hops.2 hE hsh.1 hsh.2 hF hS hmo hap.1 hap.2 ?_ hc) ?_
    · rcases over s m with ⟨e1, -, -⟩ | ⟨e1, -, -⟩ <;> rw [e1]
      exacts [hg.1, hg.2]
    · intro i hi
      simp only [OpCall.asks, OpCall.cell, hz i hi]
      by_cases hb : mask.bit w i 0 = true
      · simp [hb]
      · have hb' : mask.bit w i 0 = false := by simpa using hb
        rcases over s m with ⟨e1, e2, e3⟩ | ⟨e1, e2, e3⟩ <;> rw [e1, e2, e3]
        · by_cases hv : (w.heap s).Visits i 0 <;> simp [hv, hb', add_comm]
        · by_cases hv : (w.heap m).Visits i 0 <;> simp [hv, hb']
  | subtract s m =>
    simp only [OpCall.operands, List.mem_cons, List.not_mem_nil, or_false, forall_eq_or_imp, forall_eq, OpCall.Apart] at *
    refine fin (Ops.subtract_fills hops.1 hE hsh.1 hsh.2 hF hS hmo hap.1 hg.1 hc) ?_
    intro i hi
    simp only [OpCall.asks, OpCall.cell, hz i hi]
    by_cases hb : mask.bit w i 0 = true
    · simp [hb]
    · have hb' : mask.bit w i 0 = false := by simpa using hb
      by_cases hv : (w.heap s).Visits i 0 <;> simp [hv, hb']
  | eMulMatrix s m =>
    simp only [OpCall.operands, List.mem_cons, List.not_mem_nil, or_false, forall_eq_or_imp, forall_eq, OpCall.Apart] at *
    have : (OpCall.eMulMatrix s m).run mask out w = Ops.elementWiseMultiply s m mask out w := by
      show Ops.elementWiseMatrixMultiply s m mask out w = _
      unfold Ops.elementWiseMatrixMultiply
      rw [bind_apply]; simp only [rowsOf]; rw [bind_apply]; simp only [colsOf]; simp [hsh.2.2]
    rw [this]
    exact fin (emul s m hops.1 hops.2 hap.1 hap.2 hg.1 hg.2 hsh.1 hsh.2.1) (fun _ _ => rfl)
  | eMulVector s m =>
    simp only [OpCall.operands, List.mem_cons, List.not_mem_nil, or_false, forall_eq_or_imp, forall_eq, OpCall.Apart] at *
    have : (OpCall.eMulVector s m).run mask out w = Ops.elementWiseMultiply s m mask out w := by
      show Ops.elementWiseVectorMultiply s m mask out w = _
      have : (w.heap m).rows = (w.heap s).rows := hsh.2.1.trans hsh.1.1.symm
      unfold Ops.elementWiseVectorMultiply
      rw [bind_apply]; simp only [rowsOf]; rw [bind_apply]; simp only [rowsOf]; simp [this]
    rw [this]
    exact fin (emul s m hops.1 hops.2 hap.1 hap.2 hg.1 hg.2 hsh.1 hsh.2) (fun _ _ => rfl)
  | apply s u =>
    simp only [OpCall.operands, List.mem_cons, List.not_mem_nil, or_false, forall_eq_or_imp, forall_eq, OpCall.Apart] at *
    have hsh' : OpCall.Shapes.Crossed w mask s out := hsh.resolve_left hap
    obtain ⟨k1, k2, k3⟩ := cross s u hsh'
    have hrun : (OpCall.apply s u).run mask out w = (forEach s (some ()) (fun r c value => do
        let e ← (mask.resolve w out).element r c
        if !e then M.set out c r (u value)
        pure none) >>= fun _ => pure ()) w := by
      show Ops.apply s mask u out w = _
      unfold Ops.apply; rw [Mask.pre_ok hF]; simp only [hap, if_false]
    rw [hrun]
    exact fin (Ops.cross_fills hops hE hap k1 hF hS k2 hmo hg hc) k3
  | transpose s =>
    simp only [OpCall.operands, List.mem_cons, List.not_mem_nil, or_false, forall_eq_or_imp, forall_eq, OpCall.Apart] at *
    obtain ⟨k1, k2, k3⟩ := cross s id hsh
    have hrun : (OpCall.transpose s).run mask out w = (forEach s (some ()) (fun r c value => do
        let e ← (mask.resolve w out).element r c
        if !e then M.set out c r (id value)
        pure none) >>= fun _ => pure ()) w := by
      show Ops.transpose s mask out w = _
      unfold Ops.transpose; rw [Mask.pre_ok hF]; rfl
    rw [hrun]
    exact fin (Ops.cross_fills hops hE hap k1 hF hS k2 hmo hg hc) k3
  | eAddMatrix s m => exact h1p.elim
  | eAddVector s m => exact h1p.elim
  | negative s => exact h1p.elim

/-- The full claim: what the operators compute is what the vector reads as afterwards. -/
def IntoSparseRight (T : Type) [GoRing T] : Prop :=
  ∀ (w : World T) (out : Ref) (mask : Mask) (call : OpCall T), call.OnePass → (∀ p ∈ call.operands, (w.heap p).WF) →
    (w.heap out).WF → (w.heap out).kind = .svec → (w.heap out).nvalues = 0 → call.Shapes w mask out → call.Apart out →
    mask.Fits w out → mask.Sound w → mask ≠ .ref out → (∀ p ∈ call.operands, (w.heap p).nvalues ≤ w.gas) → w.cancel = none →
    ∃ m', call.run mask out w = .ok () (w.upd out m' none) ∧ ∀ i, i < (w.heap out).rows →
      m'.at' i (0 : Nat) = .ok (if call.asks w mask i 0 then 0 else call.cell w out i 0, m')

theorem shortRead_iff {l : Nat} {f : Nat → T} : (∀ i, i < l → shortRead l f i = f i) ↔ Dense0 l f := by
  constructor
  · intro h
    by_contra hd
    obtain ⟨i, hi, h1, h2⟩ := shortRead_wrong hd
    rw [h i hi] at h1
    exact h2 h1
  · intro h i hi
    unfold shortRead
    split
    · rfl
    · rename_i hn
      by_contra hne
      exact hn (h i hi (by rw [Bool.eq_false_iff, ne_eq, isZero_iff]; exact fun e => hne e.symm))

/-- **C91**, exactly: the result reads as what the operator computes if and only if no non-zero value of it lies beyond the
position that is their number. -/
theorem C91_iff (call : OpCall T) (h1p : call.OnePass) (hops : ∀ p ∈ call.operands, (w.heap p).WF)
    (hout : (w.heap out).WF) (hk : (w.heap out).kind = .svec) (h0 : (w.heap out).nvalues = 0)
    (hsh : call.Shapes w mask out) (hap : call.Apart out) (hF : mask.Fits w out) (hS : mask.Sound w) (hmo : mask ≠ .ref out)
    (hg : ∀ p ∈ call.operands, (w.heap p).nvalues ≤ w.gas) (hc : w.cancel = none) :
    (∃ m', call.run mask out w = .ok () (w.upd out m' none) ∧ ∀ i, i < (w.heap out).rows →
      m'.at' i (0 : Nat) = .ok (if call.asks w mask i 0 then 0 else call.cell w out i 0, m')) ↔
    Dense0 (w.heap out).rows (fun i => if call.asks w mask i 0 then 0 else call.cell w out i 0) := by
  obtain ⟨m1, e1, -, e3⟩ := C91_holds call h1p hops hout hk h0 hsh hap hF hS hmo hg hc
  rw [← shortRead_iff]
  constructor
  · rintro ⟨m', k1, k2⟩ i hi
    rw [e1] at k1
    have hm : m1 = m' := by
      have := congrArg (fun r : Res T Unit => r.world.heap out) k1
      simpa [Res.world] using this
    subst hm
    have := (e3 i hi).symm.trans (k2 i hi)
    simpa using this
  · intro h
    exact ⟨m1, e1, fun i hi => by rw [e3 i hi, h i hi]⟩

/-- **C91**, the case that is right: no non-zero value lies beyond the position that is their number. -/
theorem C91_partial (call : OpCall T) (h1p : call.OnePass) (hops : ∀ p ∈ call.operands, (w.heap p).WF)
    (hout : (w.heap out).WF) (hk : (w.heap out).kind = .svec) (h0 : (w.heap out).nvalues = 0)
    (hsh : call.Shapes w mask out) (hap : call.Apart out) (hF : mask.Fits w out) (hS : mask.Sound w) (hmo : mask ≠ .ref out)
    (hg : ∀ p ∈ call.operands, (w.heap p).nvalues ≤ w.gas) (hc : w.cancel = none)
    (hd : Dense0 (w.heap out).rows (fun i => if call.asks w mask i 0 then 0 else call.cell w out i 0)) :
    ∃ m', call.run mask out w = .ok () (w.upd out m' none) ∧ ∀ i, i < (w.heap out).rows →
      m'.at' i (0 : Nat) = .ok (if call.asks w mask i 0 then 0 else call.cell w out i 0, m') :=
  (C91_iff call h1p hops hout hk h0 hsh hap hF hS hmo hg hc).2 hd

end ring

/-! ## The claim is false of the code -/

/-- `(0, 0, 5)` as a matrix of one column, and an empty sparse vector of length 3. -/
def column005 : World ℤ := World.of 9 [.dense { r := 3, c := 1, data := [[0], [0], [5]] },
  .dense { r := 3, c := 1, data := [[0], [0], [0]] }, .svec (SVec.new 3)]

/-- **C91**: adding `(0, 0, 5)` and `(0, 0, 0)` into an empty sparse vector leaves a vector that enumerates the 5 and reads
as 0 at its place. -/
theorem C91_refuted : ¬ IntoSparseRight ℤ := by
  intro h
  have hd : ∀ d : List (List ℤ), d.length = 3 → (∀ row ∈ d, row.length = 1) → (Mat.dense { r := 3, c := 1, data := d }).WF :=
    fun d h1 h2 => ⟨h1, h2⟩
  obtain ⟨m', h1, h2⟩ := h column005 2 .nil (.add 0 1) trivial
    (by
      intro p hp
      simp only [OpCall.operands, List.mem_cons, List.not_mem_nil, or_false] at hp
      rcases hp with rfl | rfl
      · exact hd _ rfl (by simp)
      · exact hd _ rfl (by simp))
    ⟨[], SVec.rep_new 3, by simp [SVec.Packed]⟩ rfl rfl ⟨⟨rfl, rfl⟩, ⟨rfl, rfl⟩⟩
    (by intro p hp; simp only [OpCall.operands, List.mem_cons, List.not_mem_nil, or_false] at hp; rcases hp with rfl | rfl <;> decide)
    trivial trivial (by simp)
    (by
      intro p hp
      simp only [OpCall.operands, List.mem_cons, List.not_mem_nil, or_false] at hp
      rcases hp with rfl | rfl <;> decide)
    rfl
  have e1 : ((OpCall.add 0 1).run .nil 2 column005).left 2 = some (.svec { l := 3, values := [5], indices := [2] }) := by
    kernel_rfl
  rw [h1] at e1
  obtain rfl : m' = .svec { l := 3, values := [5], indices := [2] } := by simpa [Res.left] using e1
  have := h2 2 (by decide)
  have e2 : (Mat.svec { l := 3, values := [5], indices := [2] } : Mat ℤ).at' (2 : Nat) (0 : Nat) =
    .ok (0, .svec { l := 3, values := [5], indices := [2] }) := by kernel_rfl
  rw [e2] at this
  have hv : (if OpCall.asks column005 .nil (.add 0 1) 2 0 then 0 else (OpCall.add 0 1).cell column005 2 2 0 : ℤ) = 5 := by
    have hvis : (lead column005 0 1).Visits 2 0 := by
      unfold lead
      split
      · exact Or.inl rfl
      · exact Or.inl rfl
    simp only [OpCall.asks, Mask.bit, Bool.false_eq_true, if_false, OpCall.cell, if_pos hvis]
    decide +kernel
  rw [hv] at this
  simp at this

/-- The element-wise sum makes two passes: of `(0, 0, 5)` and `(0, 0, 7)` the vector keeps both, at the same position. -/
theorem C91_two_passes : (Ops.elementWiseVectorAdd 0 1 .nil 2 (World.of (T := ℤ) 9
      [.dense { r := 3, c := 1, data := [[0], [0], [5]] }, .dense { r := 3, c := 1, data := [[0], [0], [7]] },
        .svec (SVec.new 3)])).left 2 = some (.svec { l := 3, values := [5, 7], indices := [2, 2] }) := by
  kernel_rfl

/-! ## Cases -/

/-- Meeting the hypotheses of `C91_partial`: the product of `((1, 2), (3, 4), (0, 0))` with `(1, 1)` is `(3, 7, 0)`, and
reads so. -/
example : (Ops.matrixVectorMultiply 0 1 .nil 2 (World.of (T := ℤ) 9
      [.dense { r := 3, c := 2, data := [[1, 2], [3, 4], [0, 0]] }, .dvec { l := 2, values := [1, 1] },
        .svec (SVec.new 3)])).left 2 = some (.svec { l := 3, values := [3, 7], indices := [0, 1] }) ∧
    (Mat.svec { l := 3, values := [3, 7], indices := [0, 1] } : Mat ℤ).at' (1 : Nat) (0 : Nat) =
      .ok (7, .svec { l := 3, values := [3, 7], indices := [0, 1] }) ∧ Dense0 3 (fun i => ([3, 7, 0] : List ℤ).getD i 0) := by
  refine ⟨by kernel_rfl, by kernel_rfl, ?_⟩
  unfold Dense0; decide

end GB
