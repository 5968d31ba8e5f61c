import Verif.Props.EWise
import Verif.Props.Total

/-!
# What the operators compute, exactly: C54; when Add, Subtract, Multiply, Equal are right: C18, C19, C20, C27
-/

namespace GB

set_option linter.unusedSectionVars false
set_option linter.unusedSimpArgs false

open M Meth

section spec
variable {T : Type} [GoNum T]

/-- `Add` and the element-wise product walk through the left operand if its type is registered as
sparse, else through the right one. -/
def lead (w : World T) (s m : Ref) : Mat T := if (w.heap s).typeName ∈ w.reg then w.heap s else w.heap m

/-- The mask cell that decides about `(i, j)` of the output. -/
def OpCall.asks (w : World T) (mask : Mask) : OpCall T → Nat → Nat → Bool
  | .apply _ _ | .transpose _ => fun i j => mask.bit w j i
  | _ => fun i j => mask.bit w i j

/-- The output is none of the operands that are read. -/
def OpCall.Apart (out : Ref) : OpCall T → Prop
  | .negative _ => True
  | c => ∀ p ∈ c.operands, p ≠ out

end spec

section cell
variable {T : Type} [GoRing T]

open Classical in
/-- What the call leaves at `(i, j)` of the output where no mask intervenes. -/
noncomputable def OpCall.cell (w : World T) (out : Ref) : OpCall T → Nat → Nat → T
  | .mxm s m | .mxv s m | .vxm m s => fun i j =>
      ∑ l ∈ Finset.range (w.heap s).cols, (w.heap s).rowVal i l * (w.heap m).colVal j l
  | .add s m => fun i j =>
      if (lead w s m).Visits i j then (w.heap s).val i j + (w.heap m).val i j else (w.heap out).val i j
  | .subtract s _ => fun i j =>
      if (w.heap s).Visits i j then (w.heap s).val i j - (w.heap out).val i j else (w.heap out).val i j
  | .eMulMatrix s m | .eMulVector s m => fun i j =>
      if (lead w s m).Visits i j ∧ (w.heap s).val i j = (w.heap m).val i j then (w.heap s).val i j
      else (w.heap out).val i j
  | .eAddMatrix s m | .eAddVector s m => fun i j =>
      if (w.heap m).val i j ≠ 0 then (w.heap m).val i j
      else if (w.heap s).val i j ≠ 0 then (w.heap s).val i j else (w.heap out).val i j
  | .apply s u => fun i j =>
      if (w.heap s).Visits j i then u ((w.heap s).val j i) else (w.heap out).val i j
  | .negative _ => fun i j => -(w.heap out).val i j
  | .transpose s => fun i j =>
      if (w.heap s).Visits j i then (w.heap s).val j i else (w.heap out).val i j

end cell

section ring
variable {T : Type} [GoRing T] [GoLawful T] {w : World T} {out : Ref} {mask : Mask}

/-- C54. What each of the twelve operators leaves in an output that is not among its operands, cell by
cell, for all operands whose shapes fit: in particular `Subtract` never reads its second operand,
`VectorMatrixMultiply` multiplies from the other side, `Apply` transposes, the element-wise product
compares, the element-wise sum overwrites. -/
theorem C54_exact (call : OpCall T) (hops : ∀ p ∈ call.operands, (w.heap p).WF)
    (hout : (w.heap out).WF) (hk : (w.heap out).kind ≠ .svec) (hsh : call.Shapes w mask out)
    (hap : call.Apart out) (hF : mask.Fits w out) (hS : mask.Sound w) (hmo : mask ≠ .ref out)
    (hg : ∀ p ∈ call.operands, (w.heap p).nvalues ≤ w.gas) (hgo : (w.heap out).nvalues ≤ w.gas)
    (hc : w.cancel = none) :
    ∃ m', call.run mask out w = .ok () (w.upd out m' none) ∧ m'.WF ∧ Mat.Same m' (w.heap out) ∧
      ∀ i j, i < (w.heap out).rows → j < (w.heap out).cols → m'.val i j =
        if call.asks w mask i j then (w.heap out).val i j else call.cell w out i j := by
  classical
  have fin : ∀ {new : Nat → Nat → T} {res : Res T Unit}, Writes w out new res →
      ∃ m', res = .ok () (w.upd out m' none) ∧ m'.WF ∧ Mat.Same m' (w.heap out) ∧
        ∀ i j, i < (w.heap out).rows → j < (w.heap out).cols → m'.val i j = new i j := by
    rintro new res ⟨m', c, h1, h2, h3, h4, -⟩
    obtain ⟨rfl, h5⟩ := h4 hc
    exact ⟨m', h1, h2, h3, fun i j hi hj => h5 i j (h3.2.1 ▸ hi) (h3.2.2 ▸ hj)⟩
  have mul : ∀ s m : Ref, (w.heap s).WF → (w.heap m).WF → m ≠ out → (w.heap m).rows = (w.heap s).cols ∧
      (w.heap out).rows = (w.heap s).rows ∧ (w.heap out).cols = (w.heap m).cols →
      Writes w out (fun i j => if mask.bit w i j then (w.heap out).val i j else
        ∑ l ∈ Finset.range (w.heap s).cols, (w.heap s).rowVal i l * (w.heap m).colVal j l)
        (Ops.multiply s m mask out w) := by
    intro s m hs hm hne h
    refine (Ops.multiply_writes hs hm hout hk h.1 h.2.1 h.2.2 hF hS hne).congr ?_
    intro i j hi hj
    simp only [Mat.keep_lawful, dotSum_eq]
  have over : ∀ s m : Ref, (Ops.addOver w s m = s ∧ Ops.addSource w s m = m ∧ lead w s m = w.heap s) ∨
      (Ops.addOver w s m = m ∧ Ops.addSource w s m = s ∧ lead w s m = w.heap m) := by
    intro s m; unfold Ops.addOver Ops.addSource lead; split <;> simp
  have emul : ∀ s m : Ref, (w.heap s).WF → (w.heap m).WF → s ≠ out → m ≠ out →
      (w.heap s).nvalues ≤ w.gas → (w.heap m).nvalues ≤ w.gas →
      SameShape (w.heap s) (w.heap out) → SameShape (w.heap m) (w.heap out) →
      Writes w out (fun i j => if mask.bit w i j then (w.heap out).val i j else
        (OpCall.eMulMatrix s m).cell w out i j) (Ops.elementWiseMultiply s m mask out w) := by
    intro s m hs hm hso hmo' hgs hgm h1 h2
    refine (Ops.eMul_writes hs hm hout hk h1 h2 hF hS hgs hgm (fun h => absurd h hso)).congr ?_
    intro i j hi hj
    unfold Ops.eMulNew
    simp only [OpCall.cell, Mat.keep_lawful, GoLawful.eq_iff]
    by_cases hb : mask.bit w i j = true
    · rw [if_pos hb, if_pos hb]
    · rw [if_neg hb, if_neg hb, if_neg (by tauto)]
      rcases over s m with ⟨e1, e2, e3⟩ | ⟨e1, e2, e3⟩
      · rw [e1, e2, e3]
      · rw [e1, e2, e3]
        by_cases h : (w.heap m).Visits i j ∧ (w.heap m).val i j = (w.heap s).val i j
        · rw [if_pos h, if_pos ⟨h.1, h.2.symm⟩, h.2]
        · rw [if_neg h, if_neg (fun h' => h ⟨h'.1, h'.2.symm⟩)]
  have eadd : ∀ s m : Ref, (w.heap s).WF → (w.heap m).WF → s ≠ out → m ≠ out →
      (w.heap s).nvalues ≤ w.gas → (w.heap m).nvalues ≤ w.gas →
      SameShape (w.heap s) (w.heap out) → SameShape (w.heap m) (w.heap out) →
      ∃ m', Ops.elementWiseAdd s m mask out w = .ok () (w.upd out m' none) ∧ m'.WF ∧ Mat.Same m' (w.heap out) ∧
        ∀ i j, i < (w.heap out).rows → j < (w.heap out).cols → m'.val i j =
          if mask.bit w i j then (w.heap out).val i j else (OpCall.eAddMatrix s m).cell w out i j := by
    intro s m hs hm hso hmo' hgs hgm h1 h2
    obtain ⟨m1, c1, e1, e2, e3, e4, -⟩ := Ops.eAdd_ok hs hm hout hk h1 h2 hF hS hmo hgs hgm
    obtain ⟨rfl, e5⟩ := e4 hc
    refine ⟨m1, e1, e2, e3, fun i j hi hj => (e5 i j hi hj).trans ?_⟩
    have hz : ∀ v : T, isZero v = false ↔ v ≠ 0 := fun v => by
      rw [Bool.eq_false_iff, ne_eq, isZero_iff]
    unfold Ops.eAddNew
    simp only [OpCall.cell, Mat.keep_lawful, hz, hso, hmo', ne_eq, not_false_eq_true, true_and]
  have cross : ∀ (s : Ref) (u : T → T) (y : M T Unit), (w.heap s).WF →
      OpCall.Shapes.Crossed w mask s out →
      ((w.heap s).rows = (w.heap out).cols ∧ (w.heap s).cols = (w.heap out).rows → 
        ((w.heap out).rows = (w.heap out).cols ∨ mask.Blank) →
        Writes w out (fun j i => if (w.heap s).Visits i j ∧ mask.bit w i j = false then
          (w.heap out).keep (u ((w.heap s).val i j)) else (w.heap out).val j i) (y w)) →
      Writes w out (fun i j => if mask.bit w j i then (w.heap out).val i j else
        if (w.heap s).Visits j i then u ((w.heap s).val j i) else (w.heap out).val i j) (y w) := by
    intro s u y hs h hy
    refine (hy ⟨h.2.1.symm, h.1.symm⟩ ?_).congr ?_
    · rcases h.2.2 with h' | h'
      · exact Or.inr h'
      · left; rw [h.1, h.2.1, h']
    · intro i j hi hj
      simp only [Mat.keep_lawful]
      by_cases hb : mask.bit w j i = true
      · simp [hb]
      · have hb' : mask.bit w j i = false := by simpa using hb
        by_cases hv : (w.heap s).Visits j i <;> simp [hv, hb']
  cases call with
  | mxm s m =>
    simp only [OpCall.operands, List.mem_cons, List.not_mem_nil, or_false, forall_eq_or_imp, forall_eq, OpCall.Apart] at *
    exact fin (mul s m hops.1 hops.2 hap.2 hsh)
  | mxv s m =>
    simp only [OpCall.operands, List.mem_cons, List.not_mem_nil, or_false, forall_eq_or_imp, forall_eq, OpCall.Apart] at *
    exact fin (mul s m hops.1 hops.2 hap.2 hsh)
  | vxm m s =>
    simp only [OpCall.operands, List.mem_cons, List.not_mem_nil, or_false, forall_eq_or_imp, forall_eq, OpCall.Apart] at *
    exact fin (mul s m hops.2 hops.1 hap.1 hsh)
  | add s m =>
    simp only [OpCall.operands, List.mem_cons, List.not_mem_nil, or_false, forall_eq_or_imp, forall_eq, OpCall.Apart] at *
    have hov : Ops.addOver w s m ≠ out := by
      rcases over s m with ⟨e1, -, -⟩ | ⟨e1, -, -⟩ <;> rw [e1]
      exacts [hap.1, hap.2]
    refine fin ((Ops.add_writes hops.1 hops.2 hout hk hsh.1 hsh.2 hF hS ?_ (fun h => absurd h hov)).congr ?_)
    · rcases over s m with ⟨e1, -, -⟩ | ⟨e1, -, -⟩ <;> rw [e1]
      exacts [hg.1, hg.2]
    · intro i j hi hj
      simp only [Mat.keep_lawful, OpCall.asks, OpCall.cell]
      by_cases hb : mask.bit w i j = true
      · simp [hb]
      · have hb' : mask.bit w i j = false := by simpa using hb
        rcases over s m with ⟨e1, e2, e3⟩ | ⟨e1, e2, e3⟩ <;> rw [e1, e2, e3]
        · by_cases hv : (w.heap s).Visits i j <;> simp [hv, hb', add_comm]
        · by_cases hv : (w.heap m).Visits i j <;> simp [hv, hb']
  | subtract s m =>
    simp only [OpCall.operands, List.mem_cons, List.not_mem_nil, or_false, forall_eq_or_imp, forall_eq, OpCall.Apart] at *
    refine fin ((Ops.subtract_writes hops.1 hout hk hsh.1 hsh.2 hF hS hg.1 (fun h => absurd h hap.1)).congr ?_)
    intro i j hi hj
    simp only [Mat.keep_lawful, OpCall.asks, OpCall.cell]
    by_cases hb : mask.bit w i j = true
    · simp [hb]
    · have hb' : mask.bit w i j = false := by simpa using hb
      by_cases hv : (w.heap s).Visits i j <;> simp [hv, hb']
  | eMulMatrix s m =>
    simp only [OpCall.operands, List.mem_cons, List.not_mem_nil, or_false, forall_eq_or_imp, forall_eq, OpCall.Apart] at *
    have : (OpCall.eMulMatrix s m).run mask out w = Ops.elementWiseMultiply s m mask out w := by
      show Ops.elementWiseMatrixMultiply s m mask out w = _
      unfold Ops.elementWiseMatrixMultiply
      rw [bind_apply]; simp only [rowsOf]; rw [bind_apply]; simp only [colsOf]; simp [hsh.2.2]
    rw [this]
    exact fin (emul s m hops.1 hops.2 hap.1 hap.2 hg.1 hg.2 hsh.1 hsh.2.1)
  | eMulVector s m =>
    simp only [OpCall.operands, List.mem_cons, List.not_mem_nil, or_false, forall_eq_or_imp, forall_eq, OpCall.Apart] at *
    have : (OpCall.eMulVector s m).run mask out w = Ops.elementWiseMultiply s m mask out w := by
      show Ops.elementWiseVectorMultiply s m mask out w = _
      have : (w.heap m).rows = (w.heap s).rows := hsh.2.1.trans hsh.1.1.symm
      unfold Ops.elementWiseVectorMultiply
      rw [bind_apply]; simp only [rowsOf]; rw [bind_apply]; simp only [rowsOf]; simp [this]
    rw [this]
    exact fin (emul s m hops.1 hops.2 hap.1 hap.2 hg.1 hg.2 hsh.1 hsh.2)
  | eAddMatrix s m =>
    simp only [OpCall.operands, List.mem_cons, List.not_mem_nil, or_false, forall_eq_or_imp, forall_eq, OpCall.Apart] at *
    have : (OpCall.eAddMatrix s m).run mask out w = Ops.elementWiseAdd s m mask out w := by
      show Ops.elementWiseMatrixAdd s m mask out w = _
      unfold Ops.elementWiseMatrixAdd
      rw [bind_apply]; simp only [rowsOf]; rw [bind_apply]; simp only [colsOf]; simp [hsh.2.2]
    rw [this]
    exact eadd s m hops.1 hops.2 hap.1 hap.2 hg.1 hg.2 hsh.1 hsh.2.1
  | eAddVector s m =>
    simp only [OpCall.operands, List.mem_cons, List.not_mem_nil, or_false, forall_eq_or_imp, forall_eq, OpCall.Apart] at *
    have : (OpCall.eAddVector s m).run mask out w = Ops.elementWiseAdd s m mask out w := by
      show Ops.elementWiseVectorAdd s m mask out w = _
      have : (w.heap m).rows = (w.heap s).rows := hsh.2.1.trans hsh.1.1.symm
      unfold Ops.elementWiseVectorAdd
      rw [bind_apply]; simp only [rowsOf]; rw [bind_apply]; simp only [rowsOf]; simp [this]
    rw [this]
    exact eadd s m hops.1 hops.2 hap.1 hap.2 hg.1 hg.2 hsh.1 hsh.2
  | apply s u =>
    simp only [OpCall.operands, List.mem_cons, List.not_mem_nil, or_false, forall_eq, OpCall.Apart] at *
    have h := hsh.resolve_left hap
    exact fin (cross s u (Ops.apply s mask u out) hops h
      (fun h1 h2 => Ops.apply_writes hops hout hk hap h1 hF hS h2 hmo hg))
  | transpose s =>
    simp only [OpCall.operands, List.mem_cons, List.not_mem_nil, or_false, forall_eq, OpCall.Apart] at *
    exact fin (cross s id (Ops.transpose s mask out) hops hsh
      (fun h1 h2 => Ops.transpose_writes hops hout hk hap h1 hF hS h2 hmo hg))
  | negative s =>
    refine fin ((Ops.negative_writes (s := s) hout hF hS hgo ?_).congr ?_)
    · intro i j hi hj hv hb
      have := Mat.visits_storable hout hi hj hv
      unfold Mat.Storable at this ⊢
      split at this
      · trivial
      · trivial
      · rw [Bool.eq_false_iff] at this ⊢
        intro h; exact this ((isZero_iff _).2 (neg_eq_zero.1 ((isZero_iff _).1 h)))
    · intro i j hi hj
      simp only [OpCall.asks, OpCall.cell]
      by_cases hb : mask.bit w i j = true
      · simp [hb]
      · have hb' : mask.bit w i j = false := by simpa using hb
        by_cases hv : (w.heap out).Visits i j
        · simp [hv, hb']
        · simp [hv, hb', Mat.not_visits hv]

/-! ## Add, Subtract, Multiply: the result, and when it is right -/

theorem Returns.agree {k k' : Kind} {r c r' c' : Nat} {f g : Nat → Nat → T} {res : Res T Ref}
    (h : Returns w k r c f res) (h' : Returns w k' r' c' g res) : r = r' ∧ c = c' ∧ k = k' ∧
    ∀ i j, i < r → j < c → f i j = g i j := by
  obtain ⟨p, w', h1, -, -, -, -, -, -, -, a1, a2, a3, a4⟩ := h
  obtain ⟨p', w'', h1', -, -, -, -, -, -, -, b1, b2, b3, b4⟩ := h'
  rw [h1] at h1'
  cases h1'
  refine ⟨a2.symm.trans b2, a3.symm.trans b3, a1.symm.trans b1, fun i j hi hj => ?_⟩
  rw [← a4 i j hi hj, b4 i j (by omega) (by omega)]

open Classical in
/-- C18, what `A.Add(B)` returns for all operands (`A` not a sparse vector): the sum, except that the
cells where `A` is zero are left zero if `A` is compressed and its type is registered as sparse. -/
theorem C18_add_exact {s m : Ref} (hsn : s < w.next) (hmn : m < w.next)
    (hs : (w.heap s).WF) (hm : (w.heap m).WF) (hk : (w.heap s).kind ≠ .svec)
    (hsh : SameShape (w.heap s) (w.heap m)) (hgs : (w.heap s).nvalues ≤ w.gas) (hgm : (w.heap m).nvalues ≤ w.gas) :
    Returns w (w.heap s).kind (w.heap s).rows (w.heap s).cols
      (fun i j => if (w.heap s).typeName ∈ w.reg ∧ (w.heap s).kind ≠ .dense ∧ (w.heap s).kind ≠ .dvec ∧
          (w.heap s).val i j = 0 then 0 else (w.heap s).val i j + (w.heap m).val i j) (Meth.add s m w) := by
  have es := fresh_ne w (w.heap s) hsn
  have em := fresh_ne w (w.heap s) hmn
  have hover : Ops.addOver (fresh w (w.heap s)) s m ≠ w.next := by
    unfold Ops.addOver; split
    exacts [Nat.ne_of_lt hsn, Nat.ne_of_lt hmn]
  have := Ops.add_writes (w := fresh w (w.heap s)) (s := s) (m := m) (out := w.next) (mask := .nil)
    (by rw [es]; exact hs) (by rw [em]; exact hm) (by rw [fresh_next]; exact hs)
    (by rw [fresh_next]; exact hk) (by rw [es, em]; exact hsh) (by rw [es, fresh_next]; exact ⟨rfl, rfl⟩)
    trivial trivial (by unfold Ops.addOver; split <;> simp only [es, em, fresh_gas] <;> assumption)
    (fun h => absurd h hover)
  refine (returns_of_writes (m := w.heap s) (x := do
    let matrix ← copy s
    Ops.add s m .nil matrix
    pure matrix) (by rw [bind_ok (copy_apply hs)]) this rfl rfl rfl).congr ?_
  intro i j hi hj
  by_cases hreg : (w.heap s).typeName ∈ w.reg
  · have e1 : Ops.addOver (fresh w (w.heap s)) s m = s := if_pos (by rw [es]; exact hreg)
    have e2 : Ops.addSource (fresh w (w.heap s)) s m = m := if_pos (by rw [es]; exact hreg)
    simp only [e1, e2, es, em, fresh_next, Mat.keep_lawful, Mask.bit, and_true]
    by_cases hv : (w.heap s).Visits i j
    · rw [if_pos hv, if_neg, add_comm]
      rintro ⟨-, h1, h2, h3⟩
      rcases hv with h | h | h <;> contradiction
    · rw [if_neg hv, if_pos, Mat.not_visits hv]
      have h0 := Mat.not_visits hv
      unfold Mat.Visits at hv
      exact ⟨hreg, fun h => hv (Or.inl h), fun h => hv (Or.inr (Or.inl h)), h0⟩
  · have e1 : Ops.addOver (fresh w (w.heap s)) s m = m := if_neg (by rw [es]; exact hreg)
    have e2 : Ops.addSource (fresh w (w.heap s)) s m = s := if_neg (by rw [es]; exact hreg)
    simp only [e1, e2, es, em, fresh_next, Mat.keep_lawful, Mask.bit, and_true, hreg, false_and, if_false]
    by_cases hv : (w.heap m).Visits i j
    · rw [if_pos hv]
    · rw [if_neg hv, Mat.not_visits hv, add_zero]

/-- C18: `A.Add(B)` is the sum exactly when the type of `A` is not registered as sparse, or `A` is
dense, or `B` is zero wherever `A` is. -/
theorem C18_add_iff {s m : Ref} (hsn : s < w.next) (hmn : m < w.next)
    (hs : (w.heap s).WF) (hm : (w.heap m).WF) (hk : (w.heap s).kind ≠ .svec)
    (hsh : SameShape (w.heap s) (w.heap m)) (hgs : (w.heap s).nvalues ≤ w.gas) (hgm : (w.heap m).nvalues ≤ w.gas) :
    Returns w (w.heap s).kind (w.heap s).rows (w.heap s).cols
        (fun i j => (w.heap s).val i j + (w.heap m).val i j) (Meth.add s m w) ↔
      (w.heap s).typeName ∉ w.reg ∨ (w.heap s).kind = .dense ∨ (w.heap s).kind = .dvec ∨
        ∀ i j, i < (w.heap s).rows → j < (w.heap s).cols → (w.heap s).val i j = 0 → (w.heap m).val i j = 0 := by
  have ex := C18_add_exact hsn hmn hs hm hk hsh hgs hgm
  constructor
  · intro h
    by_contra hc
    push Not at hc
    obtain ⟨h1, h2, h3, i, j, hi, hj, h4, h5⟩ := hc
    have := (ex.agree h).2.2.2 i j hi hj
    rw [if_pos ⟨h1, h2, h3, h4⟩, h4, zero_add] at this
    exact h5 this.symm
  · intro h
    refine ex.congr ?_
    intro i j hi hj
    split
    · rename_i h'
      rcases h with h | h | h | h
      · exact absurd h'.1 h
      · exact absurd h h'.2.1
      · exact absurd h h'.2.2.1
      · rw [h'.2.2.2, h i j hi hj h'.2.2.2, zero_add]
    · rfl

open Classical in
/-- C19, what `A.Subtract(B)` returns for all operands (neither a sparse vector): the difference,
except that the cells where a compressed `A` is zero hold `B`'s value. -/
theorem C19_subtract_exact {s m : Ref} (hsn : s < w.next) (hmn : m < w.next)
    (hs : (w.heap s).WF) (hm : (w.heap m).WF) (hks : (w.heap s).kind ≠ .svec) (hk : (w.heap m).kind ≠ .svec)
    (hsh : SameShape (w.heap s) (w.heap m)) (hgs : (w.heap s).nvalues ≤ w.gas) :
    Returns w (w.heap m).kind (w.heap s).rows (w.heap s).cols
      (fun i j => if (w.heap s).kind ≠ .dense ∧ (w.heap s).kind ≠ .dvec ∧ (w.heap s).val i j = 0 then
        (w.heap m).val i j else (w.heap s).val i j - (w.heap m).val i j) (Meth.subtract s m w) := by
  have es := fresh_ne w (w.heap m) hsn
  have em := fresh_ne w (w.heap m) hmn
  have hneS : s ≠ w.next := Nat.ne_of_lt hsn
  have := Ops.subtract_writes (w := fresh w (w.heap m)) (s := s) (m := m) (out := w.next) (mask := .nil)
    (by rw [es]; exact hs) (by rw [fresh_next]; exact hm)
    (by rw [fresh_next]; exact hk) (by rw [es, em]; exact hsh) (by rw [es, fresh_next]; exact hsh)
    trivial trivial (by rw [es]; exact hgs) (fun h => absurd h hneS)
  have hcopy : (fun w : World T => match w.heap s with
      | .svec _ => copy s w
      | _ => copy m w) { w with cancel := none } = .ok w.next (fresh w (w.heap m)) := by
    cases hv : w.heap s with
    | svec v => exact absurd (by rw [hv]; rfl) hks
    | _ => simp only [hv]; exact copy_apply hm
  refine (returns_of_writes (m := w.heap m) (x := do
    let matrix ← fun w => match w.heap s with
      | .svec _ => copy s w
      | _ => copy m w
    Ops.subtract s m .nil matrix
    pure matrix) (bind_ok hcopy) this rfl hsh.1.symm hsh.2.symm).congr ?_
  intro i j hi hj
  simp only [es, em, fresh_next, Mat.keep_lawful, Mask.bit, and_true]
  by_cases hv : (w.heap s).Visits i j
  · rw [if_pos hv, if_neg]
    rintro ⟨h1, h2, h3⟩
    rcases hv with h | h | h <;> contradiction
  · rw [if_neg hv, if_pos]
    have h0 := Mat.not_visits hv
    unfold Mat.Visits at hv
    exact ⟨fun h => hv (Or.inl h), fun h => hv (Or.inr (Or.inl h)), h0⟩

/-- C19: `A.Subtract(B)` is the difference exactly when `A` is dense or the cells of `B` are their own
negatives wherever `A` is zero (over the integers: are zero). -/
theorem C19_subtract_iff {s m : Ref} (hsn : s < w.next) (hmn : m < w.next)
    (hs : (w.heap s).WF) (hm : (w.heap m).WF) (hks : (w.heap s).kind ≠ .svec) (hk : (w.heap m).kind ≠ .svec)
    (hsh : SameShape (w.heap s) (w.heap m)) (hgs : (w.heap s).nvalues ≤ w.gas) :
    Returns w (w.heap m).kind (w.heap s).rows (w.heap s).cols
        (fun i j => (w.heap s).val i j - (w.heap m).val i j) (Meth.subtract s m w) ↔
      (w.heap s).kind = .dense ∨ (w.heap s).kind = .dvec ∨
        ∀ i j, i < (w.heap s).rows → j < (w.heap s).cols → (w.heap s).val i j = 0 →
          (w.heap m).val i j = -(w.heap m).val i j := by
  have ex := C19_subtract_exact hsn hmn hs hm hks hk hsh hgs
  constructor
  · intro h
    by_contra hc
    push Not at hc
    obtain ⟨h2, h3, i, j, hi, hj, h4, h5⟩ := hc
    have := (ex.agree h).2.2.2 i j hi hj
    rw [if_pos ⟨h2, h3, h4⟩, h4, zero_sub] at this
    exact h5 this
  · intro h
    refine ex.congr ?_
    intro i j hi hj
    split
    · rename_i h'
      rcases h with h | h | h
      · exact absurd h h'.1
      · exact absurd h h'.2.1
      · rw [h'.2.2, zero_sub]; exact h i j hi hj h'.2.2
    · rfl

/-- C20, what `A.Multiply(B)` returns for a matrix receiver and any second operand: the product of
what multiplication reads, where a compressed matrix reads as zero beyond as many positions of a row
(a column) as there are non-zero values in it. -/
theorem C20_method_exact {s m : Ref} (hsn : s < w.next) (hmn : m < w.next)
    (hs : (w.heap s).WF) (hm : (w.heap m).WF) (hk : (w.heap s).kind ≠ .svec ∧ (w.heap s).kind ≠ .dvec)
    (h1 : (w.heap m).rows = (w.heap s).cols) :
    Returns w (w.heap s).kind (w.heap s).rows (w.heap m).cols
      (fun i j => ∑ l ∈ Finset.range (w.heap s).cols, (w.heap s).rowVal i l * (w.heap m).colVal j l)
      (Meth.multiply s m w) := by
  obtain ⟨o1, o2, o3, o4⟩ := mulOut_ok (w.heap s) (w.heap m) hk
  have es := fresh_ne w (mulOut (w.heap s) (w.heap m)) hsn
  have em := fresh_ne w (mulOut (w.heap s) (w.heap m)) hmn
  have := Ops.multiply_writes (w := fresh w (mulOut (w.heap s) (w.heap m))) (s := s) (m := m) (out := w.next)
    (mask := .nil) (by rw [es]; exact hs) (by rw [em]; exact hm) (by rw [fresh_next]; exact o1)
    (by rw [fresh_next, o2]; exact hk.1) (by rw [es, em]; exact h1) (by rw [es, fresh_next]; exact o3)
    (by rw [em, fresh_next]; exact o4) trivial trivial (Nat.ne_of_lt hmn)
  refine (returns_of_writes (m := mulOut (w.heap s) (w.heap m)) (x := do
    let out ← fun w => alloc (mulOut (w.heap s) (w.heap m)) w
    Ops.matrixMatrixMultiply s m .nil out
    pure out) rfl this o2 o3 o4).congr ?_
  intro i j hi hj
  simp [es, em, Mask.bit, Mat.keep_lawful, dotSum_eq]

theorem shortRead_wrong {n : Nat} {g : Nat → T} (h : ¬ Dense0 n g) : ∃ l, l < n ∧ shortRead n g l = 0 ∧ g l ≠ 0 := by
  unfold Dense0 at h
  push Not at h
  obtain ⟨l, hl, hz, hn⟩ := h
  refine ⟨l, hl, if_neg (by omega), fun h0 => ?_⟩
  rw [h0] at hz
  rw [(isZero_iff (0 : T)).2 rfl] at hz
  cases hz

/-- The column with a one at position `l`. -/
def unitCol (n l : Nat) : Mat T := .dense { r := n, c := 1, data := (List.range n).map fun i => [if i = l then 1 else 0] }

theorem unitCol_wf (n l : Nat) : (unitCol n l : Mat T).WF := by
  refine ⟨by simp, ?_⟩
  intro row hr
  simp only [List.mem_map] at hr
  obtain ⟨i, -, rfl⟩ := hr
  rfl

theorem unitCol_val {n l k : Nat} (hk : k < n) : (unitCol n l : Mat T).val k 0 = if k = l then 1 else 0 := by
  have := Dense.at_ok (unitCol_wf (T := T) n l) (i := k) (j := 0) hk Nat.one_pos
  unfold Mat.val unitCol
  simp only [Mat.at', this]
  simp [Dense.cell, List.getD, hk]

/-- C20: for a matrix receiver `A`, `A.Multiply(B)` is the product for all dense `B` exactly when in
every row of a compressed `A` no non-zero position exceeds the number of non-zero values of the row. -/
theorem C20_method_iff {a : Mat T} (ha : a.WF) (hk : a.kind ≠ .svec ∧ a.kind ≠ .dvec) :
    (∀ (w : World T) (s m : Ref), s < w.next → m < w.next → w.heap s = a → (w.heap m).WF →
      (w.heap m).kind = .dense → (w.heap m).rows = a.cols →
      Returns w a.kind a.rows (w.heap m).cols
        (fun i j => ∑ l ∈ Finset.range a.cols, a.val i l * (w.heap m).val l j) (Meth.multiply s m w)) ↔
      a.RowsFit := by
  constructor
  · intro h
    by_contra hc
    unfold Mat.RowsFit at hc
    push Not at hc
    obtain ⟨hkk, i, hi, hd⟩ := hc
    obtain ⟨l, hl, h0, hn⟩ := shortRead_wrong hd
    set b : Mat T := unitCol a.cols l with hb
    have hbw : b.WF := unitCol_wf _ _
    have hbv : ∀ k, k < a.cols → b.val k 0 = if k = l then 1 else 0 := fun k hk => unitCol_val hk
    let w : World T := World.of 0 [a, b]
    have e0 : w.heap 0 = a := rfl
    have e1 : w.heap 1 = b := rfl
    have n0 : 0 < w.next := show (0 : Nat) < 2 by decide
    have n1 : 1 < w.next := show (1 : Nat) < 2 by decide
    have h1 := h w 0 1 n0 n1 e0 (by rw [e1]; exact hbw) rfl rfl
    have h2 := C20_method_exact (w := w) (s := 0) (m := 1) n0 n1 (by rw [e0]; exact ha)
      (by rw [e1]; exact hbw) (by rw [e0]; exact hk) rfl
    have := (h1.agree h2).2.2.2 i 0 hi (show (0 : Nat) < 1 by decide)
    simp only [e0, e1] at this
    have hcol : ∀ k, b.colVal 0 k = b.val k 0 := fun k => rfl
    simp only [hcol] at this
    have sum : ∀ f : Nat → T, ∑ k ∈ Finset.range a.cols, f k * b.val k 0 = f l := by
      intro f
      rw [Finset.sum_congr rfl (fun k hk => by rw [hbv k (Finset.mem_range.1 hk)])]
      simp [hl]
    rw [sum, sum] at this
    apply hn
    rw [this]
    unfold Mat.rowVal
    rcases hkk with h | h <;> rw [h] <;> exact h0
  · rintro h w s m hsn hmn rfl hm hkm h1
    exact C20_method_partial hsn hmn ha hm hk h1 h (Mat.fit_dense (by rw [hkm]; simp)).2

/-! ## Equal on mixed storage -/

/-- The object stores all its cells. -/
def Mat.Full (m : Mat T) : Prop := m.kind = .dense ∨ m.kind = .dvec

theorem not_sparse {k : Kind} : k.sparse = false ↔ k = .dense ∨ k = .dvec := by cases k <;> simp [Kind.sparse]

theorem sparse_nz {m : Mat T} (h : m.WF) (hk : m.kind.sparse = true) :
    m.nvalues = ((cells m.rows m.cols).filter (fun p => !isZero (m.val p.1 p.2))).length := by
  obtain ⟨ea, -, hfa, hla, -, hza⟩ := Mat.entries_ok h
  rw [← hla]
  exact hfa.count (hza (by cases hh : m.kind <;> simp [hh, Kind.sparse] at hk ⊢))

theorem full_count {m : Mat T} (h : m.Full) : m.nvalues = (cells m.rows m.cols).length := by
  rw [cells_length]
  cases m with
  | dense d => rfl
  | dvec d => exact (Nat.mul_one _).symm
  | _ => simp [Mat.Full, Mat.kind] at h

/-- C27, what `Equal` answers when exactly one operand, `c`, is compressed and the other, `d`, dense.
With `float64` elements: whether the shapes agree and the two agree where `c` is not zero. With other
element types: whether the shapes agree, the two agree everywhere, and no cell is zero. -/
theorem C27_mixed_exact {s m : Ref} (hreg : w.reg = initReg)
    (hs : (w.heap s).WF) (hm : (w.heap m).WF) (hgs : (w.heap s).nvalues ≤ w.gas) (hgm : (w.heap m).nvalues ≤ w.gas)
    {c d : Ref} (hcd : c = s ∧ d = m ∨ c = m ∧ d = s)
    (hc : (w.heap c).kind.sparse = true) (hd : (w.heap d).kind.sparse = false) :
    ∃ b, Meth.equal s m w = .ok b w ∧ Meth.notEqual s m w = .ok (!b) w ∧
      (GoNum.gname T = "float64" → (b = true ↔ SameShape (w.heap s) (w.heap m) ∧
        ∀ i j, i < (w.heap s).rows → j < (w.heap s).cols → (w.heap c).val i j ≠ 0 →
          (w.heap s).val i j = (w.heap m).val i j)) ∧
      (GoNum.gname T ≠ "float64" → (b = true ↔ SameShape (w.heap s) (w.heap m) ∧
        ∀ i j, i < (w.heap s).rows → j < (w.heap s).cols →
          (w.heap s).val i j = (w.heap m).val i j ∧ (w.heap s).val i j ≠ 0)) := by
  obtain ⟨b, h1, h2⟩ := Ops.equal_ok (w := { w with cancel := none }) hs hm hgs hgm rfl
  have h1' : Ops.notEqual s m { w with cancel := none } = .ok (!b) { w with cancel := none } := by
    unfold Ops.notEqual; rw [bind_ok h1]; rfl
  have b1 := Meth.background_ok h1
  have b2 := Meth.background_ok h1'
  refine ⟨b, b1, b2, fun hg => ?_, fun hg => ?_⟩
  · have rc : (w.heap c).typeName ∈ w.reg := by rw [hreg, typeName_initReg]; exact ⟨hc, hg⟩
    have rd : (w.heap d).typeName ∉ w.reg := by rw [hreg, typeName_initReg, hd]; simp
    have e1 : Ops.addOver { w with cancel := none } s m = c := by
      unfold Ops.addOver
      rcases hcd with ⟨rfl, rfl⟩ | ⟨rfl, rfl⟩
      · exact if_pos rc
      · exact if_neg rd
    have e2 : Ops.addSource { w with cancel := none } s m = d := by
      unfold Ops.addSource
      rcases hcd with ⟨rfl, rfl⟩ | ⟨rfl, rfl⟩
      · exact if_pos rc
      · exact if_neg rd
    rw [h2, e1, e2]
    have hv : ∀ i j, (w.heap c).Visits i j ↔ (w.heap c).val i j ≠ 0 := by
      intro i j
      unfold Mat.Visits
      cases hh : (w.heap c).kind <;> simp [hh, Kind.sparse] at hc ⊢
    have hne : ¬ ((w.heap s).typeName ∈ w.reg ↔ (w.heap m).typeName ∈ w.reg) := by
      rcases hcd with ⟨rfl, rfl⟩ | ⟨rfl, rfl⟩ <;> tauto
    simp only [hv, GoLawful.eq_iff]
    have hsym : ∀ i j, (w.heap c).val i j = (w.heap d).val i j ↔ (w.heap s).val i j = (w.heap m).val i j := by
      intro i j
      rcases hcd with ⟨rfl, rfl⟩ | ⟨rfl, rfl⟩
      · exact Iff.rfl
      · exact eq_comm
    simp only [hsym]
    constructor
    · rintro ⟨a1, -, a3⟩; exact ⟨a1, a3⟩
    · rintro ⟨a1, a3⟩; exact ⟨a1, fun h => absurd h hne, a3⟩
  · have ra : ∀ x : Mat T, x.typeName ∉ w.reg := by
      intro x; rw [hreg, typeName_initReg]; rintro ⟨-, h⟩; exact hg h
    have e1 : Ops.addOver { w with cancel := none } s m = m := if_neg (ra _)
    have e2 : Ops.addSource { w with cancel := none } s m = s := if_neg (ra _)
    rw [h2, e1, e2]
    simp only [GoLawful.eq_iff]
    have hcnt := sparse_nz (show (w.heap c).WF by rcases hcd with ⟨rfl, rfl⟩ | ⟨rfl, rfl⟩ <;> assumption) hc
    have hful := full_count (not_sparse.1 hd)
    have hiff : (SameShape (w.heap s) (w.heap m)) → ((w.heap s).nvalues = (w.heap m).nvalues ↔
        ∀ i j, i < (w.heap s).rows → j < (w.heap s).cols → (w.heap c).val i j ≠ 0) := by
      intro hsh
      have e : (w.heap s).nvalues = (w.heap m).nvalues ↔ (w.heap c).nvalues = (w.heap d).nvalues := by
        rcases hcd with ⟨rfl, rfl⟩ | ⟨rfl, rfl⟩
        · exact Iff.rfl
        · exact eq_comm
      have hr : (w.heap c).rows = (w.heap s).rows ∧ (w.heap c).cols = (w.heap s).cols ∧
          (w.heap d).rows = (w.heap s).rows ∧ (w.heap d).cols = (w.heap s).cols := by
        rcases hcd with ⟨rfl, rfl⟩ | ⟨rfl, rfl⟩
        · exact ⟨rfl, rfl, hsh.1.symm, hsh.2.symm⟩
        · exact ⟨hsh.1.symm, hsh.2.symm, rfl, rfl⟩
      rw [e, hcnt, hful, hr.1, hr.2.1, hr.2.2.1, hr.2.2.2, List.length_filter_eq_length_iff]
      constructor
      · intro h i j hi hj h0
        have := h (i, j) (mem_cells.2 ⟨hi, hj⟩)
        rw [h0, (isZero_iff (0 : T)).2 rfl] at this
        cases this
      · intro h p hp
        have hpr := mem_cells.1 hp
        have := h p.1 p.2 hpr.1 hpr.2
        rw [Bool.not_eq_true', Bool.eq_false_iff, ne_eq, isZero_iff]; exact this
    constructor
    · rintro ⟨a1, a2, a3⟩
      have nz := (hiff a1).1 (a2 ⟨fun h => absurd h (ra _), fun h => absurd h (ra _)⟩)
      refine ⟨a1, fun i j hi hj => ?_⟩
      have hvis : (w.heap m).Visits i j := by
        rcases hcd with ⟨rfl, rfl⟩ | ⟨rfl, rfl⟩
        · have := not_sparse.1 hd; unfold Mat.Visits; tauto
        · exact Or.inr (Or.inr (nz i j hi hj))
      have he := a3 i j hi hj hvis
      refine ⟨he.symm, ?_⟩
      rcases hcd with ⟨rfl, rfl⟩ | ⟨rfl, rfl⟩
      · exact nz i j hi hj
      · rw [← he]; exact nz i j hi hj
    · rintro ⟨a1, a2⟩
      refine ⟨a1, fun _ => (hiff a1).2 fun i j hi hj => ?_, fun i j hi hj _ => (a2 i j hi hj).1.symm⟩
      rcases hcd with ⟨rfl, rfl⟩ | ⟨rfl, rfl⟩
      · exact (a2 i j hi hj).2
      · rw [← (a2 i j hi hj).1]; exact (a2 i j hi hj).2

end ring

/-! ## Cases -/

/-- Meeting the hypotheses of `C54_exact` for `Apply` with a shape that is not square: the output is
transposed. `Subtract` ignores its second operand. -/
example : (Ops.apply 0 .nil (fun x => x * 10) 1 (World.of (T := ℤ) 9
      [.dense { r := 1, c := 2, data := [[3, 4]] }, .dense { r := 2, c := 1, data := [[0], [0]] }])).left 1 =
      some (.dense { r := 2, c := 1, data := [[30], [40]] }) ∧
    (Ops.subtract 0 1 .nil 2 (World.of (T := ℤ) 9 [.dense { r := 1, c := 2, data := [[3, 4]] },
      .dense { r := 1, c := 2, data := [[100, 100]] }, .dense { r := 1, c := 2, data := [[1, 1]] }])).left 2 =
      some (.dense { r := 1, c := 2, data := [[2, 3]] }) := ⟨by kernel_rfl, by kernel_rfl⟩

/-- `C20_method_iff`: the row `(0, 0, 7)` does not fit, the row `(0, 7, 0)` does. -/
example : ¬ Dense0 3 (fun l => ([0, 0, 7] : List ℤ).getD l 0) ∧ Dense0 3 (fun l => ([0, 7, 0] : List ℤ).getD l 0) := by
  unfold Dense0
  constructor
  · intro h; exact absurd (h 2 (by decide) (by decide)) (by decide)
  · decide

/-- `C27_mixed_exact`: `float64` ignores the cell where the compressed one is zero, `int` objects to
a zero. -/
example : (Meth.equal 0 1 (World.of 9 [csr10 ℚ, dense11 ℚ])).val = some true ∧
    (Meth.equal 0 1 (World.of 9 [csr10 ℤ, dense10 ℤ])).val = some false := ⟨by kernel_rfl, by kernel_rfl⟩

end GB
