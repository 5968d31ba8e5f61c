import Verif.Props.Effects

/-!
# Element-wise operators, Apply, Equal: C24, C25, C26, C27, C34 (Scalar)
-/

namespace GB

set_option linter.unusedSectionVars false
set_option linter.unusedSimpArgs false

open M

/-! ## The full statements -/

/-- C24 in full: the output, separate from the operands, holds the cell-wise product. -/
def EMulCorrect (T : Type) [GoNum T] : Prop :=
  ∀ (w : World T) (s m out : Ref), w.cancel = none → (w.heap s).WF → (w.heap m).WF → (w.heap out).WF →
    SameShape (w.heap s) (w.heap out) → SameShape (w.heap m) (w.heap out) → s ≠ out → m ≠ out →
    (w.heap s).nvalues ≤ w.gas → (w.heap m).nvalues ≤ w.gas →
    Writes w out (fun i j => (w.heap s).val i j * (w.heap m).val i j) (Ops.elementWiseVectorMultiply s m .nil out w)

/-- C25 in full. -/
def EAddCorrect (T : Type) [GoNum T] : Prop :=
  ∀ (w : World T) (s m out : Ref), w.cancel = none → (w.heap s).WF → (w.heap m).WF → (w.heap out).WF →
    SameShape (w.heap s) (w.heap out) → SameShape (w.heap m) (w.heap out) → s ≠ out → m ≠ out →
    (w.heap s).nvalues ≤ w.gas → (w.heap m).nvalues ≤ w.gas →
    Writes w out (fun i j => (w.heap s).val i j + (w.heap m).val i j) (Ops.elementWiseVectorAdd s m .nil out w)

/-- C26 in full, for a separate output of the input's shape. -/
def ApplyCorrect (T : Type) [GoNum T] : Prop :=
  ∀ (w : World T) (s out : Ref) (u : T → T), w.cancel = none → (w.heap s).WF → (w.heap out).WF →
    SameShape (w.heap s) (w.heap out) → (w.heap s).nvalues ≤ w.gas → (w.heap s).kind = .dense →
    (w.heap out).kind = .dense →
    Writes w out (fun i j => u ((w.heap s).val i j)) (Ops.apply s .nil u out w)

/-- C27 in full. -/
def EqualCorrect (T : Type) [GoNum T] : Prop :=
  ∀ (w : World T) (s m : Ref), w.reg = initReg → (w.heap s).WF → (w.heap m).WF →
    (w.heap s).nvalues ≤ w.gas → (w.heap m).nvalues ≤ w.gas →
    ∃ b w', Meth.equal s m w = .ok b w' ∧ (b = true ↔ SameShape (w.heap s) (w.heap m) ∧
      ∀ i j, i < (w.heap s).rows → j < (w.heap s).cols → (w.heap s).val i j = (w.heap m).val i j)

section ring
variable {T : Type} [GoRing T] [GoLawful T]

/-! ## C24, C25 -/

/-- C24, the part that holds: for operands whose cells are 0 or 1 (Boolean matrices) and an output,
separate from them, that is zero where the product is not written, the element-wise product is right.
More generally it suffices that where both are non-zero they are equal to 1.

Missing: other values — the code stores the common value where the operands are equal, and nothing
elsewhere (`C24_refuted`); the matrix entry point also rejects operands that are not square
(`C24_refuted_shape`). -/
theorem C24_multiply_partial {w : World T} {s m out : Ref} {mask : Mask}
    (hs : (w.heap s).WF) (hm : (w.heap m).WF) (hout : (w.heap out).WF) (hk : (w.heap out).kind ≠ .svec)
    (h1 : SameShape (w.heap s) (w.heap out)) (h2 : SameShape (w.heap m) (w.heap out))
    (hF : mask.Fits w out) (hS : mask.Sound w)
    (hgs : (w.heap s).nvalues ≤ w.gas) (hgm : (w.heap m).nvalues ≤ w.gas) (hso : s ≠ out) (hmo : m ≠ out)
    (h01 : ∀ i j, i < (w.heap out).rows → j < (w.heap out).cols →
      ((w.heap s).val i j = 0 ∨ (w.heap s).val i j = 1) ∧ ((w.heap m).val i j = 0 ∨ (w.heap m).val i j = 1))
    (h0 : ∀ i j, i < (w.heap out).rows → j < (w.heap out).cols → mask.bit w i j = false → (w.heap out).val i j = 0) :
    Writes w out (fun i j => if mask.bit w i j then (w.heap out).val i j
        else (w.heap s).val i j * (w.heap m).val i j) (Ops.elementWiseVectorMultiply s m mask out w) := by
  have hv : Ops.elementWiseVectorMultiply s m mask out w = Ops.elementWiseMultiply s m mask out w := by
    have : (w.heap m).rows = (w.heap s).rows := h2.1.trans h1.1.symm
    unfold Ops.elementWiseVectorMultiply
    rw [bind_apply]; simp only [rowsOf]; rw [bind_apply]; simp only [rowsOf]; simp [this]
  rw [hv]
  refine (Ops.eMul_writes hs hm hout hk h1 h2 hF hS hgs hgm (fun h => absurd h hso)).congr ?_
  intro i j hi hj
  unfold Ops.eMulNew
  by_cases hb : mask.bit w i j = true
  · rw [if_pos hb, if_pos hb]
  · have hb' : mask.bit w i j = false := by simpa using hb
    have hold := h0 i j hi hj hb'
    rw [if_neg hb, if_neg (by tauto), if_neg hb, Mat.keep_lawful, hold]
    obtain ⟨hs1, hm1⟩ := h01 i j hi hj
    have key : ∀ x y : Mat T, (x.val i j = 0 ∨ x.val i j = 1) → (y.val i j = 0 ∨ y.val i j = 1) →
        ∀ d : Decidable (x.Visits i j ∧ GoNum.geq (x.val i j) (y.val i j) = true),
        (@ite _ (x.Visits i j ∧ GoNum.geq (x.val i j) (y.val i j) = true) d (x.val i j) 0) = x.val i j * y.val i j := by
      intro x y hx hy d
      split
      · rename_i h
        have := (GoLawful.eq_iff _ _).1 h.2
        rcases hx with e | e <;> rw [← this, e] <;> simp
      · rename_i h
        by_cases hvx : x.Visits i j
        · have hne : x.val i j ≠ y.val i j := fun he => h ⟨hvx, (GoLawful.eq_iff _ _).2 he⟩
          rcases hx with e | e <;> rcases hy with e' | e' <;> rw [e, e'] at hne ⊢ <;> simp at hne ⊢
        · rw [Mat.not_visits hvx, zero_mul]
    have hcases : (Ops.addOver w s m = s ∧ Ops.addSource w s m = m) ∨ (Ops.addOver w s m = m ∧ Ops.addSource w s m = s) := by
      unfold Ops.addOver Ops.addSource; split <;> simp
    rcases hcases with ⟨e1, e2⟩ | ⟨e1, e2⟩
    · rw [e1, e2]; exact key _ _ hs1 hm1 _
    · rw [e1, e2]; exact (key _ _ hm1 hs1 _).trans (mul_comm _ _)

/-- C25, the part that holds: where at most one of the operands is non-zero, the element-wise sum is
right, provided the output is zero there before, or is the left (or right) operand.

Missing: cells where both are non-zero get the right operand's value (`C25_refuted`). -/
theorem C25_add_partial {w : World T} {s m out : Ref} {mask : Mask}
    (hs : (w.heap s).WF) (hm : (w.heap m).WF) (hout : (w.heap out).WF) (hk : (w.heap out).kind ≠ .svec)
    (h1 : SameShape (w.heap s) (w.heap out)) (h2 : SameShape (w.heap m) (w.heap out))
    (hF : mask.Fits w out) (hS : mask.Sound w) (hmo : mask ≠ .ref out)
    (hgs : (w.heap s).nvalues ≤ w.gas) (hgm : (w.heap m).nvalues ≤ w.gas) (hc : w.cancel = none)
    (hdis : ∀ i j, i < (w.heap out).rows → j < (w.heap out).cols → (w.heap s).val i j = 0 ∨ (w.heap m).val i j = 0)
    (h0 : s = out ∧ m ≠ out ∨ m = out ∧ s ≠ out ∨ s ≠ out ∧ m ≠ out ∧
      ∀ i j, i < (w.heap out).rows → j < (w.heap out).cols → mask.bit w i j = false → (w.heap out).val i j = 0) :
    Writes w out (fun i j => if mask.bit w i j then (w.heap out).val i j
        else (w.heap s).val i j + (w.heap m).val i j) (Ops.elementWiseVectorAdd s m mask out w) := by
  have hv : Ops.elementWiseVectorAdd s m mask out w = Ops.elementWiseAdd s m mask out w := by
    have : (w.heap m).rows = (w.heap s).rows := h2.1.trans h1.1.symm
    unfold Ops.elementWiseVectorAdd
    rw [bind_apply]; simp only [rowsOf]; rw [bind_apply]; simp only [rowsOf]; simp [this]
  rw [hv]
  obtain ⟨m1, c1, e1, e2, e3, e4, -⟩ := Ops.eAdd_ok hs hm hout hk h1 h2 hF hS hmo hgs hgm
  have hnew : ∀ i j, i < (w.heap out).rows → j < (w.heap out).cols → Ops.eAddNew w s m mask out i j =
      if mask.bit w i j then (w.heap out).val i j else (w.heap s).val i j + (w.heap m).val i j := by
    intro i j hi hj
    unfold Ops.eAddNew
    by_cases hb : mask.bit w i j = true
    · rw [if_pos hb, if_pos hb]
    · have hb' : mask.bit w i j = false := by simpa using hb
      rw [if_neg hb, if_neg hb]
      have hz : ∀ v : T, isZero v = false ↔ v ≠ 0 := fun v => by
        rw [Bool.eq_false_iff, ne_eq, isZero_iff]
      simp only [Mat.keep_lawful, hz]
      rcases h0 with ⟨rfl, h0⟩ | ⟨rfl, h0⟩ | ⟨h0, h0', h00⟩
      · rcases hdis i j hi hj with h | h <;> by_cases h' : (w.heap m).val i j = 0 <;> simp_all
      · rcases hdis i j hi hj with h | h <;> by_cases h' : (w.heap s).val i j = 0 <;> simp_all
      · have h00 := h00 i j hi hj hb'
        rcases hdis i j hi hj with h | h <;> by_cases h' : (w.heap m).val i j = 0 <;>
          by_cases h'' : (w.heap s).val i j = 0 <;> simp_all
  refine ⟨m1, c1, e1, e2, e3, fun _ => ⟨(e4 hc).1, ?_⟩, ?_⟩
  · intro i j hi hj
    rw [(e4 hc).2 i j (e3.2.1 ▸ hi) (e3.2.2 ▸ hj), hnew i j (e3.2.1 ▸ hi) (e3.2.2 ▸ hj)]
  · intro i j hi hj
    left
    rw [(e4 hc).2 i j (e3.2.1 ▸ hi) (e3.2.2 ▸ hj), hnew i j (e3.2.1 ▸ hi) (e3.2.2 ▸ hj)]

/-! ## C26 -/

/-- C26, the part that holds: `Apply` from a symmetric matrix into a separate square output puts
`u(in(r,c))` in every cell that `in` stores, that the mask (itself symmetric) does not protect; the
other cells keep their values.

Missing: an input that is not symmetric — the cells are transposed, `C26_refuted`; in place — the mask
is read the wrong way round, `C26_refuted_inplace`, `C26_inplace_inverted`. -/
theorem C26_apply_partial {w : World T} {s out : Ref} {mask : Mask} {u : T → T}
    (hs : (w.heap s).WF) (hout : (w.heap out).WF) (hk : (w.heap out).kind ≠ .svec) (hne : s ≠ out)
    (hsh : SameShape (w.heap s) (w.heap out)) (hsq : (w.heap out).rows = (w.heap out).cols)
    (hF : mask.Fits w out) (hS : mask.Sound w) (hmo : mask ≠ .ref out)
    (hgas : (w.heap s).nvalues ≤ w.gas)
    (hsym : ∀ i j, i < (w.heap s).rows → j < (w.heap s).cols → (w.heap s).val i j = (w.heap s).val j i)
    (hmsym : ∀ i j, i < (w.heap s).rows → j < (w.heap s).cols → mask.bit w i j = mask.bit w j i) :
    ∃ new : Nat → Nat → T, Writes w out new (Ops.apply s mask u out w) ∧
      ∀ i j, i < (w.heap out).rows → j < (w.heap out).cols →
        ((w.heap s).Visits i j → mask.bit w i j = false → new i j = u ((w.heap s).val i j)) ∧
        (¬ (w.heap s).Visits i j ∨ mask.bit w i j = true → new i j = (w.heap out).val i j) := by
  refine ⟨_, Ops.apply_writes hs hout hk hne ⟨by rw [hsh.1, hsq], by rw [hsh.2, hsq]⟩ hF hS (Or.inl hsq) hmo hgas, ?_⟩
  intro i j hi hj
  have hi' : i < (w.heap s).rows := hsh.1.symm ▸ hi
  have hj' : j < (w.heap s).cols := hsh.2.symm ▸ hj
  have hvis : (w.heap s).Visits j i ↔ (w.heap s).Visits i j := by unfold Mat.Visits; rw [hsym i j hi' hj']
  constructor
  · intro hv hb
    rw [if_pos ⟨hvis.2 hv, (hmsym i j hi' hj').symm.trans hb⟩, Mat.keep_lawful, hsym i j hi' hj']
  · intro h
    rw [if_neg]
    rintro ⟨ha, hb⟩
    rcases h with h | h
    · exact h (hvis.1 ha)
    · rw [hmsym i j hi' hj', hb] at h; cases h

/-- What `Apply` in place really does: it applies the operator exactly to the cells the mask *protects*
everywhere else in the package. -/
theorem C26_inplace_inverted {w : World T} {out : Ref} {mask : Mask} {u : T → T}
    (hout : (w.heap out).WF) (hF : mask.Fits w out) (hS : mask.Sound w)
    (hgas : (w.heap out).nvalues ≤ w.gas) (hd : (w.heap out).kind = .dense ∨ (w.heap out).kind = .dvec) :
    Writes w out
      (fun i j => if mask.bit w i j = true then u ((w.heap out).val i j) else (w.heap out).val i j)
      (Ops.apply out mask u out w) := by
  have hst : ∀ v : T, Mat.Storable (w.heap out).kind v := fun v => by
    rcases hd with h | h <;> rw [h] <;> trivial
  refine (Ops.apply_inplace_writes hout hF hS hgas (fun i j _ _ _ _ => hst _)).congr ?_
  intro i j _ _
  have hv : (w.heap out).Visits i j := by unfold Mat.Visits; tauto
  by_cases hb : mask.bit w i j = true
  · rw [if_pos ⟨hv, hb⟩, if_pos hb]
  · rw [if_neg (fun h => hb h.2), if_neg hb]

/-! ## C27 -/

theorem countP_lt {α : Type} {p q : α → Bool} : ∀ {l : List α}, (∀ a ∈ l, p a = true → q a = true) →
    (∃ a ∈ l, ¬ p a = true ∧ q a = true) → l.countP p < l.countP q := by
  intro l
  induction l with
  | nil => rintro - ⟨a, h, -⟩; cases h
  | cons b l ih =>
    rintro h ⟨a, ha, hp, hq⟩
    have hle : l.countP p ≤ l.countP q := List.countP_mono_left (fun x hx => h x (List.mem_cons_of_mem _ hx))
    rw [List.countP_cons, List.countP_cons]
    rcases List.mem_cons.1 ha with rfl | ha
    · simp only [hp, hq]; simp; omega
    · have := ih (fun x hx => h x (List.mem_cons_of_mem _ hx)) ⟨a, ha, hp, hq⟩
      by_cases hb : p b = true
      · simp only [hb, h b List.mem_cons_self hb]; simpa using this
      · simp only [hb]; simp; split <;> omega

/-- Two well-formed matrices of one shape, each compressed or each dense, with equally many values: if
they agree wherever the first one has a value, they agree everywhere. -/
theorem agree_of_count {a b : Mat T} (ha : a.WF) (hb : b.WF) (hsh : SameShape a b)
    (hk : (a.kind = .dense ∨ a.kind = .dvec) ∨
      ((a.kind = .csr ∨ a.kind = .csc ∨ a.kind = .svec) ∧ (b.kind = .csr ∨ b.kind = .csc ∨ b.kind = .svec)))
    (hn : a.nvalues = b.nvalues)
    (h : ∀ i j, i < a.rows → j < a.cols → a.Visits i j → a.val i j = b.val i j) :
    ∀ i j, i < a.rows → j < a.cols → a.val i j = b.val i j := by
  intro i j hi hj
  rcases hk with hk | ⟨hka, hkb⟩
  · exact h i j hi hj (by unfold Mat.Visits; tauto)
  · obtain ⟨ea, -, hfa, hla, -, hza⟩ := Mat.entries_ok ha
    obtain ⟨eb, -, hfb, hlb, -, hzb⟩ := Mat.entries_ok hb
    have ca := hfa.count (hza (by rcases hka with h | h | h <;> rw [h] <;> simp))
    have cb := hfb.count (hzb (by rcases hkb with h | h | h <;> rw [h] <;> simp))
    rw [hla] at ca
    rw [hlb, ← hn, ca, ← hsh.1, ← hsh.2] at cb
    have hsub : ∀ p ∈ cells a.rows a.cols, (!isZero (a.val p.1 p.2)) = true → (!isZero (b.val p.1 p.2)) = true := by
      intro p hp hz
      have hpr := (mem_cells).1 hp
      have : a.val p.1 p.2 ≠ 0 := by
        intro h0; rw [h0] at hz
        have := (isZero_iff (0 : T)).2 rfl
        simp [this] at hz
      rw [← h p.1 p.2 hpr.1 hpr.2 (Or.inr (Or.inr this))]; exact hz
    have heq : ∀ p ∈ cells a.rows a.cols, (!isZero (b.val p.1 p.2)) = true → (!isZero (a.val p.1 p.2)) = true := by
      intro p hp hz
      by_contra hc
      have hlt : ((cells a.rows a.cols).filter (fun p => !isZero (a.val p.1 p.2))).length <
          ((cells a.rows a.cols).filter (fun p => !isZero (b.val p.1 p.2))).length := by
        rw [← List.countP_eq_length_filter, ← List.countP_eq_length_filter]
        exact countP_lt hsub ⟨p, hp, hc, hz⟩
      omega
    by_cases hv : a.Visits i j
    · exact h i j hi hj hv
    · have h0 := Mat.not_visits hv
      rw [h0]
      by_contra hb0
      have hz : (!isZero (b.val i j)) = true := by
        rw [Bool.not_eq_true', Bool.eq_false_iff, ne_eq, isZero_iff]; exact fun h => hb0 h.symm
      have := heq (i, j) (mem_cells.2 ⟨hi, hj⟩) hz
      rw [h0] at this
      simp [(isZero_iff (0 : T)).2 rfl] at this

/-- C27, the part that holds: two dense operands, or two operands of the compressed formats, are equal
according to `Equal` exactly when they have the same shape and the same cells. This covers every pair of
objects of one type.

Missing: one dense and one compressed operand: `C27_refuted_false`, `C27_refuted_true`. -/
theorem C27_equal_partial {w : World T} {s m : Ref} (hreg : w.reg = initReg)
    (hs : (w.heap s).WF) (hm : (w.heap m).WF) (hgs : (w.heap s).nvalues ≤ w.gas) (hgm : (w.heap m).nvalues ≤ w.gas)
    (hk : (w.heap s).kind.sparse = (w.heap m).kind.sparse) :
    ∃ b, Meth.equal s m w = .ok b w ∧ Meth.notEqual s m w = .ok (!b) w ∧
      (b = true ↔ SameShape (w.heap s) (w.heap m) ∧
        ∀ i j, i < (w.heap s).rows → j < (w.heap s).cols → (w.heap s).val i j = (w.heap m).val i j) := by
  obtain ⟨b, h1, h2⟩ := Ops.equal_ok (w := { w with cancel := none }) hs hm hgs hgm rfl
  have h1' : Ops.notEqual s m { w with cancel := none } = .ok (!b) { w with cancel := none } := by
    unfold Ops.notEqual; rw [bind_ok h1]; rfl
  have e1 := Meth.background_ok h1
  have e2 := Meth.background_ok h1'
  refine ⟨b, e1, e2, ?_⟩
  rw [h2]
  have hregeq : ((w.heap s).typeName ∈ w.reg ↔ (w.heap m).typeName ∈ w.reg) := by
    rw [hreg, typeName_initReg, typeName_initReg, hk]
  have hdense : ∀ k : Kind, k.sparse = false → k = .dense ∨ k = .dvec := by intro k; cases k <;> simp [Kind.sparse]
  have hsparse : ∀ k : Kind, k.sparse = true → k = .csr ∨ k = .csc ∨ k = .svec := by intro k; cases k <;> simp [Kind.sparse]
  have hkk : ∀ a b : Mat T, a.kind.sparse = b.kind.sparse → (a.kind = .dense ∨ a.kind = .dvec) ∨
      ((a.kind = .csr ∨ a.kind = .csc ∨ a.kind = .svec) ∧ (b.kind = .csr ∨ b.kind = .csc ∨ b.kind = .svec)) := by
    intro a b h
    cases hka : a.kind.sparse with
    | false => exact Or.inl (hdense _ hka)
    | true => exact Or.inr ⟨hsparse _ hka, hsparse _ (h ▸ hka)⟩
  have hcases : (Ops.addOver { w with cancel := none } s m = s ∧ Ops.addSource { w with cancel := none } s m = m) ∨
      (Ops.addOver { w with cancel := none } s m = m ∧ Ops.addSource { w with cancel := none } s m = s) := by
    unfold Ops.addOver Ops.addSource; split <;> simp
  constructor
  · rintro ⟨hsh, hn, hv⟩
    refine ⟨hsh, ?_⟩
    have hn := hn hregeq
    rcases hcases with ⟨e1, e2⟩ | ⟨e1, e2⟩
    · rw [e1, e2] at hv
      exact agree_of_count hs hm hsh (hkk _ _ hk) hn (fun i j hi hj hvis => (GoLawful.eq_iff _ _).1 (hv i j hi hj hvis))
    · rw [e1, e2] at hv
      intro i j hi hj
      have hsh' : SameShape (w.heap m) (w.heap s) := ⟨hsh.1.symm, hsh.2.symm⟩
      exact (agree_of_count hm hs hsh' (hkk _ _ hk.symm) hn.symm
        (fun i j hi hj hvis => (GoLawful.eq_iff _ _).1 (hv i j (hsh.1 ▸ hi) (hsh.2 ▸ hj) hvis)) i j
        (by rw [← hsh.1]; exact hi) (by rw [← hsh.2]; exact hj)).symm
  · rintro ⟨hsh, hv⟩
    refine ⟨hsh, fun _ => ?_, ?_⟩
    · obtain ⟨ea, -, hfa, hla, -, hza⟩ := Mat.entries_ok hs
      obtain ⟨eb, -, hfb, hlb, -, hzb⟩ := Mat.entries_ok hm
      rcases hkk _ _ hk with hd | ⟨hka, hkb⟩
      · have hd' : (w.heap m).kind = .dense ∨ (w.heap m).kind = .dvec := by
          apply hdense; rw [← hk]; rcases hd with h | h <;> rw [h] <;> rfl
        have key : ∀ x : Mat T, (x.kind = .dense ∨ x.kind = .dvec) → x.nvalues = x.rows * x.cols := by
          intro x hx
          cases x with
          | dense d => rfl
          | dvec d => exact (Nat.mul_one _).symm
          | _ => simp [Mat.kind] at hx
        show (w.heap s).nvalues = (w.heap m).nvalues
        rw [key _ hd, key _ hd', hsh.1, hsh.2]
      · have ca := hfa.count (hza (by rcases hka with h | h | h <;> rw [h] <;> simp))
        have cb := hfb.count (hzb (by rcases hkb with h | h | h <;> rw [h] <;> simp))
        show (w.heap s).nvalues = (w.heap m).nvalues
        rw [← hla, ← hlb, ca, cb, ← hsh.1, ← hsh.2]
        congr 1
        apply List.filter_congr
        intro p hp
        have hpr := mem_cells.1 hp
        rw [hv p.1 p.2 hpr.1 hpr.2]
    · intro i j hi hj _
      rcases hcases with ⟨e1, e2⟩ | ⟨e1, e2⟩
      · rw [e1, e2]; exact (GoLawful.eq_iff _ _).2 (hv i j hi hj)
      · rw [e1, e2]; exact (GoLawful.eq_iff _ _).2 (hv i j hi hj).symm

/-- C27. `Equal` is reflexive, for every format and element type. -/
theorem C27_reflexive {w : World T} {s : Ref} (hreg : w.reg = initReg) (hs : (w.heap s).WF)
    (hgs : (w.heap s).nvalues ≤ w.gas) : Meth.equal s s w = .ok true w := by
  obtain ⟨b, h1, -, h2⟩ := C27_equal_partial hreg hs hs hgs hgs rfl
  have : b = true := h2.2 ⟨⟨rfl, rfl⟩, fun _ _ _ _ => rfl⟩
  rw [h1, this]

/-- C27. `Equal` is symmetric, for operands that are both dense or both compressed. -/
theorem C27_symmetric_partial {w : World T} {s m : Ref} (hreg : w.reg = initReg)
    (hs : (w.heap s).WF) (hm : (w.heap m).WF) (hgs : (w.heap s).nvalues ≤ w.gas) (hgm : (w.heap m).nvalues ≤ w.gas)
    (hk : (w.heap s).kind.sparse = (w.heap m).kind.sparse) : Meth.equal s m w = Meth.equal m s w := by
  obtain ⟨b, h1, -, h2⟩ := C27_equal_partial hreg hs hm hgs hgm hk
  obtain ⟨b', h1', -, h2'⟩ := C27_equal_partial hreg hm hs hgm hgs hk.symm
  rw [h1, h1']
  have : b = b' := by
    rw [Bool.eq_iff_iff, h2, h2']
    constructor
    · rintro ⟨a, b⟩
      exact ⟨⟨a.1.symm, a.2.symm⟩, fun i j hi hj => (b i j (a.1 ▸ hi) (a.2 ▸ hj)).symm⟩
    · rintro ⟨a, b⟩
      exact ⟨⟨a.1.symm, a.2.symm⟩, fun i j hi hj => (b i j (a.1 ▸ hi) (a.2 ▸ hj)).symm⟩
  rw [this]

end ring

section general
variable {T : Type} [GoNum T] [GoStore T]

/-! ## C34 -/

/-- C34, full statement for `Scalar`: false, for every matrix with at least one stored value and every
factor: if the context is cancelled before the call, it never returns — it is still running after any
number of loop iterations. -/
theorem C34_refuted_scalar (w : World T) (s : Ref) (a : T) (hs : (w.heap s).WF) (hc : w.cancel = some 0)
    (hn : (w.heap s).iter.hasNext = true) (gas : Nat) : (Ops.scalar s a { w with gas := gas }).isHang = true := by
  have hcopy : M.copy s { w with gas := gas } = .ok w.next
      { w with gas := gas, heap := Function.update w.heap w.next (w.heap s), next := w.next + 1 } := by
    have h1 : ofObj s Mat.copy { w with gas := gas } = .ok (w.heap s) { w with gas := gas } := by
      unfold ofObj
      rw [Mat.copy_ok hs]
    unfold M.copy
    rw [bind_ok h1]
    rfl
  have hloop : ∀ (g : Nat) (p : Ref) (f : Nat → Nat → T → M T T) (w : World T) (it : Mat.Iter),
      w.cancel = some 0 → it.hasNext = true → loopMap p false f g it w = .hang w := by
    intro g
    induction g with
    | zero =>
      intro p f w it hc hi
      exact congrFun (if_pos hi) w
    | succ g ih =>
      intro p f w it hc hi
      have hpoll : (poll : M T Bool) w = .ok true w := by unfold poll; rw [hc]
      unfold loopMap
      rw [if_pos hi, bind_ok hpoll]
      exact ih p f w it hc hi
  unfold Ops.scalar
  rw [bind_ok hcopy]
  have hf : forMap w.next false (fun _ _ v => (pure (a * v) : M T T))
      { w with gas := gas, heap := Function.update w.heap w.next (w.heap s), next := w.next + 1 } =
      .hang { w with gas := gas, heap := Function.update w.heap w.next (w.heap s), next := w.next + 1 } := by
    refine hloop gas w.next _ _ _ hc ?_
    simpa using hn
  rw [bind_apply, hf]
  rfl

end general

/-! ## Refutations and examples -/

/-- C24, full statement: false. `(2) ∘ (3)` leaves the cell as it was, 0. -/
theorem C24_refuted : ¬ EMulCorrect ℤ := by
  intro h
  have := h (World.of 9 [.dvec { l := 1, values := [2] }, .dvec { l := 1, values := [3] }, .dvec { l := 1, values := [0] }])
    0 1 2 rfl rfl rfl rfl ⟨rfl, rfl⟩ ⟨rfl, rfl⟩ (by decide) (by decide) (by decide) (by decide)
  have hc := this.cell (o := .dvec { l := 1, values := [0] }) rfl (by kernel_rfl) (i := 0) (j := 0) (by decide) (by decide)
  exact absurd hc (by decide +kernel)

/-- C24, full statement: false for the matrix entry point on shapes that are not square. -/
theorem C24_refuted_shape : (Ops.elementWiseMatrixMultiply 0 1 .nil 2 (World.of (T := ℤ) 9
    [.dense { r := 1, c := 2, data := [[1, 1]] }, .dense { r := 1, c := 2, data := [[1, 1]] },
     .dense { r := 1, c := 2, data := [[0, 0]] }])).isPanic = true := by kernel_rfl

/-- C25, full statement: false. `(2) + (3)` is 3. -/
theorem C25_refuted : ¬ EAddCorrect ℤ := by
  intro h
  have := h (World.of 9 [.dvec { l := 1, values := [2] }, .dvec { l := 1, values := [3] }, .dvec { l := 1, values := [0] }])
    0 1 2 rfl rfl rfl rfl ⟨rfl, rfl⟩ ⟨rfl, rfl⟩ (by decide) (by decide) (by decide) (by decide)
  have hc := this.cell (o := .dvec { l := 1, values := [3] }) rfl (by kernel_rfl) (i := 0) (j := 0) (by decide) (by decide)
  exact absurd hc (by decide +kernel)

/-- C26, full statement: false. Applying the identity to `[[0 1] [0 0]]` gives `[[0 0] [1 0]]`. -/
theorem C26_refuted : ¬ ApplyCorrect ℤ := by
  intro h
  have := h (World.of 9 [.dense { r := 2, c := 2, data := [[0, 1], [0, 0]] }, .dense { r := 2, c := 2, data := [[0, 0], [0, 0]] }])
    0 1 id rfl ⟨rfl, by decide⟩ ⟨rfl, by decide⟩ ⟨rfl, rfl⟩ (by decide) rfl rfl
  have hc := this.cell (o := .dense { r := 2, c := 2, data := [[0, 0], [1, 0]] }) rfl (by kernel_rfl) (i := 0) (j := 1)
    (by decide) (by decide)
  exact absurd hc (by decide +kernel)

/-- C26, full statement: false in place. Without a mask nothing is applied. -/
theorem C26_refuted_inplace : ¬ ∀ (w : World ℤ) (s : Ref) (u : ℤ → ℤ), w.cancel = none → (w.heap s).WF →
    (w.heap s).nvalues ≤ w.gas → (w.heap s).kind = .dense →
    Writes w s (fun i j => u ((w.heap s).val i j)) (Ops.apply s .nil u s w) := by
  intro h
  have := h (World.of 9 [.dense { r := 1, c := 1, data := [[1]] }]) 0 (fun x => x + 1) rfl ⟨rfl, by decide⟩ (by decide) rfl
  have hc := this.cell (o := .dense { r := 1, c := 1, data := [[1]] }) rfl (by kernel_rfl) (i := 0) (j := 0)
    (by decide) (by decide)
  exact absurd hc (by decide +kernel)

/-- The matrix `[[1 0]]` as a dense object. -/
def dense10 (T : Type) [GoNum T] : Mat T := .dense { r := 1, c := 2, data := [[1, 0]] }
/-- The matrix `[[1 1]]` as a dense object. -/
def dense11 (T : Type) [GoNum T] : Mat T := .dense { r := 1, c := 2, data := [[1, 1]] }

/-- C27, full statement: false. With another element type than `float64`, a CSR and a dense matrix with
the same cells `[1 0]` are not `Equal`. -/
theorem C27_refuted_false : ¬ EqualCorrect ℤ := by
  intro h
  obtain ⟨b, w', h1, h2⟩ := h (World.of 9 [csr10 ℤ, dense10 ℤ]) 0 1 rfl (csr10_reach.2.wf (by decide)) ⟨rfl, by decide⟩
    (by decide) (by decide)
  have hb : (Meth.equal 0 1 (World.of 9 [csr10 ℤ, dense10 ℤ])).val = some false := by kernel_rfl
  rw [h1] at hb
  have hb : b = false := by simpa [Res.val] using hb
  subst hb
  refine absurd (h2.2 ⟨⟨rfl, rfl⟩, ?_⟩) (by decide)
  intro i j hi hj
  have hi : i < 1 := hi
  have hj : j < 2 := hj
  obtain rfl : i = 0 := by omega
  rcases j with _ | _ | j
  · show (csr10 ℤ).val 0 0 = (dense10 ℤ).val 0 0
    decide +kernel
  · show (csr10 ℤ).val 0 1 = (dense10 ℤ).val 0 1
    decide +kernel
  · omega

/-- C27, full statement: false. With `float64` elements the CSR matrix `[1 0]` is `Equal` to the dense
matrix `[1 1]`. -/
theorem C27_refuted_true : ¬ EqualCorrect ℚ := by
  intro h
  obtain ⟨b, w', h1, h2⟩ := h (World.of 9 [csr10 ℚ, dense11 ℚ]) 0 1 rfl (csr10_reach.1.wf (by decide)) ⟨rfl, by decide⟩
    (by decide) (by decide)
  have hb : (Meth.equal 0 1 (World.of 9 [csr10 ℚ, dense11 ℚ])).val = some true := by kernel_rfl
  rw [h1] at hb
  have hb : b = true := by simpa [Res.val] using hb
  subst hb
  exact absurd ((h2.1 rfl).2 0 1 (by decide) (by decide)) (by decide +kernel)

/-- Meeting the hypotheses of `C24_multiply_partial`: Boolean matrices in different formats. -/
example : (Ops.elementWiseMatrixMultiply 0 1 .nil 2 (World.of (T := ℤ) 9
    [.dense { r := 2, c := 2, data := [[1, 1], [0, 1]] }, .csr { r := 2, c := 2, values := [1, 1], cols := [0, 0], rowStart := [0, 1, 2] },
     .dense { r := 2, c := 2, data := [[0, 0], [0, 0]] }])).left 2 =
    some (.dense { r := 2, c := 2, data := [[1, 0], [0, 0]] }) := by kernel_rfl

/-- Meeting the hypotheses of `C25_add_partial`: disjoint operands, the left one the output. -/
example : (Ops.elementWiseVectorAdd 0 1 .nil 0 (World.of (T := ℤ) 9
    [.dvec { l := 3, values := [5, 0, 0] }, .dvec { l := 3, values := [0, 0, 7] }])).left 0 =
    some (.dvec { l := 3, values := [5, 0, 7] }) := by kernel_rfl

/-- Meeting the hypotheses of `C26_apply_partial`. -/
example : (Ops.apply 0 .nil (fun x => x + 10) 1 (World.of (T := ℤ) 9
    [.csr { r := 2, c := 2, values := [1, 1, 2], cols := [1, 0, 1], rowStart := [0, 1, 3] },
     .dense { r := 2, c := 2, data := [[0, 0], [0, 0]] }])).left 1 =
    some (.dense { r := 2, c := 2, data := [[0, 11], [11, 12]] }) := by kernel_rfl

/-- Meeting the hypotheses of `C27_equal_partial`: CSR against CSC. -/
example : (Meth.equal 0 1 (World.of (T := ℤ) 9
    [.csr { r := 2, c := 2, values := [1, 1, 2], cols := [1, 0, 1], rowStart := [0, 1, 3] },
     .csc { r := 2, c := 2, values := [1, 1, 2], rows := [1, 0, 1], colStart := [0, 1, 3] }])).val = some true := by kernel_rfl

/-- Meeting the hypotheses of `C34_refuted_scalar`. -/
example : (Ops.scalar 0 5 { World.of (T := ℤ) 1000 [csr10 ℤ] with cancel := some 0 }).isHang = true := by kernel_rfl

end GB
