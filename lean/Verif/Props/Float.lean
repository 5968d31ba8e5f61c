import Verif.Lemmas.FloatOps
import Verif.Props.Exact

/-!
# Floating-point elements: C58 (exact results, rounding), C59 (accuracy of products), C60 (comparison)

`f` is any binary format; `binary64` and `binary32` are Go's `float64` and `float32`.
-/

namespace GB

set_option linter.unusedSectionVars false
set_option linter.unusedSimpArgs false

open M Meth

variable {f : Fmt} {w : World (Fl f)} {out : Ref} {mask : Mask}

open Classical in
/-- What the call computes for `(i, j)` of the output where no mask intervenes; `+ - *` and `==` are
those of the format, and inner products are added up from the left, beginning with `+0`. -/
noncomputable def OpCall.flCell (w : World (Fl f)) (out : Ref) : OpCall (Fl f) → Nat → Nat → Fl f
  | .mxm s m | .mxv s m | .vxm m s => fun i j =>
      (List.range (w.heap s).cols).foldl (fun acc l => acc + (w.heap s).rowVal i l * (w.heap m).colVal j l) 0
  | .add s m => fun i j =>
      if (lead w s m).Visits i j then (w.heap s).val i j + (w.heap m).val i j else (w.heap out).val i j
  | .subtract s _ => fun i j =>
      if (w.heap s).Visits i j then (w.heap s).val i j - (w.heap out).val i j else (w.heap out).val i j
  | .eMulMatrix s m | .eMulVector s m => fun i j =>
      if (lead w s m).Visits i j ∧ GoNum.geq ((w.heap s).val i j) ((w.heap m).val i j) = true then
        (lead w s m).val i j
      else (w.heap out).val i j
  | .eAddMatrix s m | .eAddVector s m => fun i j =>
      if isZero ((w.heap m).val i j) = false then (w.heap m).val i j
      else if isZero ((w.heap s).val i j) = false then (w.heap s).val i j else (w.heap out).val i j
  | .apply s u => fun i j =>
      if (w.heap s).Visits j i then u ((w.heap s).val j i) else (w.heap out).val i j
  | .negative _ => fun i j => -(w.heap out).val i j
  | .transpose s => fun i j =>
      if (w.heap s).Visits j i then (w.heap s).val j i else (w.heap out).val i j

/-- What an object holds after `v` is written to it: the compressed formats turn `-0` into `+0`, every
other value and every dense object keeps what is written. -/
theorem Fl.keep_eq (m : Mat (Fl f)) (v : Fl f) :
    m.keep v = if m.kind ≠ .dense ∧ m.kind ≠ .dvec ∧ v = Fl.negZero then 0 else v := by
  unfold Mat.keep
  rw [Fl.norm_eq]
  cases m.kind <;> simp

theorem Fl.keep_val {m : Mat (Fl f)} (h : m.WF) {i j : Nat} (hi : i < m.rows) (hj : j < m.cols) :
    m.keep (m.val i j) = m.val i j := by
  by_cases hv : m.Visits i j
  · exact Mat.storable_keep (Mat.visits_storable h hi hj hv)
  · rw [Mat.not_visits hv, Fl.keep_eq]
    split <;> rfl

/-- C58. What each of the twelve operators leaves in an output that is not among its operands, with
floating-point elements, cell by cell and bit for bit, for all operands whose shapes fit. -/
theorem C58_exact (call : OpCall (Fl f)) (hops : ∀ p ∈ call.operands, (w.heap p).WF)
    (hout : (w.heap out).WF) (hk : (w.heap out).kind ≠ .svec) (hsh : call.Shapes w mask out)
    (hap : call.Apart out) (hF : mask.Fits w out) (hS : mask.Sound w) (hmo : mask ≠ .ref out)
    (hg : ∀ p ∈ call.operands, (w.heap p).nvalues ≤ w.gas) (hgo : (w.heap out).nvalues ≤ w.gas)
    (hc : w.cancel = none) :
    ∃ m', call.run mask out w = .ok () (w.upd out m' none) ∧ m'.WF ∧ Mat.Same m' (w.heap out) ∧
      ∀ i j, i < (w.heap out).rows → j < (w.heap out).cols → m'.val i j =
        if call.asks w mask i j then (w.heap out).val i j
        else if (w.heap out).kind ≠ .dense ∧ (w.heap out).kind ≠ .dvec ∧ call.flCell w out i j = Fl.negZero then 0
        else call.flCell w out i j := by
  classical
  simp only [← Fl.keep_eq]
  have kv : ∀ {i j}, i < (w.heap out).rows → j < (w.heap out).cols →
      (w.heap out).keep ((w.heap out).val i j) = (w.heap out).val i j := fun hi hj => Fl.keep_val hout hi hj
  have fin : ∀ {new : Nat → Nat → Fl f} {res : Res (Fl f) Unit}, Writes w out new res →
      ∃ m', res = .ok () (w.upd out m' none) ∧ m'.WF ∧ Mat.Same m' (w.heap out) ∧
        ∀ i j, i < (w.heap out).rows → j < (w.heap out).cols → m'.val i j = new i j := by
    rintro new res ⟨m', c, h1, h2, h3, h4, -⟩
    obtain ⟨rfl, h5⟩ := h4 hc
    exact ⟨m', h1, h2, h3, fun i j hi hj => h5 i j (h3.2.1 ▸ hi) (h3.2.2 ▸ hj)⟩
  have mul : ∀ s m : Ref, (w.heap s).WF → (w.heap m).WF → m ≠ out → (w.heap m).rows = (w.heap s).cols ∧
      (w.heap out).rows = (w.heap s).rows ∧ (w.heap out).cols = (w.heap m).cols →
      Writes w out (fun i j => if mask.bit w i j then (w.heap out).val i j else
        (w.heap out).keep ((OpCall.mxm s m).flCell w out i j)) (Ops.multiply s m mask out w) :=
    fun s m hs hm hne h => Ops.multiply_writes hs hm hout hk h.1 h.2.1 h.2.2 hF hS hne
  have over : ∀ s m : Ref, (Ops.addOver w s m = s ∧ Ops.addSource w s m = m ∧ lead w s m = w.heap s) ∨
      (Ops.addOver w s m = m ∧ Ops.addSource w s m = s ∧ lead w s m = w.heap m) := by
    intro s m; unfold Ops.addOver Ops.addSource lead; split <;> simp
  have emul : ∀ s m : Ref, (w.heap s).WF → (w.heap m).WF → s ≠ out → m ≠ out →
      (w.heap s).nvalues ≤ w.gas → (w.heap m).nvalues ≤ w.gas →
      SameShape (w.heap s) (w.heap out) → SameShape (w.heap m) (w.heap out) →
      Writes w out (fun i j => if mask.bit w i j then (w.heap out).val i j else
        (w.heap out).keep ((OpCall.eMulMatrix s m).flCell w out i j)) (Ops.elementWiseMultiply s m mask out w) := by
    intro s m hs hm hso hmo' hgs hgm h1 h2
    refine (Ops.eMul_writes hs hm hout hk h1 h2 hF hS hgs hgm (fun h => absurd h hso)).congr ?_
    intro i j hi hj
    unfold Ops.eMulNew
    simp only [OpCall.flCell]
    by_cases hb : mask.bit w i j = true
    · rw [if_pos hb, if_pos hb]
    · rw [if_neg hb, if_neg hb, if_neg (by tauto)]
      rcases over s m with ⟨e1, e2, e3⟩ | ⟨e1, e2, e3⟩
      · rw [e1, e2, e3]
        split
        · rfl
        · exact (kv hi hj).symm
      · rw [e1, e2, e3, Fl.eq_comm' ((w.heap s).val i j)]
        split
        · rfl
        · exact (kv hi hj).symm
  have eadd : ∀ s m : Ref, (w.heap s).WF → (w.heap m).WF → s ≠ out → m ≠ out →
      (w.heap s).nvalues ≤ w.gas → (w.heap m).nvalues ≤ w.gas →
      SameShape (w.heap s) (w.heap out) → SameShape (w.heap m) (w.heap out) →
      ∃ m', Ops.elementWiseAdd s m mask out w = .ok () (w.upd out m' none) ∧ m'.WF ∧ Mat.Same m' (w.heap out) ∧
        ∀ i j, i < (w.heap out).rows → j < (w.heap out).cols → m'.val i j =
          if mask.bit w i j then (w.heap out).val i j else
            (w.heap out).keep ((OpCall.eAddMatrix s m).flCell w out i j) := by
    intro s m hs hm hso hmo' hgs hgm h1 h2
    obtain ⟨m1, c1, e1, e2, e3, e4, -⟩ := Ops.eAdd_ok hs hm hout hk h1 h2 hF hS hmo hgs hgm
    obtain ⟨rfl, e5⟩ := e4 hc
    refine ⟨m1, e1, e2, e3, fun i j hi hj => (e5 i j hi hj).trans ?_⟩
    unfold Ops.eAddNew
    simp only [OpCall.flCell, hso, hmo', ne_eq, not_false_eq_true, true_and]
    split
    · rfl
    · split
      · rfl
      · split
        · rfl
        · exact (kv hi hj).symm
  have cross : ∀ (s : Ref) (u : Fl f → Fl f) (y : M (Fl f) Unit), (w.heap s).WF →
      OpCall.Shapes.Crossed w mask s out →
      ((w.heap s).rows = (w.heap out).cols ∧ (w.heap s).cols = (w.heap out).rows → 
        ((w.heap out).rows = (w.heap out).cols ∨ mask.Blank) →
        Writes w out (fun j i => if (w.heap s).Visits i j ∧ mask.bit w i j = false then
          (w.heap out).keep (u ((w.heap s).val i j)) else (w.heap out).val j i) (y w)) →
      Writes w out (fun i j => if mask.bit w j i then (w.heap out).val i j else (w.heap out).keep
        (if (w.heap s).Visits j i then u ((w.heap s).val j i) else (w.heap out).val i j)) (y w) := by
    intro s u y hs h hy
    refine (hy ⟨h.2.1.symm, h.1.symm⟩ ?_).congr ?_
    · rcases h.2.2 with h' | h'
      · exact Or.inr h'
      · left; rw [h.1, h.2.1, h']
    · intro i j hi hj
      by_cases hb : mask.bit w j i = true
      · simp [hb]
      · have hb' : mask.bit w j i = false := by simpa using hb
        by_cases hv : (w.heap s).Visits j i <;> simp [hv, hb', kv hi hj]
  cases call with
  | mxm s m =>
    simp only [OpCall.operands, List.mem_cons, List.not_mem_nil, or_false, forall_eq_or_imp, forall_eq, OpCall.Apart] at *
    exact fin (mul s m hops.1 hops.2 hap.2 hsh)
  | mxv s m =>
    simp only [OpCall.operands, List.mem_cons, List.not_mem_nil, or_false, forall_eq_or_imp, forall_eq, OpCall.Apart] at *
    exact fin (mul s m hops.1 hops.2 hap.2 hsh)
  | vxm m s =>
    simp only [OpCall.operands, List.mem_cons, List.not_mem_nil, or_false, forall_eq_or_imp, forall_eq, OpCall.Apart] at *
    exact fin (mul s m hops.2 hops.1 hap.1 hsh)
  | add s m =>
    simp only [OpCall.operands, List.mem_cons, List.not_mem_nil, or_false, forall_eq_or_imp, forall_eq, OpCall.Apart] at *
    have hov : Ops.addOver w s m ≠ out := by
      rcases over s m with ⟨e1, -, -⟩ | ⟨e1, -, -⟩ <;> rw [e1]
      exacts [hap.1, hap.2]
    refine fin ((Ops.add_writes hops.1 hops.2 hout hk hsh.1 hsh.2 hF hS ?_ (fun h => absurd h hov)).congr ?_)
    · rcases over s m with ⟨e1, -, -⟩ | ⟨e1, -, -⟩ <;> rw [e1]
      exacts [hg.1, hg.2]
    · intro i j hi hj
      simp only [OpCall.asks, OpCall.flCell]
      by_cases hb : mask.bit w i j = true
      · simp [hb]
      · have hb' : mask.bit w i j = false := by simpa using hb
        rcases over s m with ⟨e1, e2, e3⟩ | ⟨e1, e2, e3⟩ <;> rw [e1, e2, e3]
        · by_cases hv : (w.heap s).Visits i j <;> simp [hv, hb', kv hi hj, Fl.add_comm' ((w.heap s).val i j)]
        · by_cases hv : (w.heap m).Visits i j <;> simp [hv, hb', kv hi hj]
  | subtract s m =>
    simp only [OpCall.operands, List.mem_cons, List.not_mem_nil, or_false, forall_eq_or_imp, forall_eq, OpCall.Apart] at *
    refine fin ((Ops.subtract_writes hops.1 hout hk hsh.1 hsh.2 hF hS hg.1 (fun h => absurd h hap.1)).congr ?_)
    intro i j hi hj
    simp only [OpCall.asks, OpCall.flCell]
    by_cases hb : mask.bit w i j = true
    · simp [hb]
    · have hb' : mask.bit w i j = false := by simpa using hb
      by_cases hv : (w.heap s).Visits i j <;> simp [hv, hb', kv hi hj]
  | eMulMatrix s m =>
    simp only [OpCall.operands, List.mem_cons, List.not_mem_nil, or_false, forall_eq_or_imp, forall_eq, OpCall.Apart] at *
    have : (OpCall.eMulMatrix s m).run mask out w = Ops.elementWiseMultiply s m mask out w := by
      show Ops.elementWiseMatrixMultiply s m mask out w = _
      unfold Ops.elementWiseMatrixMultiply
      rw [bind_apply]; simp only [rowsOf]; rw [bind_apply]; simp only [colsOf]; simp [hsh.2.2]
    rw [this]
    exact fin (emul s m hops.1 hops.2 hap.1 hap.2 hg.1 hg.2 hsh.1 hsh.2.1)
  | eMulVector s m =>
    simp only [OpCall.operands, List.mem_cons, List.not_mem_nil, or_false, forall_eq_or_imp, forall_eq, OpCall.Apart] at *
    have : (OpCall.eMulVector s m).run mask out w = Ops.elementWiseMultiply s m mask out w := by
      show Ops.elementWiseVectorMultiply s m mask out w = _
      have : (w.heap m).rows = (w.heap s).rows := hsh.2.1.trans hsh.1.1.symm
      unfold Ops.elementWiseVectorMultiply
      rw [bind_apply]; simp only [rowsOf]; rw [bind_apply]; simp only [rowsOf]; simp [this]
    rw [this]
    exact fin (emul s m hops.1 hops.2 hap.1 hap.2 hg.1 hg.2 hsh.1 hsh.2)
  | eAddMatrix s m =>
    simp only [OpCall.operands, List.mem_cons, List.not_mem_nil, or_false, forall_eq_or_imp, forall_eq, OpCall.Apart] at *
    have : (OpCall.eAddMatrix s m).run mask out w = Ops.elementWiseAdd s m mask out w := by
      show Ops.elementWiseMatrixAdd s m mask out w = _
      unfold Ops.elementWiseMatrixAdd
      rw [bind_apply]; simp only [rowsOf]; rw [bind_apply]; simp only [colsOf]; simp [hsh.2.2]
    rw [this]
    exact eadd s m hops.1 hops.2 hap.1 hap.2 hg.1 hg.2 hsh.1 hsh.2.1
  | eAddVector s m =>
    simp only [OpCall.operands, List.mem_cons, List.not_mem_nil, or_false, forall_eq_or_imp, forall_eq, OpCall.Apart] at *
    have : (OpCall.eAddVector s m).run mask out w = Ops.elementWiseAdd s m mask out w := by
      show Ops.elementWiseVectorAdd s m mask out w = _
      have : (w.heap m).rows = (w.heap s).rows := hsh.2.1.trans hsh.1.1.symm
      unfold Ops.elementWiseVectorAdd
      rw [bind_apply]; simp only [rowsOf]; rw [bind_apply]; simp only [rowsOf]; simp [this]
    rw [this]
    exact eadd s m hops.1 hops.2 hap.1 hap.2 hg.1 hg.2 hsh.1 hsh.2
  | apply s u =>
    simp only [OpCall.operands, List.mem_cons, List.not_mem_nil, or_false, forall_eq, OpCall.Apart] at *
    have h := hsh.resolve_left hap
    exact fin (cross s u (Ops.apply s mask u out) hops h
      (fun h1 h2 => Ops.apply_writes hops hout hk hap h1 hF hS h2 hmo hg))
  | transpose s =>
    simp only [OpCall.operands, List.mem_cons, List.not_mem_nil, or_false, forall_eq, OpCall.Apart] at *
    exact fin (cross s id (Ops.transpose s mask out) hops hsh
      (fun h1 h2 => Ops.transpose_writes hops hout hk hap h1 hF hS h2 hmo hg))
  | negative s =>
    have hst : ∀ i j, i < (w.heap out).rows → j < (w.heap out).cols → (w.heap out).Visits i j →
        Mat.Storable (w.heap out).kind (-(w.heap out).val i j) := by
      intro i j hi hj hv
      have := Mat.visits_storable hout hi hj hv
      unfold Mat.Storable at this ⊢
      split at this
      · trivial
      · trivial
      · rw [Fl.isZero_neg]; exact this
    refine fin ((Ops.negative_writes (s := s) hout hF hS hgo (fun i j hi hj hv _ => hst i j hi hj hv)).congr ?_)
    intro i j hi hj
    simp only [OpCall.asks, OpCall.flCell]
    by_cases hb : mask.bit w i j = true
    · simp [hb]
    · have hb' : mask.bit w i j = false := by simpa using hb
      by_cases hv : (w.heap out).Visits i j
      · simp [hv, hb', Mat.storable_keep (hst i j hi hj hv)]
      · have h0 := Mat.not_visits hv
        have hkk : (w.heap out).kind ≠ .dense ∧ (w.heap out).kind ≠ .dvec := by
          unfold Mat.Visits at hv; push Not at hv; exact ⟨hv.1, hv.2.1⟩
        have : -(0 : Fl f) = Fl.negZero := rfl
        simp [hv, hb', h0, Fl.keep_eq, hkk, this]

/-! ## C58: Add and Subtract -/

section
variable {s m : Ref}

open Classical in
/-- C58, `A.Add(B)` for a dense receiver and any `B` (not a sparse vector with gaps): bit for bit. The cells a compressed `B`
does not store are left alone, so a `-0` of `A` stays where `-0 + 0` would be `+0`. -/
theorem C58_add_exact (hreg : w.reg = initReg) (hsn : s < w.next) (hmn : m < w.next)
    (hs : (w.heap s).WF) (hm : (w.heap m).WF) (hk : (w.heap s).kind = .dense ∨ (w.heap s).kind = .dvec)
    (hsh : SameShape (w.heap s) (w.heap m)) (hgm : (w.heap m).nvalues ≤ w.gas) :
    Returns w (w.heap s).kind (w.heap s).rows (w.heap s).cols
      (fun i j => if (w.heap m).Visits i j then (w.heap s).val i j + (w.heap m).val i j else (w.heap s).val i j)
      (Meth.add s m w) := by
  have es := fresh_ne w (w.heap s) hsn
  have em := fresh_ne w (w.heap s) hmn
  have hnr : (w.heap s).typeName ∉ w.reg := by
    rw [hreg, typeName_initReg]
    rintro ⟨h, -⟩
    rcases hk with h' | h' <;> rw [h'] at h <;> cases h
  have e1 : Ops.addOver (fresh w (w.heap s)) s m = m := if_neg (by rw [es]; exact hnr)
  have e2 : Ops.addSource (fresh w (w.heap s)) s m = s := if_neg (by rw [es]; exact hnr)
  have hmo : m ≠ w.next := Nat.ne_of_lt hmn
  have := Ops.add_writes (w := fresh w (w.heap s)) (s := s) (m := m) (out := w.next) (mask := .nil)
    (by rw [es]; exact hs) (by rw [em]; exact hm) (by rw [fresh_next]; exact hs)
    (by rw [fresh_next]; rcases hk with h | h <;> rw [h] <;> simp)
    (by rw [es, em]; exact hsh) (by rw [es, fresh_next]; exact ⟨rfl, rfl⟩)
    trivial trivial (by rw [e1, em]; exact hgm) (fun h => absurd (e1.symm.trans h) hmo)
  refine (returns_of_writes (m := w.heap s) (x := do
    let matrix ← copy s
    Ops.add s m .nil matrix
    pure matrix) (by rw [bind_ok (copy_apply hs)]) this rfl rfl rfl).congr ?_
  intro i j hi hj
  have hd : ¬ ((w.heap s).kind ≠ .dense ∧ (w.heap s).kind ≠ .dvec) := by tauto
  simp only [e1, e2, es, em, fresh_next, Mask.bit, and_true, Fl.keep_eq]
  split
  · rw [if_neg (fun h => hd ⟨h.1, h.2.1⟩)]
  · rfl

open Classical in
/-- C58, `A.Add(B)` for a dense receiver rounds correctly: where both cells are finite and the exact sum does not exceed the greatest
finite number, the result is a number of the format nearest to the exact sum. -/
theorem C58_add_rounds (hreg : w.reg = initReg) (hsn : s < w.next) (hmn : m < w.next)
    (hs : (w.heap s).WF) (hm : (w.heap m).WF) (hk : (w.heap s).kind = .dense ∨ (w.heap s).kind = .dvec)
    (hsh : SameShape (w.heap s) (w.heap m)) (hgm : (w.heap m).nvalues ≤ w.gas) :
    ∃ F, Returns w (w.heap s).kind (w.heap s).rows (w.heap s).cols F (Meth.add s m w) ∧
      ∀ i j, ((w.heap s).val i j).Fin → ((w.heap m).val i j).Fin →
        |((w.heap s).val i j).rat + ((w.heap m).val i j).rat| ≤ f.big →
        (F i j).Nearest (((w.heap s).val i j).rat + ((w.heap m).val i j).rat) := by
  refine ⟨_, C58_add_exact hreg hsn hmn hs hm hk hsh hgm, fun i j ha hb hab => ?_⟩
  split
  · exact Fl.add_nearest ha hb hab
  · rename_i hv
    rw [Mat.not_visits hv, Fl.zero_rat, add_zero]
    exact ⟨ha, fun z _ => by simp⟩

/-- C58: addition of dense operands is commutative bit for bit, infinities, NaN and zeros included. -/
theorem C58_add_comm (hreg : w.reg = initReg) (hsn : s < w.next) (hmn : m < w.next)
    (hs : (w.heap s).WF) (hm : (w.heap m).WF) (hk : (w.heap s).kind = .dense) (hkm : (w.heap m).kind = .dense)
    (hsh : SameShape (w.heap s) (w.heap m)) (hgs : (w.heap s).nvalues ≤ w.gas) (hgm : (w.heap m).nvalues ≤ w.gas) :
    ∃ F, Returns w .dense (w.heap s).rows (w.heap s).cols F (Meth.add s m w) ∧
      Returns w .dense (w.heap s).rows (w.heap s).cols F (Meth.add m s w) := by
  have h1 := C58_add_exact hreg hsn hmn hs hm (Or.inl hk) hsh hgm
  have h2 := C58_add_exact hreg hmn hsn hm hs (Or.inl hkm) ⟨hsh.1.symm, hsh.2.symm⟩ hgs
  rw [hk] at h1
  rw [hkm, ← hsh.1, ← hsh.2] at h2
  refine ⟨_, h1, h2.congr ?_⟩
  intro i j _ _
  rw [if_pos (show (w.heap s).Visits i j from Or.inl hk), if_pos (show (w.heap m).Visits i j from Or.inl hkm), Fl.add_comm']

/-- C58, `A.Subtract(B)` for a dense receiver: bit for bit. -/
theorem C58_subtract_exact (hsn : s < w.next) (hmn : m < w.next)
    (hs : (w.heap s).WF) (hm : (w.heap m).WF) (hks : (w.heap s).kind = .dense ∨ (w.heap s).kind = .dvec)
    (hk : (w.heap m).kind ≠ .svec)
    (hsh : SameShape (w.heap s) (w.heap m)) (hgs : (w.heap s).nvalues ≤ w.gas) :
    Returns w (w.heap m).kind (w.heap s).rows (w.heap s).cols
      (fun i j => (w.heap m).keep ((w.heap s).val i j - (w.heap m).val i j)) (Meth.subtract s m w) :=
  Meth.subtract_dense_returns hsn hmn hs hm hks hk hsh hgs

open Classical in
/-- C58: `A.Subtract(A)` for dense `A` is `+0` exactly in the cells that are finite, NaN in the others. -/
theorem C58_subtract_self (hsn : s < w.next) (hs : (w.heap s).WF) (hks : (w.heap s).kind = .dense)
    (hgs : (w.heap s).nvalues ≤ w.gas) :
    Returns w .dense (w.heap s).rows (w.heap s).cols
      (fun i j => if ((w.heap s).val i j).Fin then 0 else Fl.nan) (Meth.subtract s s w) := by
  have := C58_subtract_exact hsn hsn hs hs (Or.inl hks) (by rw [hks]; simp) ⟨rfl, rfl⟩ hgs
  rw [hks] at this
  refine this.congr fun i j _ _ => ?_
  rw [Fl.keep_eq, if_neg (fun h => h.1 hks), Fl.sub_self']

/-! ## C59 -/

theorem Fl.keep_rat (m : Mat (Fl f)) (v : Fl f) : (m.keep v).rat = v.rat ∧ ((m.keep v).Fin ↔ v.Fin) := by
  rw [Fl.keep_eq]
  split
  · rename_i h; rw [h.2.2]; exact ⟨rfl, Iff.rfl⟩
  · exact ⟨rfl, Iff.rfl⟩

theorem Fl.rowVal_exact {a : Mat (Fl f)} (ha : a.WF) (h : a.RowsFit) {i l : Nat} (hi : i < a.rows) (hl : l < a.cols) :
    a.rowVal i l = a.val i l := by
  have key : a.kind = .csr ∨ a.kind = .csc → shortRead a.cols (fun j => a.val i j) l = a.val i l := by
    intro hk
    unfold shortRead
    split
    · rfl
    · rename_i h'
      by_contra hc
      refine h' (h hk i hi l hl ?_)
      have := Mat.visits_storable ha hi hl (Or.inr (Or.inr (Ne.symm hc)))
      unfold Mat.Storable at this
      rcases hk with hk | hk <;> rw [hk] at this <;> exact this
  unfold Mat.rowVal
  cases hk : a.kind <;> simp only
  · exact key (Or.inl hk)
  · exact key (Or.inr hk)

theorem Fl.colVal_exact {a : Mat (Fl f)} (ha : a.WF) (h : a.ColsFit) {j l : Nat} (hj : j < a.cols) (hl : l < a.rows) :
    a.colVal j l = a.val l j := by
  have key : a.kind = .csr ∨ a.kind = .csc → shortRead a.rows (fun i => a.val i j) l = a.val l j := by
    intro hk
    unfold shortRead
    split
    · rfl
    · rename_i h'
      by_contra hc
      refine h' (h hk j hj l hl ?_)
      have := Mat.visits_storable ha hl hj (Or.inr (Or.inr (Ne.symm hc)))
      unfold Mat.Storable at this
      rcases hk with hk | hk <;> rw [hk] at this <;> exact this
  unfold Mat.colVal
  cases hk : a.kind <;> simp only
  · exact key (Or.inl hk)
  · exact key (Or.inr hk)

/-- What `A.Multiply(B)` returns, bit for bit. -/
theorem C59_multiply_returns (hsn : s < w.next) (hmn : m < w.next)
    (hs : (w.heap s).WF) (hm : (w.heap m).WF) (hk : (w.heap s).kind ≠ .svec ∧ (w.heap s).kind ≠ .dvec)
    (h1 : (w.heap m).rows = (w.heap s).cols) (hr : (w.heap s).RowsFit) (hc : (w.heap m).ColsFit) :
    Returns w (w.heap s).kind (w.heap s).rows (w.heap m).cols
      (fun i j => (w.heap s).keep (dotSum (w.heap s).cols (fun l => (w.heap s).val i l) (fun l => (w.heap m).val l j)))
      (Meth.multiply s m w) := by
  obtain ⟨o1, o2, o3, o4⟩ := mulOut_ok (w.heap s) (w.heap m) hk
  have es := fresh_ne w (mulOut (w.heap s) (w.heap m)) hsn
  have em := fresh_ne w (mulOut (w.heap s) (w.heap m)) hmn
  have := Ops.multiply_writes (w := fresh w (mulOut (w.heap s) (w.heap m))) (s := s) (m := m) (out := w.next)
    (mask := .nil) (by rw [es]; exact hs) (by rw [em]; exact hm) (by rw [fresh_next]; exact o1)
    (by rw [fresh_next, o2]; exact hk.1) (by rw [es, em]; exact h1) (by rw [es, fresh_next]; exact o3)
    (by rw [em, fresh_next]; exact o4) trivial trivial (Nat.ne_of_lt hmn)
  refine (returns_of_writes (m := mulOut (w.heap s) (w.heap m)) (x := do
    let out ← fun w => alloc (mulOut (w.heap s) (w.heap m)) w
    Ops.matrixMatrixMultiply s m .nil out
    pure out) rfl this o2 o3 o4).congr ?_
  intro i j hi hj
  simp only [es, em, Mask.bit, fresh_next, Bool.false_eq_true, if_false]
  have hd : ∀ (n : Nat) (a b a' b' : Nat → Fl f), (∀ l < n, a l = a' l ∧ b l = b' l) → dotSum n a b = dotSum n a' b' := by
    intro n a b a' b' h
    unfold dotSum
    refine List.foldl_ext _ _ _ ?_
    intro x l hl
    obtain ⟨q1, q2⟩ := h l (List.mem_range.1 hl)
    rw [q1, q2]
  rw [hd _ _ _ _ _ fun l hl => ⟨Fl.rowVal_exact hs hr hi hl, Fl.colVal_exact hm hc hj (by rw [h1]; exact hl)⟩]
  unfold Mat.keep
  rw [o2]

/-- C59. `A.Multiply(B)` for a matrix receiver whose rows, and a `B` whose columns, are read exactly (all dense ones; see C20): every
finite cell of the result comes from finite cells and misses the exact inner product by at most
`((1+u)^n - 1) Σ|a||b| + n (1+u)^n η/2`, `u = 2^-prec` and `η` the least positive number; and a cell is finite if its operands are and
`(1+u)^n (Σ|a||b| + n η/2)` does not exceed the greatest finite number. -/
theorem C59_multiply (hsn : s < w.next) (hmn : m < w.next)
    (hs : (w.heap s).WF) (hm : (w.heap m).WF) (hk : (w.heap s).kind ≠ .svec ∧ (w.heap s).kind ≠ .dvec)
    (h1 : (w.heap m).rows = (w.heap s).cols) (hr : (w.heap s).RowsFit) (hc : (w.heap m).ColsFit) :
    ∃ F, Returns w (w.heap s).kind (w.heap s).rows (w.heap m).cols F (Meth.multiply s m w) ∧
      ∀ i j, ((F i j).Fin →
          (∀ l < (w.heap s).cols, ((w.heap s).val i l).Fin ∧ ((w.heap m).val l j).Fin) ∧
          |(F i j).rat - ∑ l ∈ Finset.range (w.heap s).cols, ((w.heap s).val i l).rat * ((w.heap m).val l j).rat| ≤
            ((1 + f.unit) ^ (w.heap s).cols - 1) *
              ∑ l ∈ Finset.range (w.heap s).cols, |((w.heap s).val i l).rat * ((w.heap m).val l j).rat| +
            (w.heap s).cols * (1 + f.unit) ^ (w.heap s).cols * f.tiny) ∧
        ((∀ l < (w.heap s).cols, ((w.heap s).val i l).Fin ∧ ((w.heap m).val l j).Fin) →
          (1 + f.unit) ^ (w.heap s).cols *
              ∑ l ∈ Finset.range (w.heap s).cols, |((w.heap s).val i l).rat * ((w.heap m).val l j).rat| +
            (w.heap s).cols * (1 + f.unit) ^ (w.heap s).cols * f.tiny ≤ f.big → (F i j).Fin) := by
  refine ⟨_, C59_multiply_returns hsn hmn hs hm hk h1 hr hc, fun i j => ⟨fun hf => ?_, fun hf hb => ?_⟩⟩
  · obtain ⟨e1, e2⟩ := Fl.keep_rat (w.heap s)
      (dotSum (w.heap s).cols (fun l => (w.heap s).val i l) (fun l => (w.heap m).val l j))
    rw [e2] at hf
    rw [e1]
    exact Fl.dotSum_err _ _ _ hf
  · rw [(Fl.keep_rat _ _).2]
    exact Fl.dotSum_fin _ _ _ hf hb

/-- C59 for integers: if the cells of a row of `A` and of a column of `B` are integers with `Σ|a||b| ≤ 2^prec` (2^53 for `float64`), their
cell of the product is exact. -/
theorem C59_integers (hsn : s < w.next) (hmn : m < w.next)
    (hs : (w.heap s).WF) (hm : (w.heap m).WF) (hk : (w.heap s).kind ≠ .svec ∧ (w.heap s).kind ≠ .dvec)
    (h1 : (w.heap m).rows = (w.heap s).cols) (hr : (w.heap s).RowsFit) (hc : (w.heap m).ColsFit) :
    ∃ F, Returns w (w.heap s).kind (w.heap s).rows (w.heap m).cols F (Meth.multiply s m w) ∧
      ∀ i j (A B : Nat → ℤ),
        (∀ l < (w.heap s).cols, ((w.heap s).val i l).Fin ∧ ((w.heap s).val i l).rat = A l) →
        (∀ l < (w.heap s).cols, ((w.heap m).val l j).Fin ∧ ((w.heap m).val l j).rat = B l) →
        ∑ l ∈ Finset.range (w.heap s).cols, |A l * B l| ≤ 2 ^ f.prec →
        (F i j).Fin ∧ (F i j).rat = ((∑ l ∈ Finset.range (w.heap s).cols, A l * B l : ℤ) : ℚ) := by
  refine ⟨_, C59_multiply_returns hsn hmn hs hm hk h1 hr hc, fun i j A B hA hB hS => ?_⟩
  rw [(Fl.keep_rat _ _).2, (Fl.keep_rat _ _).1]
  exact Fl.dotSum_int _ _ _ A B hA hB hS

/-! ## C60 -/

/-- Two of one storage class with equally many values that are `==` where the first one has a value are `==` everywhere. -/
theorem Fl.agree_of_count {a b : Mat (Fl f)} (ha : a.WF) (hb : b.WF) (hsh : SameShape a b)
    (hk : (a.kind.sparse = false) ∨ (a.kind.sparse = true ∧ b.kind.sparse = true))
    (hn : a.nvalues = b.nvalues)
    (h : ∀ i j, i < a.rows → j < a.cols → a.Visits i j → GoNum.geq (a.val i j) (b.val i j) = true) :
    ∀ i j, i < a.rows → j < a.cols → GoNum.geq (a.val i j) (b.val i j) = true := by
  intro i j hi hj
  rcases hk with hk | ⟨hka, hkb⟩
  · refine h i j hi hj ?_
    unfold Mat.Visits
    cases hh : a.kind <;> simp [hh, Kind.sparse] at hk ⊢
  · have nd : ∀ {k : Kind}, k.sparse = true → k ≠ .dense ∧ k ≠ .dvec := by
      intro k; cases k <;> simp [Kind.sparse]
    obtain ⟨ea, -, hfa, hla, -, hza⟩ := Mat.entries_ok ha
    obtain ⟨eb, -, hfb, hlb, -, hzb⟩ := Mat.entries_ok hb
    have ca := hfa.count (hza (nd hka))
    have cb := hfb.count (hzb (nd hkb))
    rw [hla] at ca
    rw [hlb, ← hn, ca, ← hsh.1, ← hsh.2] at cb
    have hsub : ∀ p ∈ cells a.rows a.cols, (!isZero (a.val p.1 p.2)) = true → (!isZero (b.val p.1 p.2)) = true := by
      intro p hp hz
      have hpr := (mem_cells).1 hp
      have hne : a.val p.1 p.2 ≠ 0 := by
        intro h0; rw [h0] at hz; cases hz
      rw [← Fl.geq_isZero (h p.1 p.2 hpr.1 hpr.2 (Or.inr (Or.inr hne)))]; exact hz
    by_cases hv : a.Visits i j
    · exact h i j hi hj hv
    · have h0 := Mat.not_visits hv
      have hbz : isZero (b.val i j) = true := by
        by_contra hc
        have hlt : ((cells a.rows a.cols).filter (fun p => !isZero (a.val p.1 p.2))).length <
            ((cells a.rows a.cols).filter (fun p => !isZero (b.val p.1 p.2))).length := by
          rw [← List.countP_eq_length_filter, ← List.countP_eq_length_filter]
          refine countP_lt hsub ⟨(i, j), mem_cells.2 ⟨hi, hj⟩, ?_, by simpa using hc⟩
          show ¬ (!isZero (a.val i j)) = true
          rw [h0]; exact fun h => nomatch h
        omega
      rw [h0, Fl.eq_comm']
      exact hbz

/-- C60. `Equal` on operands of one storage class (both dense or both compressed), in particular of one type, answers whether the shapes
agree and every cell of one is `==` the cell of the other. So `+0` and `-0` are not told apart and NaN is never equal. -/
theorem C60_equal (hreg : w.reg = initReg)
    (hs : (w.heap s).WF) (hm : (w.heap m).WF) (hgs : (w.heap s).nvalues ≤ w.gas) (hgm : (w.heap m).nvalues ≤ w.gas)
    (hk : (w.heap s).kind.sparse = (w.heap m).kind.sparse) :
    ∃ b, Meth.equal s m w = .ok b w ∧ Meth.notEqual s m w = .ok (!b) w ∧
      (b = true ↔ SameShape (w.heap s) (w.heap m) ∧
        ∀ i j, i < (w.heap s).rows → j < (w.heap s).cols →
          GoNum.geq ((w.heap s).val i j) ((w.heap m).val i j) = true) := by
  obtain ⟨b, h1, h2⟩ := Ops.equal_ok (w := { w with cancel := none }) hs hm hgs hgm rfl
  have h1' : Ops.notEqual s m { w with cancel := none } = .ok (!b) { w with cancel := none } := by
    unfold Ops.notEqual; rw [bind_ok h1]; rfl
  have e1 := Meth.background_ok h1
  have e2 := Meth.background_ok h1'
  refine ⟨b, e1, e2, ?_⟩
  rw [h2]
  have hregeq : ((w.heap s).typeName ∈ w.reg ↔ (w.heap m).typeName ∈ w.reg) := by
    rw [hreg, typeName_initReg, typeName_initReg, hk]
  have hcases : (Ops.addOver { w with cancel := none } s m = s ∧ Ops.addSource { w with cancel := none } s m = m) ∨
      (Ops.addOver { w with cancel := none } s m = m ∧ Ops.addSource { w with cancel := none } s m = s) := by
    unfold Ops.addOver Ops.addSource; split <;> simp
  have hkk : ∀ a b : Mat (Fl f), a.kind.sparse = b.kind.sparse →
      (a.kind.sparse = false) ∨ (a.kind.sparse = true ∧ b.kind.sparse = true) := by
    intro a b h; cases hh : a.kind.sparse
    · exact Or.inl rfl
    · exact Or.inr ⟨rfl, by rw [← h, hh]⟩
  constructor
  · rintro ⟨hsh, hn, hv⟩
    refine ⟨hsh, ?_⟩
    have hn := hn hregeq
    rcases hcases with ⟨e1, e2⟩ | ⟨e1, e2⟩
    · rw [e1, e2] at hv
      exact Fl.agree_of_count hs hm hsh (hkk _ _ hk) hn hv
    · rw [e1, e2] at hv
      intro i j hi hj
      rw [Fl.eq_comm']
      exact Fl.agree_of_count hm hs ⟨hsh.1.symm, hsh.2.symm⟩ (hkk _ _ hk.symm) hn.symm
        (fun i j hi hj hvis => hv i j (hsh.1 ▸ hi) (hsh.2 ▸ hj) hvis) i j (hsh.1 ▸ hi) (hsh.2 ▸ hj)
  · rintro ⟨hsh, hv⟩
    refine ⟨hsh, fun _ => ?_, ?_⟩
    · obtain ⟨ea, -, hfa, hla, -, hza⟩ := Mat.entries_ok hs
      obtain ⟨eb, -, hfb, hlb, -, hzb⟩ := Mat.entries_ok hm
      show (w.heap s).nvalues = (w.heap m).nvalues
      rcases hkk _ _ hk with hd | ⟨hka, hkb⟩
      · have key : ∀ x : Mat (Fl f), x.kind.sparse = false → x.nvalues = x.rows * x.cols := by
          intro x hx
          cases x with
          | dense d => rfl
          | dvec d => exact (Nat.mul_one _).symm
          | _ => simp [Mat.kind, Kind.sparse] at hx
        rw [key _ hd, key _ (hk ▸ hd), hsh.1, hsh.2]
      · have nd : ∀ {k : Kind}, k.sparse = true → k ≠ .dense ∧ k ≠ .dvec := by
          intro k; cases k <;> simp [Kind.sparse]
        have ca := hfa.count (hza (nd hka))
        have cb := hfb.count (hzb (nd hkb))
        rw [← hla, ← hlb, ca, cb, ← hsh.1, ← hsh.2]
        congr 1
        apply List.filter_congr
        intro p hp
        have hpr := mem_cells.1 hp
        rw [Fl.geq_isZero (hv p.1 p.2 hpr.1 hpr.2)]
    · intro i j hi hj _
      rcases hcases with ⟨e1, e2⟩ | ⟨e1, e2⟩
      · rw [e1, e2]; exact hv i j hi hj
      · rw [e1, e2, Fl.eq_comm']; exact hv i j hi hj

/-- C60: `A.Equal(A)` exactly when no cell of `A` is NaN. -/
theorem C60_reflexive (hreg : w.reg = initReg) (hs : (w.heap s).WF) (hgs : (w.heap s).nvalues ≤ w.gas) :
    ∃ b, Meth.equal s s w = .ok b w ∧
      (b = true ↔ ∀ i j, i < (w.heap s).rows → j < (w.heap s).cols → (w.heap s).val i j ≠ Fl.nan) := by
  obtain ⟨b, h1, -, h2⟩ := C60_equal hreg hs hs hgs hgs rfl
  refine ⟨b, h1, h2.trans ?_⟩
  simp only [Fl.eq_self_iff]
  exact ⟨fun h => h.2, fun h => ⟨⟨rfl, rfl⟩, h⟩⟩

end

end GB
