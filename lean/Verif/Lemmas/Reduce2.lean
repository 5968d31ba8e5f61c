import Verif.Lemmas.Reduce
import Verif.Lemmas.Mul
import Mathlib.Algebra.BigOperators.Group.Finset.Basic
import Mathlib.Algebra.BigOperators.Group.Finset.Sigma

/-!
# The reductions in the program state
-/

namespace GB

set_option linter.unusedSectionVars false
set_option linter.unusedSimpArgs false

open M

section
variable {T : Type} [GoNum T] [GoStore T]

theorem Mat.svec_yields {s : SVec T} : ∀ (es : List (Nat × Nat × T)) (it : SVec.Iter),
    Yields SVec.Iter.hasNext s.step it es → Yields Mat.Iter.hasNext (Mat.svec s).step (.svec it) es := by
  intro es
  induction es with
  | nil => intro it h; exact h
  | cons e es ih =>
    intro it h
    obtain ⟨h1, it', h2, h3⟩ := h
    refine ⟨h1, .svec it', ?_, ih it' h3⟩
    simp [Mat.step, h2]

/-- `es` lists a column of `m` from top to bottom: all of it for the dense formats, no zero for the others. -/
def Mat.ColumnOrder (m : Mat T) (j : Nat) (es : List (Nat × Nat × T)) : Prop :=
  RowMajor es ∧
    ((m.kind = .dense ∨ m.kind = .dvec) → ∀ i, i < m.rows → (i, 0, m.val i j) ∈ es) ∧
    ((m.kind ≠ .dense ∧ m.kind ≠ .dvec) → ∀ e ∈ es, isZero e.2.2 = false)

/-- Enumerating a column: the cells of the column, each at most once, no non-zero one missing. -/
theorem Mat.columnsAt_yields {m : Mat T} (h : m.WF) {j : Nat} (hj : j < m.cols) :
    ∃ v es, m.columnsAt j = .ok v ∧ v.toMat.rows = m.rows ∧ v.toMat.cols = 1 ∧
      Yields Mat.Iter.hasNext v.toMat.step v.toMat.iter es ∧
      Faithful m.rows 1 (fun i _ => m.val i j) es ∧ es.length = v.toMat.nvalues ∧
      v.toMat.nvalues ≤ m.rows ∧ m.ColumnOrder j es := by
  have conv : ∀ {r : Nat} {f g : Nat → Nat → T} {es : List (Nat × Nat × T)},
      (∀ i, i < r → f i 0 = g i 0) → Faithful r 1 f es → Faithful r 1 g es := by
    intro r f g es hv hf
    have hv' : ∀ i j, i < r → j < 1 → f i j = g i j := by
      intro i j hi hj; obtain rfl : j = 0 := by omega
      exact hv i hi
    refine ⟨hf.range, hf.distinct, ?_, ?_⟩
    · intro e he
      rw [← hv' _ _ (hf.range e he).1 (hf.range e he).2]; exact hf.value e he
    · intro i j hi hj hne
      rw [← hv' i j hi hj] at hne ⊢
      exact hf.complete i j hi hj hne
  have sv : ∀ {r : Nat} {sv : SVec T} {es : List (Nat × T)} {g : Nat → Nat → T}, SVec.Rep sv es → sv.l = r →
      (∀ i, i < r → rowGet es i = g i 0) →
      (Mat.svec sv).rows = r ∧ (Mat.svec sv).cols = 1 ∧
      Yields Mat.Iter.hasNext (Mat.svec sv).step (Mat.svec sv).iter (SVec.entries es) ∧
      Faithful r 1 g (SVec.entries es) ∧ (SVec.entries es).length = (Mat.svec sv).nvalues ∧
      (Mat.svec sv).nvalues ≤ r ∧ RowMajor (SVec.entries es) ∧ ∀ e ∈ SVec.entries es, isZero e.2.2 = false := by
    intro r sv es g h1 h2 h3
    subst h2
    refine ⟨rfl, rfl, Mat.svec_yields _ _ h1.yields, conv h3 h1.faithful, by simp [SVec.entries, nvalues, h1.values], ?_, ?_, ?_⟩
    rotate_left
    · unfold RowMajor SVec.entries
      rw [List.pairwise_map]
      exact h1.sorted.imp (fun hab => Or.inl hab)
    · intro e he
      obtain ⟨x, hx, rfl⟩ := List.mem_map.1 he
      exact h1.nz x hx
    have e : (Mat.svec sv).nvalues = (es.map Prod.fst).length := by simp [nvalues, h1.values]
    rw [e]
    have hn : (es.map Prod.fst).Nodup := by
      rw [List.nodup_iff_pairwise_ne, List.pairwise_map]
      exact h1.sorted.imp (fun hab => by omega)
    have hs : (es.map Prod.fst) ⊆ List.range sv.l := by
      intro x hx
      obtain ⟨y, hy, rfl⟩ := List.mem_map.1 hx
      exact List.mem_range.2 (h1.bound y hy)
    have := (List.subperm_of_subset hn hs).length_le
    simpa using this
  have dv : ∀ {r : Nat} {sv : DVec T} {g : Nat → Nat → T}, DVec.WF sv → sv.l = r →
      (∀ i, i < r → (Mat.dvec sv).val i 0 = g i 0) →
      (Mat.dvec sv).rows = r ∧ (Mat.dvec sv).cols = 1 ∧
      Yields Mat.Iter.hasNext (Mat.dvec sv).step (Mat.dvec sv).iter sv.entries ∧
      Faithful r 1 g sv.entries ∧ sv.entries.length = (Mat.dvec sv).nvalues ∧
      (Mat.dvec sv).nvalues ≤ r ∧ RowMajor sv.entries ∧ ∀ i, i < r → (i, 0, g i 0) ∈ sv.entries := by
    intro r sv g h1 h2 h3
    subst h2
    have hmap : Mat.MapAt (Mat.dvec sv) (Mat.dvec sv).iter sv.entries :=
      ⟨h1, 0, DVec.iter_init sv, by omega, by simp⟩
    refine ⟨rfl, rfl, hmap.yields, conv (fun i hi => ?_) (DVec.faithful (s := sv)), by simp [DVec.entries, nvalues], ?_, ?_, ?_⟩
    · rw [← h3 i hi, val_dvec h1 hi]
    · simp [nvalues]
    · unfold RowMajor DVec.entries
      rw [List.pairwise_map]
      exact List.pairwise_lt_range.imp (fun hab => Or.inl hab)
    · intro i hi
      rw [← h3 i hi, val_dvec h1 hi]
      exact List.mem_map.2 ⟨i, List.mem_range.2 hi, rfl⟩
  have fin : ∀ {A B C D E F : Prop} {m : Mat T} {j : Nat} {es : List (Nat × Nat × T)},
      (m.kind ≠ .dense ∧ m.kind ≠ .dvec) →
      (A ∧ B ∧ C ∧ D ∧ E ∧ F ∧ RowMajor es ∧ ∀ e ∈ es, isZero e.2.2 = false) →
      A ∧ B ∧ C ∧ D ∧ E ∧ F ∧ m.ColumnOrder j es := by
    rintro A B C D E F m j es hk ⟨a, b, c, d, e, f, g, h⟩
    exact ⟨a, b, c, d, e, f, g, fun hk' => (hk'.elim (fun h => hk.1 h) (fun h => hk.2 h)).elim, fun _ => h⟩
  have fin' : ∀ {A B C D E F : Prop} {m : Mat T} {j : Nat} {es : List (Nat × Nat × T)},
      (m.kind = .dense ∨ m.kind = .dvec) →
      (A ∧ B ∧ C ∧ D ∧ E ∧ F ∧ RowMajor es ∧ ∀ i, i < m.rows → (i, 0, m.val i j) ∈ es) →
      A ∧ B ∧ C ∧ D ∧ E ∧ F ∧ m.ColumnOrder j es := by
    rintro A B C D E F m j es hk ⟨a, b, c, d, e, f, g, h⟩
    exact ⟨a, b, c, d, e, f, g, fun _ => h, fun hk' => (hk.elim (fun h => hk'.1 h) (fun h => hk'.2 h)).elim⟩
  cases m with
  | csr s =>
    obtain ⟨rows, hr⟩ := h
    obtain ⟨v, h1, h2, h3⟩ := hr.columnsAt_ok hj
    refine ⟨.svec v, _, by simp [columnsAt, h1], fin ⟨by simp [kind], by simp [kind]⟩ (sv h3 h2 (fun i hi => ?_))⟩
    rw [val_csr hr hi hj, CSR.colEntries_get rows s.r j i hi]
    exact hr.norm_cell hi
  | csc s =>
    obtain ⟨cols, hr⟩ := h
    obtain ⟨v, h1, h2, h3⟩ := CSC.Rep.columnsAt_ok hr hj
    refine ⟨.svec v, _, by simp [columnsAt, h1], fin ⟨by simp [kind], by simp [kind]⟩ (sv h3 h2 (fun i hi => ?_))⟩
    rw [val_csc hr hi hj]
    exact (CSR.Rep.cell_eq (s := CSC.mir s) hr hj i).symm
  | dense s =>
    have hw : s.WF := h
    have hv : DVec.WF { l := s.r, values := (List.range s.r).map (fun i => s.cell i j) } := by simp [DVec.WF]
    refine ⟨.dvec _, _, by simp [columnsAt, Dense.columnsAt_ok hw hj], fin' (Or.inl rfl) (dv hv rfl (fun i hi => ?_))⟩
    have hi : i < s.r := hi
    rw [val_dvec hv hi, val_dense hw hi hj]
    simp [DVec.cell, hi]
  | dvec s =>
    have hw : s.WF := h
    obtain rfl : j = 0 := by simp [cols] at hj; omega
    refine ⟨.dvec s, _, by simp [columnsAt, DVec.columnsAt, inRange, DVec.copy_ok hw], fin' (Or.inr rfl) (dv hw rfl (fun i hi => rfl))⟩
  | svec s =>
    obtain ⟨es, hr, hp⟩ := h
    obtain rfl : j = 0 := by simp [cols] at hj; omega
    refine ⟨.svec s, _, by simp [columnsAt, SVec.columnsAt, inRange, hr.copy_ok], fin ⟨by simp [kind], by simp [kind]⟩ (sv hr rfl (fun i hi => ?_))⟩
    rw [val_svec hr hi, hp.get]

namespace Ops

theorem bit_resolve (mask : Mask) (w : World T) (p : Ref) : (mask.resolve w p).bit w = mask.bit w := by
  cases mask <;> rfl

theorem reduceScript_ok {w : World T} {s : Ref} {mask : Mask} {es : List (Nat × Nat × T)}
    (hy : Yields Mat.Iter.hasNext (w.heap s).step (w.heap s).iter es)
    (hr : ∀ e ∈ es, e.1 < (w.heap s).rows ∧ e.2.1 < (w.heap s).cols) (hg : es.length ≤ w.gas)
    (hS : mask.Sound w) (hF : mask.Fits w s) (hc : w.cancel = none) :
    reduceScript s mask w = .ok (some (es.map (turn w mask))) w := by
  unfold reduceScript
  rw [Mask.pre_ok hF, bind_ok (show iterOf s w = .ok (w.heap s).iter w from rfl)]
  have hS' : (mask.resolve w s).Sound w := by cases mask <;> first | exact hS | trivial
  have hF' : (mask.resolve w s).Fits w s := by cases mask <;> first | exact hF | exact ⟨rfl, rfl⟩
  have hn : mask.resolve w s ≠ .nil := by cases mask <;> simp [Mask.resolve]
  unfold runScript
  rw [loopScript_go hS' hF' hn hc es w.gas _ [] hg hr hy]
  have : turn w (mask.resolve w s) = turn w mask := by funext e; simp only [turn, bit_resolve]
  rw [this, List.nil_append]

theorem reduceScript_stop {w : World T} {s : Ref} {mask : Mask} {es : List (Nat × Nat × T)}
    (hy : Yields Mat.Iter.hasNext (w.heap s).step (w.heap s).iter es)
    (hr : ∀ e ∈ es, e.1 < (w.heap s).rows ∧ e.2.1 < (w.heap s).cols) (hg : es.length ≤ w.gas)
    (hS : mask.Sound w) (hF : mask.Fits w s) {k : Nat} (hc : w.cancel = some k) (hk : k < es.length) :
    reduceScript s mask w = .ok none { w with cancel := some 0 } := by
  unfold reduceScript
  rw [Mask.pre_ok hF, bind_ok (show iterOf s w = .ok (w.heap s).iter w from rfl)]
  have hS' : (mask.resolve w s).Sound w := by cases mask <;> first | exact hS | trivial
  have hF' : (mask.resolve w s).Fits w s := by cases mask <;> first | exact hF | exact ⟨rfl, rfl⟩
  have hn : mask.resolve w s ≠ .nil := by cases mask <;> simp [Mask.resolve]
  unfold runScript
  rw [loopScript_stop hn es k w.gas _ [] w hS' hF' hc hk hg hr hy]

theorem reduceScript_late {w : World T} {s : Ref} {mask : Mask} {es : List (Nat × Nat × T)}
    (hy : Yields Mat.Iter.hasNext (w.heap s).step (w.heap s).iter es)
    (hr : ∀ e ∈ es, e.1 < (w.heap s).rows ∧ e.2.1 < (w.heap s).cols) (hg : es.length ≤ w.gas)
    (hS : mask.Sound w) (hF : mask.Fits w s) {k : Nat} (hc : w.cancel = some k) (hk : es.length ≤ k) :
    reduceScript s mask w = .ok (some (es.map (turn w mask))) { w with cancel := some (k - es.length) } := by
  unfold reduceScript
  rw [Mask.pre_ok hF, bind_ok (show iterOf s w = .ok (w.heap s).iter w from rfl)]
  have hS' : (mask.resolve w s).Sound w := by cases mask <;> first | exact hS | trivial
  have hF' : (mask.resolve w s).Fits w s := by cases mask <;> first | exact hF | exact ⟨rfl, rfl⟩
  have hn : mask.resolve w s ≠ .nil := by cases mask <;> simp [Mask.resolve]
  unfold runScript
  rw [loopScript_late hn es k w.gas _ [] w hS' hF' hc hk hg hr hy]
  have : turn w (mask.resolve w s) = turn w mask := by funext e; simp only [turn, bit_resolve]
  rw [this, List.nil_append]

/-- The values the producer sends. -/
def sent (w : World T) (mask : Mask) (es : List (Nat × Nat × T)) : List T :=
  (es.filter (fun e => !mask.bit w e.1 e.2.1)).map (fun e => e.2.2)

theorem filterMap_turn (w : World T) (mask : Mask) (es : List (Nat × Nat × T)) :
    (es.map (turn w mask)).filterMap id = sent w mask es := by
  unfold sent
  induction es with
  | nil => rfl
  | cons e es ih =>
    rw [List.map_cons, List.filter_cons]
    unfold turn at ih ⊢
    by_cases h : mask.bit w e.1 e.2.1 = true
    · simp only [h, if_true, Bool.not_true, Bool.false_eq_true, if_false, List.filterMap_cons, id_eq]
      exact ih
    · simp only [Bool.not_eq_true] at h
      simp only [h, Bool.false_eq_true, if_false, Bool.not_false, if_true, List.filterMap_cons, id_eq, List.map_cons]
      exact congrArg _ ih

theorem reduceScalar_ok {w : World T} {s : Ref} {mask : Mask} {es : List (Nat × Nat × T)} (mo : MonoID T)
    (hy : Yields Mat.Iter.hasNext (w.heap s).step (w.heap s).iter es)
    (hr : ∀ e ∈ es, e.1 < (w.heap s).rows ∧ e.2.1 < (w.heap s).cols) (hg : es.length ≤ w.gas)
    (hS : mask.Sound w) (hF : mask.Fits w s) (hc : w.cancel = none) :
    reduceScalar s mo mask w = .ok ((sent w mask es).foldl mo.op mo.unit) w := by
  unfold reduceScalar
  rw [bind_ok (reduceScript_ok hy hr hg hS hF hc)]
  dsimp only
  rw [filterMap_turn]
  rfl

/-- The mask, if it is a matrix, is an allocated one. -/
def _root_.GB.Mask.Old (w : World T) : Mask → Prop
  | .ref p => p < w.next
  | _ => True

theorem reduceVector_ok {w : World T} {s : Ref} {mask : Mask} (mo : MonoID T) (hs : (w.heap s).WF) (hlt : s < w.next)
    (hg : (w.heap s).rows ≤ w.gas) (hc : w.cancel = none) (hS : mask.Sound w) (hO : mask.Old w)
    (hF : mask = .nil ∨ (∀ p, mask = .ref p → (w.heap p).rows = (w.heap s).rows ∧ (w.heap p).cols = 1) ∧
      (∀ r c, mask = .empty r c → r = (w.heap s).rows ∧ c = 1) ∧ ∀ r c el, mask = .given r c el → r = (w.heap s).rows ∧ c = 1) :
    ∃ w' v, reduceVector s mo mask w = .ok w.next w' ∧ w.next < w'.next ∧ (∀ q, q < w.next → w'.heap q = w.heap q) ∧
      w'.cancel = none ∧ w'.reg = w.reg ∧ w'.gas = w.gas ∧
      w'.heap w.next = .dvec v ∧ v.WF ∧ v.l = (w.heap s).cols ∧
      ∀ c, c < (w.heap s).cols → ∃ es, Faithful (w.heap s).rows 1 (fun i _ => (w.heap s).val i c) es ∧
        (w.heap s).ColumnOrder c es ∧ v.cell c = (sent w mask es).foldl mo.op mo.unit := by
  unfold reduceVector
  rw [bind_ok (show colsOf s w = .ok (w.heap s).cols w from rfl)]
  generalize hsc : (w.heap s).cols = sc
  let w1 : World T := { w with heap := Function.update w.heap w.next (.dvec (DVec.new sc)), next := w.next + 1 }
  rw [bind_ok (show alloc (.dvec (DVec.new sc)) w = .ok w.next w1 from rfl)]
  let J : Nat → World T → Prop := fun c w' => w.next < w'.next ∧ (∀ q, q < w.next → w'.heap q = w.heap q) ∧
    w'.cancel = none ∧ w'.reg = w.reg ∧ w'.gas = w.gas ∧
    ∃ v, w'.heap w.next = .dvec v ∧ v.WF ∧ v.l = sc ∧
      ∀ k, k < c → ∃ es, Faithful (w.heap s).rows 1 (fun i _ => (w.heap s).val i k) es ∧
        (w.heap s).ColumnOrder k es ∧ v.cell k = (sent w mask es).foldl mo.op mo.unit
  have hinit : J 0 w1 := by
    refine ⟨?_, ?_, hc, rfl, rfl, DVec.new sc, ?_, ?_, rfl, fun k hk => by omega⟩
    · exact Nat.lt_succ_self _
    · intro q hq
      have : q ≠ w.next := Nat.ne_of_lt hq
      simp [w1, Function.update_of_ne this]
    · simp [w1]
    · simp [DVec.WF, DVec.new]
  let body : Nat → M T (Option Unit) := fun c => do
      let v ← ofObj s (fun x => x.columnsAt c)
      let p ← alloc v.toMat
      let scaler ← reduceScalar p mo mask
      setVec w.next c scaler
      pure (none : Option Unit)
  have hstep : ∀ c, 0 ≤ c → c < 0 + sc → ∀ w2, J c w2 → ∃ x w', body c w2 = .ok x w' ∧ (x = none → J (c + 1) w') ∧
      ∀ b, x = some b → False := by
    intro c _ hcs w2 hJ
    obtain ⟨j1, j2, j3, j4, j5, v, j6, j7, j8, j9⟩ := hJ
    have hcs : c < (w.heap s).cols := by omega
    obtain ⟨col, es, k1, k2, k3, k4, k5, k6, k7, k8⟩ := Mat.columnsAt_yields hs hcs
    have r1 : ofObj s (fun x => x.columnsAt c) w2 = .ok col w2 := ofObj_ok (by rw [j2 s hlt]; exact k1)
    show ∃ x w', (ofObj s (fun x => x.columnsAt c) >>= fun v => _) w2 = .ok x w' ∧ _
    rw [bind_ok r1]
    let w3 : World T := { w2 with heap := Function.update w2.heap w2.next col.toMat, next := w2.next + 1 }
    rw [bind_ok (show alloc col.toMat w2 = .ok w2.next w3 from rfl)]
    have e1 : w3.heap w2.next = col.toMat := by simp [w3]
    have e2 : ∀ q, q < w2.next → w3.heap q = w2.heap q := by
      intro q hq
      have : q ≠ w2.next := Nat.ne_of_lt hq
      simp [w3, Function.update_of_ne this]
    have old : ∀ q, q < w.next → w3.heap q = w.heap q := fun q hq => by rw [e2 q (Nat.lt_trans hq j1), j2 q hq]
    have hS3 : mask.Sound w3 := by
      cases mask with
      | ref p => show (w3.heap p).Inv; rw [old p hO]; exact hS
      | given a b el => exact hS
      | _ => trivial
    have hF3 : mask.Fits w3 w2.next := by
      cases mask with
      | nil => trivial
      | empty r c' =>
        have := hF.resolve_left (by simp)
        have := this.2.1 r c' rfl
        exact ⟨by rw [e1, k2]; exact this.1, by rw [e1, k3]; exact this.2⟩
      | given r c' el =>
        have := hF.resolve_left (by simp)
        have := this.2.2 r c' el rfl
        exact ⟨by rw [e1, k2]; exact this.1, by rw [e1, k3]; exact this.2⟩
      | ref p =>
        have := hF.resolve_left (by simp)
        have := this.1 p rfl
        exact ⟨by rw [old p hO, e1, k2]; exact this.1, by rw [old p hO, e1, k3]; exact this.2⟩
    have hb : mask.bit w3 = mask.bit w := by
      cases mask with
      | ref p => funext i j; simp only [Mask.bit]; rw [old p hO]
      | _ => rfl
    have r2 := reduceScalar_ok (w := w3) (s := w2.next) (mask := mask) (es := es) mo (by rw [e1]; exact k4)
      (by rw [e1, k2, k3]; exact k5.range) (by show es.length ≤ w2.gas; rw [j5]; omega) hS3 hF3 j3
    rw [bind_ok r2]
    have e3 : w3.heap w.next = .dvec v := by rw [e2 _ j1, j6]
    have r3 : ∀ x, setVec w.next c x w3 =
        .ok () { w3 with heap := Function.update w3.heap w.next (.dvec { v with values := v.values.set c x }) } := by
      intro x
      unfold setVec withObj
      rw [e3]
      simp only [DVec.setVec_ok j7 (show c < v.l by omega), Out.ok_bind]
    rw [bind_ok (r3 _)]
    refine ⟨none, _, rfl, fun _ => ⟨?_, ?_, j3, j4, j5,
      { v with values := v.values.set c (List.foldl mo.op mo.unit (sent w3 mask es)) }, ?_, DVec.setVec_wf j7, j8, ?_⟩, fun b hb => by cases hb⟩
    · exact Nat.lt_succ_of_lt j1
    · intro q hq
      have : q ≠ w.next := Nat.ne_of_lt hq
      simp only [Function.update_of_ne this]
      exact old q hq
    · simp
    · intro k hk
      rw [DVec.setVec_cell j7 (show c < v.l by omega)]
      by_cases hkc : k = c
      · subst hkc
        refine ⟨es, k5, k8, ?_⟩
        rw [if_pos rfl]
        unfold sent
        rw [hb]
      · rw [if_neg hkc]
        exact j9 k (by omega)
  obtain ⟨x, w', h1, h2⟩ := forN_rule (J := J) (Q := fun _ _ => False) (body := body) sc 0 w1 hstep hinit
  rw [bind_ok h1]
  rcases h2 with ⟨-, j1, j2, j3, j4, j5, v, j6, j7, j8, j9⟩ | ⟨_, -, hf⟩
  · exact ⟨w', v, rfl, j1, j2, j3, j4, j5, j6, j7, j8, fun c hc' => j9 c (by omega)⟩
  · exact hf.elim

end Ops
end

/-! ## Sums -/

section
variable {T : Type} [GoRing T]

theorem Faithful.sum_eq {r c : Nat} {val : Nat → Nat → T} {es : List (Nat × Nat × T)} (h : Faithful r c val es)
    (keep : Nat → Nat → Bool) :
    ((es.filter (fun e => keep e.1 e.2.1)).map (fun e => e.2.2)).sum =
      ∑ i ∈ Finset.range r, ∑ j ∈ Finset.range c, if keep i j then val i j else 0 := by
  have h0 : ((es.filter (fun e => keep e.1 e.2.1)).map (fun e => e.2.2)).sum =
      ((es.map (fun e => (e.1, e.2.1))).map (fun p => if keep p.1 p.2 then val p.1 p.2 else 0)).sum := by
    have hv := h.value
    clear h
    induction es with
    | nil => rfl
    | cons e es ih =>
      have ih := ih (fun e he => hv e (List.mem_cons_of_mem _ he))
      have he := hv e List.mem_cons_self
      simp only [List.map_cons, List.sum_cons, List.filter_cons]
      by_cases hk : keep e.1 e.2.1 = true
      · simp only [hk, if_true, List.map_cons, List.sum_cons, he]
        rw [ih]
      · rw [if_neg hk, if_neg hk, zero_add]
        exact ih
  have hn : (es.map (fun e => (e.1, e.2.1))).Nodup := by
    rw [List.nodup_iff_pairwise_ne, List.pairwise_map]
    exact h.distinct.imp (fun hab he => hab (by simpa using he))
  rw [h0, ← List.sum_toFinset _ hn, ← Finset.sum_product' (Finset.range r) (Finset.range c)
    (fun i j => if keep i j then val i j else 0)]
  refine Finset.sum_subset ?_ ?_
  · intro p hp
    obtain ⟨e, he, rfl⟩ := List.mem_map.1 (List.mem_toFinset.1 hp)
    have := h.range e he
    simp [this.1, this.2]
  · intro p hp hnp
    simp only [Finset.mem_product, Finset.mem_range] at hp
    by_contra hne
    apply hnp
    have : val p.1 p.2 ≠ 0 := by
      intro hz; apply hne; rw [hz]; simp
    exact List.mem_toFinset.2 (List.mem_map.2 ⟨_, h.complete p.1 p.2 hp.1 hp.2 this, rfl⟩)

theorem foldl_add (l : List T) : l.foldl OpPkg.addition 0 = l.sum := by
  have : ∀ a : T, l.foldl OpPkg.addition a = a + l.sum := by
    induction l with
    | nil => intro a; simp
    | cons x l ih => intro a; rw [List.foldl_cons, ih, List.sum_cons]; simp only [OpPkg.addition]; exact add_assoc _ _ _
  rw [this, zero_add]

end
end GB
