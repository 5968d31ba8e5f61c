import Verif.Lemmas.Ops3
import Verif.Model.Fused

/-!
# Matrix multiplication
-/

namespace GB

set_option linter.unusedSectionVars false
set_option linter.unusedSimpArgs false

variable {T : Type} [GoNum T] [GoStore T]

open M

theorem nonzeros_eq (n : Nat) (g : Nat → T) : (SVec.nz g n).length = nonzeros n g := by
  have h := nz_map g n
  have := congrArg List.length h
  simpa [nonzeros, SVec.entries] using this

/-- A sparse vector holding `g` reads as `shortRead`. -/
theorem SVec.Rep.shortRead {s : SVec T} {es : List (Nat × T)} (h : s.Rep es) {n : Nat} (hn : s.l = n)
    {g : Nat → T} (hg : ∀ l, l < n → rowGet es l = g l) {l : Nat} (hl : l < n) :
    s.atVec l = .ok (shortRead n g l) := by
  rw [h.atVec_ok (by rw [hn]; exact hl)]
  unfold GB.shortRead
  have : es.length = nonzeros n g := by
    rw [row_eq_nz (n := n) h.sorted (fun e he => hn ▸ h.bound e he) h.nz, nonzeros_eq]
    unfold nonzeros
    congr 1
    apply List.filter_congr
    intro a ha
    simp only [hg a (by simpa using ha)]
  rw [this, hg l hl]

namespace Mat

theorem rowsAt_read {m : Mat T} (h : m.WF) {i : Nat} (hi : i < m.rows) :
    ∃ v, m.rowsAt i = .ok v ∧ v.length = m.cols ∧ ∀ l : Nat, l < m.cols → v.atVec l = .ok (m.rowVal i l) := by
  cases m with
  | csr s =>
    obtain ⟨rows, hr⟩ := h
    obtain ⟨sv, h1, h2, h3⟩ := hr.rowsAt_ok hi
    refine ⟨.svec sv, by simp [rowsAt, h1], h2, fun l hl => ?_⟩
    refine h3.shortRead h2 (fun j hj => ?_) hl
    rw [val_csr hr hi hj, hr.cell_eq hi]
  | csc s =>
    obtain ⟨cols, hr⟩ := h
    obtain ⟨sv, h1, h2, h3⟩ := CSC.Rep.rowsAt_ok hr hi
    refine ⟨.svec sv, by simp [rowsAt, h1], h2, fun l hl => ?_⟩
    refine h3.shortRead h2 (fun j hj => ?_) hl
    rw [val_csc hr hi hj, CSR.colEntries_get cols s.c i j hj]
    exact CSR.Rep.norm_cell (s := CSC.mir s) hr hj
  | dense s =>
    have hw : s.WF := h
    refine ⟨.dvec _, by simp [rowsAt, Dense.rowsAt_ok hw hi]; rfl, rfl, fun l hl => ?_⟩
    have hl : l < s.c := hl
    have hl' : l < ((List.range s.c).map (fun j => s.cell i j)).length := by simpa using hl
    simp [Vec.atVec, DVec.atVec, hl, idx_ok hl', rowVal, kind, val_dense hw hi hl]
  | dvec s =>
    have hw : s.WF := h
    have hi : i < s.l := hi
    refine ⟨.dvec { l := 1, values := [s.cell i] }, ?_, rfl, fun l hl => ?_⟩
    · simp [rowsAt, DVec.rowsAt, hi, DVec.atVec_ok hw hi, DVec.setVec, DVec.new, inRange, setIdx]
    · obtain rfl : l = 0 := by simp [cols] at hl; omega
      simp [Vec.atVec, DVec.atVec, inRange, idx, rowVal, kind, val_dvec hw hi]
  | svec s =>
    obtain ⟨es, hr, hp⟩ := h
    have hi : i < s.l := hi
    have hv := val_svec hr hi
    have e0 : SVec.Rep (SVec.new 1 : SVec T) [] := SVec.rep_new 1
    obtain ⟨L, M, R, old, hs⟩ := rowSplit_exists e0.sorted 0
    obtain ⟨sv, h1, h2, h3⟩ := e0.setVec_ok (i := 0) (by simp [SVec.new, SVec.newL])
      hs (by simp) (val (svec s) i 0)
    refine ⟨.svec sv, ?_, h2, fun l hl => ?_⟩
    · simp only [rowsAt, SVec.rowsAt, inRange_natCast, hi, decide_true, if_true, hr.atVec_ok hi, ← hv,
        Out.ok_bind]
      have h1' : (SVec.new 1 : SVec T).setVec 0 (val (svec s) i 0) = .ok sv := h1
      simp [h1']
    · obtain rfl : l = 0 := by simp [cols] at hl; omega
      have h4 := h3.atVec_ok (i := 0) (by rw [h2]; simp [SVec.new, SVec.newL])
      rw [if_pos (Nat.zero_le _), (hs.put_split _).get] at h4
      show sv.atVec (0 : Nat) = _
      rw [h4]
      simp only [rowVal, kind]
      congr 1
      rw [hv, hp.get]
      by_cases hz : rowGet es i = 0
      · rw [hz]; simp [norm]
      · have := hr.nz _ (CSR.mem_of_rowGet hz)
        simp only at this
        simp [norm, this]

theorem columnsAt_read {m : Mat T} (h : m.WF) {j : Nat} (hj : j < m.cols) :
    ∃ v, m.columnsAt j = .ok v ∧ v.length = m.rows ∧ ∀ l : Nat, l < m.rows → v.atVec l = .ok (m.colVal j l) := by
  cases m with
  | csr s =>
    obtain ⟨rows, hr⟩ := h
    obtain ⟨sv, h1, h2, h3⟩ := hr.columnsAt_ok hj
    refine ⟨.svec sv, by simp [columnsAt, h1], h2, fun l hl => ?_⟩
    refine h3.shortRead h2 (fun i hi => ?_) hl
    rw [val_csr hr hi hj, CSR.colEntries_get rows s.r j i hi]
    exact hr.norm_cell hi
  | csc s =>
    obtain ⟨cols, hr⟩ := h
    obtain ⟨sv, h1, h2, h3⟩ := CSC.Rep.columnsAt_ok hr hj
    refine ⟨.svec sv, by simp [columnsAt, h1], h2, fun l hl => ?_⟩
    refine h3.shortRead h2 (fun i hi => ?_) hl
    rw [val_csc hr hi hj]
    exact (CSR.Rep.cell_eq (s := CSC.mir s) hr hj i).symm
  | dense s =>
    have hw : s.WF := h
    refine ⟨.dvec _, by simp [columnsAt, Dense.columnsAt_ok hw hj]; rfl, rfl, fun l hl => ?_⟩
    have hl : l < s.r := hl
    have hl' : l < ((List.range s.r).map (fun i => s.cell i j)).length := by simpa using hl
    simp [Vec.atVec, DVec.atVec, hl, idx_ok hl', colVal, kind, val_dense hw hl hj]
  | dvec s =>
    have hw : s.WF := h
    obtain rfl : j = 0 := by simp [cols] at hj; omega
    refine ⟨.dvec s, by simp [columnsAt, DVec.columnsAt, inRange, DVec.copy_ok hw], rfl, fun l hl => ?_⟩
    simp [Vec.atVec, DVec.atVec_ok hw hl, colVal, kind, val_dvec hw hl]
  | svec s =>
    obtain ⟨es, hr, hp⟩ := h
    obtain rfl : j = 0 := by simp [cols] at hj; omega
    refine ⟨.svec s, by simp [columnsAt, SVec.columnsAt, inRange, hr.copy_ok], rfl, fun l hl => ?_⟩
    simp [Vec.atVec, hr.atVec_ok hl, colVal, kind, val_svec hr hl]

end Mat

namespace Ops

theorem dotSum_succ (n : Nat) (a b : Nat → T) :
    dotSum (n + 1) a b = dotSum n a b + a n * b n := by
  unfold dotSum; rw [List.range_succ, List.foldl_append]; rfl

theorem dotBy_succ (step : Nat → T → T → T → T) (n : Nat) (a b : Nat → T) :
    dotSumBy step (n + 1) a b = step n (dotSumBy step n a b) (a n) (b n) := by
  unfold dotSumBy; rw [List.range_succ, List.foldl_append]; rfl

/-- The inner product loop: it either finishes or stops on cancellation; nothing is written. -/
theorem dotBy_ok (step : Nat → T → T → T → T) {rows column : Vec T} {n : Nat} {a b : Nat → T}
    (ha : ∀ l : Nat, l < n → rows.atVec l = .ok (a l)) (hb : ∀ l : Nat, l < n → column.atVec l = .ok (b l)) :
    ∀ (k l : Nat), l + k = n → ∀ w : World T, ∃ x c, dotBy step rows column k l (dotSumBy step l a b) w =
      .ok x { w with cancel := c } ∧ (w.cancel = none → c = none) ∧
      ((x = none ∧ c = some 0) ∨ x = some (dotSumBy step n a b)) := by
  intro k
  induction k with
  | zero =>
    intro l hl w
    obtain rfl : l = n := by omega
    exact ⟨some (dotSumBy step l a b), w.cancel, rfl, id, Or.inr rfl⟩
  | succ k ih =>
    intro l hl w
    by_cases hc : w.cancel = some 0
    · refine ⟨none, some 0, ?_, by simp [hc], Or.inl ⟨rfl, rfl⟩⟩
      unfold dotBy
      rw [bind_ok (poll_stop hc)]
      simp only [if_true, pure_apply]
      rw [← hc]
    · obtain ⟨x, c, h1, h2, h3⟩ := ih (l + 1) (by omega) { w with cancel := tick w.cancel }
      refine ⟨x, c, ?_, ?_, h3⟩
      · unfold dotBy
        rw [bind_ok (poll_go hc)]
        simp only [Bool.false_eq_true, if_false]
        simp only [bind_apply, lift, hb l (by omega), ha l (by omega), ← dotBy_succ, h1]
      · intro h; exact h2 (by simp [h, tick])

end Ops

namespace M

/-- The rule for counting loops. -/
theorem forN_rule {β : Type} {body : Nat → M T (Option β)} {J : Nat → World T → Prop}
    {Q : β → World T → Prop} : ∀ (n i0 : Nat) (w : World T),
    (∀ i, i0 ≤ i → i < i0 + n → ∀ w, J i w → ∃ x w', body i w = .ok x w' ∧ (x = none → J (i + 1) w') ∧
      ∀ b, x = some b → Q b w') →
    J i0 w → ∃ x w', forN n i0 body w = .ok x w' ∧ ((x = none ∧ J (i0 + n) w') ∨ ∃ b, x = some b ∧ Q b w') := by
  intro n
  induction n with
  | zero => intro i0 w _ hJ; exact ⟨none, w, rfl, Or.inl ⟨rfl, hJ⟩⟩
  | succ n ih =>
    intro i0 w hs hJ
    obtain ⟨x, w', h1, h2, h3⟩ := hs i0 (Nat.le_refl _) (by omega) w hJ
    unfold forN
    rw [bind_ok h1]
    cases x with
    | some b => exact ⟨some b, w', rfl, Or.inr ⟨b, rfl, h3 b rfl⟩⟩
    | none =>
      obtain ⟨x, w2, g1, g2⟩ := ih (i0 + 1) w' (fun i a b => hs i (by omega) (by omega)) (h2 rfl)
      refine ⟨x, w2, g1, ?_⟩
      rw [show i0 + (n + 1) = i0 + 1 + n by omega]
      exact g2

end M

namespace Ops

/-- The state of the output of `multiply` when the cells before `(r, c)` (row by row) are done. -/
structure MulAt (old : Mat T) (new : Nat → Nat → T) (r c : Nat) (m' : Mat T) : Prop where
  wf : m'.WF
  same : Mat.Same m' old
  done : ∀ a b, a < old.rows → b < old.cols → (a < r ∨ (a = r ∧ b < c)) → m'.val a b = new a b
  todo : ∀ a b, a < old.rows → b < old.cols → ¬ (a < r ∨ (a = r ∧ b < c)) → m'.val a b = old.val a b

theorem rowVal_congr {m m' : Mat T} (hs : Mat.Same m' m) {i : Nat}
    (h : ∀ j, j < m.cols → m'.val i j = m.val i j) {l : Nat} (hl : l < m.cols) :
    m'.rowVal i l = m.rowVal i l := by
  have hn : nonzeros m'.cols (fun j => m'.val i j) = nonzeros m.cols (fun j => m.val i j) := by
    unfold nonzeros
    rw [hs.2.2]
    congr 1
    apply List.filter_congr
    intro a ha
    simp only [h a (by simpa using ha)]
  unfold Mat.rowVal shortRead
  rw [hs.1, hn]
  simp only [h l hl]

theorem multiplyBy_panic (step : Nat → Nat → Nat → T → T → T → T) {w : World T} {s m out : Ref} {mask : Mask}
    (h : ¬ ((w.heap m).rows = (w.heap s).cols ∧ mask.Fits w out)) :
    Ops.multiplyBy step s m mask out w = .panic w := by
  unfold Ops.multiplyBy
  simp only [bind_apply, colsOf_apply, rowsOf_apply]
  by_cases h1 : (w.heap m).rows = (w.heap s).cols
  · have h3 : ¬ mask.Fits w out := fun h3 => h ⟨h1, h3⟩
    simp only [h1, ne_eq, not_true, if_false, pure_apply, bind_apply, Mask.orEmpty_apply,
      Mask.check_panic h3]
  · simp [h1, bind_apply]

/-- Multiplication, whatever the output is: `seen r c` is what the run finds in column `c` of the right
operand when it comes to cell `(r, c)`. -/
theorem multiplyBy_writes_seen (step : Nat → Nat → Nat → T → T → T → T) {w : World T} {s m out : Ref} {mask : Mask} {new : Nat → Nat → T}
    {seen : Nat → Nat → Nat → T}
    (hs : (w.heap s).WF) (hout : (w.heap out).WF)
    (hk : (w.heap out).kind ≠ .svec) (h1 : (w.heap m).rows = (w.heap s).cols)
    (h2 : (w.heap out).rows = (w.heap s).rows) (h3 : (w.heap out).cols = (w.heap m).cols)
    (hF : mask.Fits w out) (hS : mask.Sound w)
    (hnew : ∀ r c, r < (w.heap s).rows → c < (w.heap m).cols →
      new r c = if mask.bit w r c then (w.heap out).val r c else
        (w.heap out).keep (dotSumBy (step r c) (w.heap s).cols ((w.heap s).rowVal r) (seen r c)))
    (hcol : ∀ r c m' cn, r < (w.heap s).rows → MulAt (w.heap out) new r c m' →
      ((w.upd out m' cn).heap m).WF ∧ ((w.upd out m' cn).heap m).cols = (w.heap m).cols ∧
      ((w.upd out m' cn).heap m).rows = (w.heap m).rows ∧
      (c < (w.heap m).cols → ∀ l, l < (w.heap m).rows → ((w.upd out m' cn).heap m).colVal c l = seen r c l)) :
    Writes w out new (Ops.multiplyBy step s m mask out w) := by
  -- the row of `s` read when `r` rows are done
  have hrow : ∀ r, r < (w.heap s).rows → ∀ m' c, MulAt (w.heap out) new r 0 m' →
      ∃ v, ((w.upd out m' c).heap s).rowsAt r = .ok v ∧ v.length = (w.heap s).cols ∧
        ∀ l : Nat, l < (w.heap s).cols → v.atVec l = .ok ((w.heap s).rowVal r l) := by
    intro r hr m' c hm'
    by_cases hso : s = out
    · subst hso
      rw [World.upd_out]
      obtain ⟨v, e1, e2, e3⟩ := Mat.rowsAt_read hm'.wf (i := r) (by rw [hm'.same.2.1]; exact hr)
      refine ⟨v, e1, by rw [e2, hm'.same.2.2], fun l hl => ?_⟩
      rw [e3 l (by rw [hm'.same.2.2]; exact hl), rowVal_congr hm'.same _ hl]
      intro j hj
      exact hm'.todo r j hr hj (by omega)
    · rw [World.upd_ne _ _ _ hso]
      exact Mat.rowsAt_read hs hr
  let J : Nat → Nat → World T → Prop := fun r c w' =>
    ∃ m' cn, w' = w.upd out m' cn ∧ (w.cancel = none → cn = none) ∧ MulAt (w.heap out) new r c m'
  let Q : Unit → World T → Prop := fun _ w' => ∃ m' cn r c, w' = w.upd out m' cn ∧
    (w.cancel = none → cn = none) ∧ cn = some 0 ∧ MulAt (w.heap out) new r c m'
  have hloop : ∃ x w', forN (w.heap s).rows 0 (fun r => do
      let rows ← ofObj s (fun x => x.rowsAt r)
      let mc ← colsOf m
      forN mc 0 (fun c => do
        let column ← ofObj m (fun x => x.columnsAt c)
        match ← dotBy (step r c) rows column rows.length 0 0 with
        | none => pure (some ())
        | some sum => do
          let e ← (mask.resolve w out).element r c
          if !e then M.set out r c sum
          pure none)) w = .ok x w' ∧
      ((x = none ∧ J (0 + (w.heap s).rows) 0 w') ∨ ∃ b, x = some b ∧ Q b w') := by
    refine forN_rule (J := fun r => J r 0) (Q := Q) _ _ _ ?_ ?_
    · rintro r - hr w' ⟨m', cn, rfl, hcn, hm'⟩
      have hr : r < (w.heap s).rows := by omega
      obtain ⟨v, e1, e2, e3⟩ := hrow r hr m' cn hm'
      rw [bind_ok (ofObj_ok e1)]
      rw [bind_ok (colsOf_apply m _), (hcol r 0 m' cn hr hm').2.1]
      obtain ⟨x, w', g1, g2⟩ := forN_rule (J := fun c => J r c) (Q := Q)
        (body := fun c => do
          let column ← ofObj m (fun x => x.columnsAt c)
          match ← dotBy (step r c) v column v.length 0 0 with
          | none => pure (some ())
          | some sum => do
            let e ← (mask.resolve w out).element r c
            if !e then M.set out r c sum
            pure none) (w.heap m).cols 0 (w.upd out m' cn) (by
          rintro c - hc w' ⟨m1, cn1, rfl, hcn1, hm1⟩
          have hc : c < (w.heap m).cols := by omega
          obtain ⟨u1, u2, u3, u4⟩ := hcol r c m1 cn1 hr hm1
          obtain ⟨col, k1, k2, k3⟩ := Mat.columnsAt_read u1 (j := c) (by rw [u2]; exact hc)
          rw [bind_ok (ofObj_ok k1)]
          obtain ⟨x, c2, d1, d2, d3⟩ := dotBy_ok (step r c) (rows := v) (column := col) (n := (w.heap s).cols)
            (a := (w.heap s).rowVal r) (b := seen r c) e3
            (fun l hl => by rw [k3 l (by rw [u3, h1]; exact hl), u4 hc l (by rw [h1]; exact hl)]) (w.heap s).cols 0 (by omega) (w.upd out m1 cn1)
          have d1' : dotBy (step r c) v col v.length 0 0 (w.upd out m1 cn1) = .ok x (w.upd out m1 c2) := by
            rw [e2]; exact d1
          rw [bind_ok d1']
          rcases d3 with ⟨rfl, hc2⟩ | rfl
          · refine ⟨some (), _, rfl, by simp, fun b _ => ⟨m1, c2, r, c, rfl, fun h => d2 (hcn1 h), hc2, hm1⟩⟩
          · have hro : r < (w.heap out).rows := by rw [h2]; exact hr
            have hco : c < (w.heap out).cols := by rw [h3]; exact hc
            have hold : m1.val r c = (w.heap out).val r c := hm1.todo r c hro hco (by omega)
            have hel := Mask.element_upd hS hF hro hco (c := c2) hm1.wf hm1.same hold
            simp only
            rw [bind_ok hel]
            cases hb : mask.bit w r c with
            | true =>
              refine ⟨none, _, rfl, fun _ => ⟨m1, c2, rfl, fun h => d2 (hcn1 h), ?_⟩, by simp⟩
              refine ⟨hm1.wf, hm1.same, ?_, ?_⟩
              · intro a b ha hb' hd
                by_cases hrc : a = r ∧ b = c
                · obtain ⟨rfl, rfl⟩ := hrc
                  rw [hold, hnew a b hr hc]; simp [hb]
                · exact hm1.done a b ha hb' (by omega)
              · intro a b ha hb' hd
                exact hm1.todo a b ha hb' (by omega)
            | false =>
              obtain ⟨m2, q1, q2⟩ := set_upd (c := c2) hm1.wf hm1.same hk hro hco
                (dotSumBy (step r c) (w.heap s).cols ((w.heap s).rowVal r) (seen r c))
              simp only [Bool.not_false, if_true]
              rw [bind_ok q1]
              refine ⟨none, _, rfl, fun _ => ⟨m2, c2, rfl, fun h => d2 (hcn1 h), ?_⟩, by simp⟩
              refine ⟨q2.wf, q2.same.trans hm1.same, ?_, ?_⟩
              · intro a b ha hb' hd
                by_cases hrc : a = r ∧ b = c
                · obtain ⟨rfl, rfl⟩ := hrc
                  rw [q2.hit, hnew a b hr hc, hb]
                  simp
                · rw [q2.miss a b (by rw [hm1.same.2.1]; exact ha) (by rw [hm1.same.2.2]; exact hb') hrc]
                  exact hm1.done a b ha hb' (by omega)
              · intro a b ha hb' hd
                rw [q2.miss a b (by rw [hm1.same.2.1]; exact ha) (by rw [hm1.same.2.2]; exact hb') (by omega)]
                exact hm1.todo a b ha hb' (by omega))
        ⟨m', cn, rfl, hcn, hm'⟩
      refine ⟨x, w', g1, ?_, ?_⟩
      · rintro rfl
        rcases g2 with ⟨-, m2, cn2, f1, f2, f3⟩ | ⟨b, hb, -⟩
        · refine ⟨m2, cn2, f1, f2, f3.wf, f3.same, ?_, ?_⟩
          · intro a b ha hb hd
            exact f3.done a b ha hb (by rw [h3] at hb; omega)
          · intro a b ha hb hd
            exact f3.todo a b ha hb (by rw [h3] at hb; omega)
        · simp at hb
      · rintro b rfl
        rcases g2 with ⟨hb, -⟩ | ⟨b', -, hq⟩
        · simp at hb
        · exact hq
    · exact ⟨w.heap out, w.cancel, (w.upd_self out).symm, id, hout, Mat.Same.refl _,
        fun a b _ _ h => by omega, fun _ _ _ _ _ => rfl⟩
  obtain ⟨x, w', g1, g2⟩ := hloop
  have hrun : Ops.multiplyBy step s m mask out w = .ok () w' := by
    unfold Ops.multiplyBy
    simp only [bind_apply, colsOf_apply, rowsOf_apply, h1, ne_eq, not_true, if_false, pure_apply,
      Mask.orEmpty_apply, Mask.check_ok hF]
    exact bind_ok (f := fun _ => pure ()) g1
  rw [hrun]
  rcases g2 with ⟨-, m', cn, f1, f2, f3⟩ | ⟨-, -, m', cn, r, c, f1, f2, f4, f3⟩
  · refine ⟨m', cn, by rw [f1], f3.wf, f3.same, fun h => ⟨f2 h, ?_⟩, ?_⟩
    · intro i j hi hj
      rw [f3.same.2.1] at hi
      rw [f3.same.2.2] at hj
      exact f3.done i j hi hj (by rw [h2] at hi; omega)
    · intro i j hi hj
      rw [f3.same.2.1] at hi
      rw [f3.same.2.2] at hj
      exact Or.inl (f3.done i j hi hj (by rw [h2] at hi; omega))
  · refine ⟨m', cn, by rw [f1], f3.wf, f3.same, fun h => ?_, ?_⟩
    · have := f2 h
      rw [f4] at this
      simp at this
    · intro i j hi hj
      rw [f3.same.2.1] at hi
      rw [f3.same.2.2] at hj
      by_cases hd : i < r ∨ (i = r ∧ j < c)
      · exact Or.inl (f3.done i j hi hj hd)
      · exact Or.inr (f3.todo i j hi hj hd)

theorem dot_eq (rows column : Vec T) : ∀ k l sum,
    dot rows column k l sum = dotBy (fun _ s a b => s + a * b) rows column k l sum := by
  intro k
  induction k with
  | zero => intro l sum; rfl
  | succ k ih => intro l sum; unfold dot dotBy; simp only [ih]

/-- `multiply` is `multiplyBy` with a product and a sum. -/
theorem multiply_eq (s m : Ref) (mask : Mask) (out : Ref) :
    Ops.multiply (T := T) s m mask out = Ops.multiplyBy (fun _ _ _ s a b => s + a * b) s m mask out := by
  unfold Ops.multiply Ops.multiplyBy
  simp only [dot_eq]
  rfl

theorem multiply_panic {w : World T} {s m out : Ref} {mask : Mask}
    (h : ¬ ((w.heap m).rows = (w.heap s).cols ∧ mask.Fits w out)) :
    Ops.multiply s m mask out w = .panic w := by
  rw [multiply_eq]; exact multiplyBy_panic _ h

/-- Multiplication, whatever the output is: `seen r c` is what the run finds in column `c` of the right
operand when it comes to cell `(r, c)`. -/
theorem multiply_writes_seen {w : World T} {s m out : Ref} {mask : Mask} {new : Nat → Nat → T}
    {seen : Nat → Nat → Nat → T}
    (hs : (w.heap s).WF) (hout : (w.heap out).WF)
    (hk : (w.heap out).kind ≠ .svec) (h1 : (w.heap m).rows = (w.heap s).cols)
    (h2 : (w.heap out).rows = (w.heap s).rows) (h3 : (w.heap out).cols = (w.heap m).cols)
    (hF : mask.Fits w out) (hS : mask.Sound w)
    (hnew : ∀ r c, r < (w.heap s).rows → c < (w.heap m).cols →
      new r c = if mask.bit w r c then (w.heap out).val r c else
        (w.heap out).keep (dotSum (w.heap s).cols ((w.heap s).rowVal r) (seen r c)))
    (hcol : ∀ r c m' cn, r < (w.heap s).rows → MulAt (w.heap out) new r c m' →
      ((w.upd out m' cn).heap m).WF ∧ ((w.upd out m' cn).heap m).cols = (w.heap m).cols ∧
      ((w.upd out m' cn).heap m).rows = (w.heap m).rows ∧
      (c < (w.heap m).cols → ∀ l, l < (w.heap m).rows → ((w.upd out m' cn).heap m).colVal c l = seen r c l)) :
    Writes w out new (Ops.multiply s m mask out w) := by
  rw [multiply_eq]; exact multiplyBy_writes_seen _ hs hout hk h1 h2 h3 hF hS hnew hcol

theorem multiplyBy_writes (step : Nat → Nat → Nat → T → T → T → T) {w : World T} {s m out : Ref} {mask : Mask}
    (hs : (w.heap s).WF) (hm : (w.heap m).WF) (hout : (w.heap out).WF)
    (hk : (w.heap out).kind ≠ .svec) (h1 : (w.heap m).rows = (w.heap s).cols)
    (h2 : (w.heap out).rows = (w.heap s).rows) (h3 : (w.heap out).cols = (w.heap m).cols)
    (hF : mask.Fits w out) (hS : mask.Sound w) (hne : m ≠ out) :
    Writes w out (fun r c => if mask.bit w r c then (w.heap out).val r c else
        (w.heap out).keep (dotSumBy (step r c) (w.heap s).cols ((w.heap s).rowVal r) ((w.heap m).colVal c)))
      (Ops.multiplyBy step s m mask out w) := by
  refine multiplyBy_writes_seen step (seen := fun _ c => (w.heap m).colVal c) hs hout hk h1 h2 h3 hF hS (fun _ _ _ _ => rfl) ?_
  intro r c m' cn _ _
  rw [World.upd_ne _ _ _ hne]
  exact ⟨hm, rfl, rfl, fun _ _ _ => rfl⟩

theorem multiply_writes {w : World T} {s m out : Ref} {mask : Mask}
    (hs : (w.heap s).WF) (hm : (w.heap m).WF) (hout : (w.heap out).WF)
    (hk : (w.heap out).kind ≠ .svec) (h1 : (w.heap m).rows = (w.heap s).cols)
    (h2 : (w.heap out).rows = (w.heap s).rows) (h3 : (w.heap out).cols = (w.heap m).cols)
    (hF : mask.Fits w out) (hS : mask.Sound w) (hne : m ≠ out) :
    Writes w out (fun r c => if mask.bit w r c then (w.heap out).val r c else
        (w.heap out).keep (dotSum (w.heap s).cols ((w.heap s).rowVal r) ((w.heap m).colVal c)))
      (Ops.multiply s m mask out w) := by
  refine multiply_writes_seen (seen := fun _ c => (w.heap m).colVal c) hs hout hk h1 h2 h3 hF hS (fun _ _ _ _ => rfl) ?_
  intro r c m' cn _ _
  rw [World.upd_ne _ _ _ hne]
  exact ⟨hm, rfl, rfl, fun _ _ _ => rfl⟩

theorem colVal_congr {m m' : Mat T} (hs : Mat.Same m' m) {j : Nat} {g : Nat → T}
    (h : ∀ i, i < m.rows → m'.val i j = g i) {l : Nat} (hl : l < m.rows) :
    m'.colVal j l = m.seeCol g l := by
  have hn : nonzeros m'.rows (fun i => m'.val i j) = nonzeros m.rows g := by
    unfold nonzeros
    rw [hs.2.1]
    congr 1
    apply List.filter_congr
    intro a ha
    simp only [h a (by simpa using ha)]
  unfold Mat.colVal Mat.seeCol shortRead
  rw [hs.1, hn]
  simp only [h l hl]

theorem mulInto_todo {n : Nat} {a : Nat → Nat → T} {see : (Nat → T) → Nat → T} {bit : Nat → Nat → Bool} {keep : T → T}
    {old : Nat → Nat → T} : ∀ {k i : Nat}, k ≤ i → ∀ j, mulInto n a see bit keep old k i j = old i j := by
  intro k
  induction k with
  | zero => intro i _ j; rfl
  | succ k ih =>
    intro i hi j
    show (if i = k then _ else _) = _
    rw [if_neg (by omega), ih (by omega)]

theorem mulInto_done {n : Nat} {a : Nat → Nat → T} {see : (Nat → T) → Nat → T} {bit : Nat → Nat → Bool} {keep : T → T}
    {old : Nat → Nat → T} : ∀ {k i : Nat}, i < k → ∀ j,
      mulInto n a see bit keep old k i j = mulInto n a see bit keep old (i + 1) i j := by
  intro k
  induction k with
  | zero => intro i h; omega
  | succ k ih =>
    intro i hi j
    by_cases h : i = k
    · subst h; rfl
    · show (if i = k then _ else _) = _
      rw [if_neg h, ih (by omega)]

/-- Multiplication with the right operand as output. -/
theorem multiply_writes_right {w : World T} {s out : Ref} {mask : Mask}
    (hs : (w.heap s).WF) (hout : (w.heap out).WF)
    (hk : (w.heap out).kind ≠ .svec) (h1 : (w.heap out).rows = (w.heap s).cols)
    (h2 : (w.heap out).rows = (w.heap s).rows) (hF : mask.Fits w out) (hS : mask.Sound w) :
    Writes w out (mulInto (w.heap s).cols (w.heap s).rowVal (w.heap out).seeCol (mask.bit w) (w.heap out).keep
        (w.heap out).val (w.heap out).rows) (Ops.multiply s out mask out w) := by
  set tab := mulInto (w.heap s).cols (w.heap s).rowVal (w.heap out).seeCol (mask.bit w) (w.heap out).keep
        (w.heap out).val with htab
  refine multiply_writes_seen (seen := fun r c => (w.heap out).seeCol (fun i => tab r i c)) hs hout hk h1 h2 rfl hF hS ?_ ?_
  · intro r c hr _
    rw [htab, mulInto_done (by rw [h2]; exact hr)]
    show (if r = r then _ else _) = _
    rw [if_pos rfl]
  · intro r c m' cn hr hm'
    rw [World.upd_out]
    refine ⟨hm'.wf, hm'.same.2.2, hm'.same.2.1, fun hc l hl => ?_⟩
    refine colVal_congr hm'.same (fun i hi => ?_) hl
    by_cases hir : i < r
    · rw [hm'.done i c hi hc (Or.inl hir), htab, mulInto_done hi, mulInto_done hir]
    · rw [hm'.todo i c hi hc (by omega), htab, mulInto_todo (by omega)]

end Ops
end GB
