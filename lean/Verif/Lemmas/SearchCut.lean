import Verif.Lemmas.Steer
import Verif.Props.Look

/-!
# The loop of a search whose context is cancelled on the way
-/

namespace GB

set_option linter.unusedSectionVars false

namespace BFS
open M

variable {T : Type} [GoRing T] [GoLawful T]

/-- `w` with a context that is never cancelled. -/
def uncut (w : World T) : World T := { w with cancel := none }

theorem cut_self {w : World T} {k : Nat} (hc : w.cancel = some k) : { w with cancel := some k } = w := by
  cases w; simp_all

/-- What a call that returns leaves of the context: it was cut short, or did all it does otherwise. -/
theorem cut_cases {op : OpCall T} {mask : Mask} {out : Ref} {w : World T} {k : Nat} (hc : w.cancel = some k) {v v' : Mat T}
    {c : Option Nat} (e : op.run mask out w = .ok () (w.upd out v c))
    (e' : op.run mask out (uncut w) = .ok () ((uncut w).upd out v' none)) :
    c = some 0 ∨ (v = v' ∧ ∃ l, c = some (k - l)) := by
  rw [← cut_self hc, C93_prefix] at e
  cases h : (op.steps w.gas mask out).atLook k w with
  | some w' =>
    rw [h] at e
    injection e with _ e
    left
    have := congrArg World.cancel e
    exact this.symm
  | none =>
    rw [h] at e
    have e' : op.run mask out { w with cancel := none } = _ := e'
    simp only [e', Res.withCancel] at e
    injection e with _ e
    right
    have h1 := congrArg World.heap e
    have h2 := congrArg World.cancel e
    refine ⟨?_, _, h2.symm⟩
    have := congrFun h1 out
    simpa [World.upd] using this.symm

theorem St.mulAny {w0 w : World T} {n k : Nat} {a visited result frontier : Ref} {f seen : Nat → T}
    (h : St w0 (uncut w) n a visited result frontier f seen) (hc : w.cancel = some k) (hn : 0 < n) :
    ∃ v c, Ops.matrixVectorMultiply a frontier (.ref visited) result w = .ok () (w.upd result v (some c)) ∧ IsVec v n ∧
      (∀ i, i < n → v.val i 0 = 0 ∨ v.val i 0 = nextLevel (w.heap a) f seen i) ∧
      (c = 0 ∨ ∀ i, i < n → v.val i 0 = nextLevel (w.heap a) f seen i) ∧
      (k = 0 → c = 0 ∧ ∀ i, i < n → v.val i 0 = 0) := by
  have N : Net (w.heap a) n := h.fit.net
  have R : IsVec (w.heap result) n := h.fit.vec
  have hv : IsVec (w.heap visited) n := h.hv
  have hf : IsVec (w.heap frontier) n := h.hf
  have mr : ∀ i, i < n → (w.heap result).val i 0 = 0 := h.mr
  have mv : ∀ i, i < n → (w.heap visited).val i 0 = seen i := h.mv
  have mf : ∀ i, i < n → (w.heap frontier).val i 0 = f i := h.mf
  have hm := C20_multiply_partial (w := w) (s := a) (m := frontier) (out := result) (mask := .ref visited)
    N.wf hf.wf R.wf (by rw [R.kind]; simp)
    (by rw [hf.rows, N.cols]) (by rw [N.rows, R.rows]) (by rw [R.cols, hf.cols])
    (by rw [Mask.Fits, hv.rows, hv.cols, R.rows, R.cols]; exact ⟨rfl, rfl⟩)
    (Mat.WF.inv hv.wf) h.fr N.fit (Mat.fit_dense (by rw [hf.kind]; simp)).2
  obtain ⟨v, c, e1, e2, e3, -, e5⟩ := hm
  have hV := R.same e2 e3
  obtain ⟨v', f1, -, f3⟩ := h.mul
  have e1' : (OpCall.mxv a frontier).run (.ref visited) result w = .ok () (w.upd result v c) := e1
  have hcell : ∀ i, i < n → v.val i 0 = 0 ∨ v.val i 0 = nextLevel (w.heap a) f seen i := by
    intro i hi
    rcases e5 i 0 (by rw [hV.rows]; exact hi) (by rw [hV.cols]; exact Nat.one_pos) with h' | h'
    · right
      rw [h']
      simp only [Mask.bit, mr i hi, mv i hi]
      unfold nextLevel
      split
      · rfl
      · refine Finset.sum_congr rfl fun l hl => ?_
        rw [mf l (by rw [← N.cols]; exact Finset.mem_range.1 hl)]
    · left
      rw [h', mr i hi]
  have hzero : k = 0 → ∀ i, i < n → v.val i 0 = 0 := by
    rintro rfl i hi
    obtain ⟨ps, hp, -, -, hcs⟩ := C93_cells (w := w) (op := .mxv a frontier) (mask := .ref visited) (out := result) (k := 0)
      (by rw [R.kind]; simp) (Mat.WF.inv R.wf)
      (by
        intro q hq
        rcases List.mem_cons.1 hq with rfl | hq
        · exact Mat.WF.inv N.wf
        · obtain rfl := List.mem_singleton.1 hq
          exact Mat.WF.inv hf.wf) (Mat.WF.inv hv.wf) (fun h => h.elim)
      (by show (w.heap a).cols ≠ 0; rw [N.cols]; omega) (w1 := w.upd result v c) (by rw [cut_self hc]; exact e1')
    obtain rfl : ps = [] := List.length_eq_zero_iff.1 (by omega)
    have := hcs i 0 (by rw [R.rows]; exact hi) (by rw [R.cols]; exact Nat.one_pos) (by simp)
    rw [World.upd_out, mr i hi] at this
    exact this
  rcases cut_cases hc e1' f1 with rfl | ⟨rfl, l, rfl⟩
  · exact ⟨v, 0, e1, hV, hcell, Or.inl rfl, fun hk => ⟨rfl, hzero hk⟩⟩
  · exact ⟨v, _, e1, hV, hcell, Or.inr f3, fun hk => ⟨by omega, hzero hk⟩⟩

/-- The rest of a round. -/
theorem restAny {w0 u : World T} {n k : Nat} {a visited result : Ref} {seen : Nat → T} (hc : u.cancel = some k)
    (F : Fit w0 (uncut u) a result n) (hv : IsVec (u.heap visited) n)
    (mv : ∀ i, i < n → (u.heap visited).val i 0 = seen i)
    (nv : visited < u.next) (nr : result < u.next) (ov : w0.next ≤ visited) (oR : w0.next ≤ result) (oa : a < w0.next)
    (vr : visited ≠ result) (hg : n ≤ w0.gas) :
    ∃ w2 seen' c, (∀ (β : Type) (k : Ref → M T β), (Ops.elementWiseVectorAdd visited result .nil visited >>= fun _ =>
        M.copy result >>= fun f => M.clear result >>= fun _ => k f) u = k u.next w2) ∧
      (∀ q, q < w0.next → w2.heap q = u.heap q) ∧ w2.cancel = some c ∧ (k = 0 → c = 0) ∧
      (c = 0 ∨ ∀ i, i < n → seen' i = withLevel seen (fun i => (u.heap result).val i 0) i) ∧
      St w0 (uncut w2) n a visited result u.next (fun i => (u.heap result).val i 0) seen' := by
  have Fv : IsVec (u.heap result) n := F.vec
  have Fg : u.gas = w0.gas := F.gas
  have hE : ∀ c, Ops.elementWiseVectorAdd visited result .nil visited { u with cancel := c } =
      Ops.elementWiseAdd visited result .nil visited { u with cancel := c } := by
    intro c
    have : (u.heap result).rows = (u.heap visited).rows := by rw [Fv.rows, hv.rows]
    unfold Ops.elementWiseVectorAdd
    rw [bind_apply]; simp only [rowsOf]; rw [bind_apply]; simp only [rowsOf]; simp [this]
  have run : ∀ c', ∃ m' c, Ops.elementWiseVectorAdd visited result .nil visited { u with cancel := c' } =
      .ok () (u.upd visited m' c) ∧ m'.WF ∧ Mat.Same m' (u.heap visited) ∧ (c' = none → c = none ∧
        ∀ i, i < n → m'.val i 0 = withLevel seen (fun i => (u.heap result).val i 0) i) := by
    intro c'
    obtain ⟨vis, c1, e1, e2, e3, e4, -⟩ := Ops.eAdd_ok (w := { u with cancel := c' }) (s := visited) (m := result)
      (out := visited) (mask := .nil)
      hv.wf Fv.wf hv.wf (by rw [hv.kind]; simp) ⟨rfl, rfl⟩
      (by rw [SameShape, Fv.rows, Fv.cols, hv.rows, hv.cols]; exact ⟨rfl, rfl⟩) trivial trivial
      (by simp) (by rw [hv.nvalues]; show n ≤ u.gas; rw [Fg]; exact hg) (by rw [Fv.nvalues]; show n ≤ u.gas; rw [Fg]; exact hg)
    refine ⟨vis, c1, (hE c').trans e1, e2, e3, fun hn => ?_⟩
    obtain ⟨h1, h2⟩ := e4 hn
    refine ⟨h1, fun i hi => ?_⟩
    rw [h2 i 0 (by rw [hv.rows]; exact hi) (by rw [hv.cols]; exact Nat.one_pos)]
    simp only [Ops.eAddNew, Mask.bit, ne_eq, not_true, false_and, if_false, Ne.symm vr,
      not_false_iff, true_and, Bool.false_eq_true, Mat.keep_lawful, withLevel, mv i hi]
    cases hz : isZero ((u.heap result).val i 0) <;> simp
  obtain ⟨vis, c1, e1, e2, e3, -⟩ := run (some k)
  obtain ⟨vis', c2, f1, -, -, f4⟩ := run none
  obtain ⟨rfl, f5⟩ := f4 rfl
  rw [cut_self hc] at e1
  have hvis := hv.same e2 e3
  have hcase := cut_cases (op := .eAddVector visited result) (mask := .nil) (out := visited) hc e1 f1
  obtain ⟨c, rfl, hc0, hcv⟩ : ∃ c, c1 = some c ∧ (k = 0 → c = 0) ∧
      (c = 0 ∨ ∀ i, i < n → vis.val i 0 = withLevel seen (fun i => (u.heap result).val i 0) i) := by
    rcases hcase with rfl | ⟨rfl, l, rfl⟩
    · exact ⟨0, rfl, fun _ => rfl, Or.inl rfl⟩
    · exact ⟨_, rfl, fun h => by omega, Or.inr f5⟩
  set v := u.heap result with hvdef
  set w1 := u.upd visited vis (some c) with hw1
  have e1r : w1.heap result = v := by rw [hw1, World.upd_ne _ _ _ (Ne.symm vr)]
  have hcp : M.copy result w1 = .ok u.next { w1 with heap := Function.update w1.heap u.next v, next := u.next + 1 } := by
    unfold M.copy
    rw [bind_ok (ofObj_ok (p := result) (w := w1) (f := Mat.copy) (a := v) (by rw [e1r]; exact Mat.copy_ok Fv.wf))]
    rfl
  set w2 : World T := { w1 with heap := Function.update w1.heap u.next v, next := u.next + 1 } with hw2
  set w3 : World T := { w2 with heap := Function.update w2.heap result (w2.heap result).clear } with hw3
  have nr' : result ≠ u.next := Nat.ne_of_lt nr
  have nv' : visited ≠ u.next := Nat.ne_of_lt nv
  have e2r : w2.heap result = v := by
    rw [hw2]; simp only [Function.update_of_ne nr']; exact e1r
  have e3r : w3.heap result = v.clear := by rw [hw3]; simp only [Function.update_self]; rw [e2r]
  have e3v : w3.heap visited = vis := by
    rw [hw3]; simp only [Function.update_of_ne vr]
    rw [hw2]; simp only [Function.update_of_ne nv']
    rw [hw1, World.upd_out]
  have e3f : w3.heap u.next = v := by
    rw [hw3]; simp only [Function.update_of_ne (Ne.symm nr')]
    rw [hw2]; simp
  have lt : w0.next ≤ u.next := Nat.le_of_lt (Nat.lt_of_le_of_lt ov nv)
  have e3o : ∀ q, q < w0.next → w3.heap q = u.heap q := by
    intro q hq
    rw [hw3]; simp only [Function.update_of_ne (Nat.ne_of_lt (Nat.lt_of_lt_of_le hq oR))]
    rw [hw2]; simp only [Function.update_of_ne (Nat.ne_of_lt (Nat.lt_of_lt_of_le hq lt))]
    rw [hw1, World.upd_ne _ _ _ (Nat.ne_of_lt (Nat.lt_of_lt_of_le hq ov))]
  obtain ⟨c1, c2, c3⟩ := Mat.clear_ok v
  refine ⟨w3, fun i => vis.val i 0, c, ?_, e3o, rfl, hc0, hcv, ?_⟩
  · intro β k
    rw [bind_ok e1, bind_ok hcp]
    rw [bind_ok (show M.clear result w2 = .ok () w3 from rfl)]
  · exact
    { fit :=
        { net := by show Net (w3.heap a) n; rw [e3o a oa]; exact F.net
          vec := by show IsVec (w3.heap result) n; rw [e3r]; exact Fv.same c1 c2
          cancel := rfl
          gas := F.gas }
      hv := by show IsVec (w3.heap visited) n; rw [e3v]; exact hvis
      hf := by show IsVec (w3.heap u.next) n; rw [e3f]; exact Fv
      mv := fun i hi => by show (w3.heap visited).val i 0 = _; rw [e3v]
      mr := fun i hi => by
        show (w3.heap result).val i 0 = _
        rw [e3r]
        exact c3 i 0 (by rw [Fv.rows]; exact hi) (by rw [Fv.cols]; exact Nat.one_pos)
      mf := fun i hi => by show (w3.heap u.next).val i 0 = _; rw [e3f]
      nv := Nat.lt_succ_of_lt nv
      nr := Nat.lt_succ_of_lt nr
      nf := Nat.lt_succ_self _
      ov := ov
      oR := oR
      oF := lt
      oa := oa
      vr := vr
      fr := Ne.symm nr'
      fv := Ne.symm nv' }

/-- What happens before the loop; the context is not looked at. -/
theorem startCut {w : World T} {a : Ref} {s n : Nat} (han : a < w.next) (hN : Net (w.heap a) n) (hs : s < n) :
    ∃ w3 frontier visited result, (∀ c, search a s c w =
        (turns a visited result c n frontier [] >>= fun tr => pure (result, tr)) w3) ∧
      (∀ q, q < w.next → w3.heap q = w.heap q) ∧ w3.cancel = w.cancel ∧
      St w (uncut w3) n a visited result frontier (fun i => if i = s then 1 else 0) (fun i => if i = s then 1 else 0) := by
  have hr := hN.rows
  subst hr
  set n := (w.heap a).rows with hn
  set v0 : DVec T := { l := n, values := (List.replicate n 0).set s 1 } with hv0
  have hnw : (DVec.new n : DVec T).WF := DVec.wf_new n
  have hset : (DVec.new n : DVec T).setVec s 1 = .ok v0 := by
    rw [DVec.setVec_ok hnw (by exact hs)]; rfl
  have hv0w : v0.WF := DVec.setVec_wf (i := s) (v := 1) hnw
  have hcell : ∀ i, i < n → (Mat.dvec v0).val i 0 = if i = s then 1 else 0 := by
    intro i hi
    rw [Mat.val_dvec hv0w (by exact hi)]
    have := DVec.setVec_cell hnw (i := s) (by exact hs) 1 i
    rw [DVec.cell_new] at this
    exact this
  set w1 : World T := { w with heap := Function.update w.heap w.next (.dvec v0), next := w.next + 1 } with hw1
  set w2 : World T := { w1 with heap := Function.update w1.heap w1.next (.dvec v0), next := w1.next + 1 } with hw2
  set w3 : World T := { w2 with heap := Function.update w2.heap w2.next (.dvec (DVec.new n)), next := w2.next + 1 } with hw3
  have lt1 : w.next < w.next + 1 := Nat.lt_succ_self _
  have lt2 : w.next + 1 < w.next + 1 + 1 := Nat.lt_succ_self _
  have lt3 : w.next + 1 + 1 < w.next + 1 + 1 + 1 := Nat.lt_succ_self _
  have e1 : w1.heap w.next = .dvec v0 := by rw [hw1]; simp
  have hcopy : M.copy w.next w1 = .ok w1.next w2 := by
    unfold M.copy
    rw [bind_ok (ofObj_ok (p := w.next) (w := w1) (f := Mat.copy) (a := .dvec v0)
      (by rw [e1]; exact Mat.copy_ok hv0w))]
    rfl
  have eR : w3.heap w2.next = .dvec (DVec.new n) := by rw [hw3]; simp
  have eV : w3.heap w1.next = .dvec v0 := by
    rw [hw3]; simp only [Function.update_of_ne (Nat.ne_of_lt lt2)]
    rw [hw2]; simp
  have eF : w3.heap w.next = .dvec v0 :=
    (Function.update_of_ne (Nat.ne_of_lt (Nat.lt_trans lt1 lt2)) _ _).trans
      ((Function.update_of_ne (Nat.ne_of_lt lt1) _ _).trans e1)
  have eO : ∀ q, q < w.next → w3.heap q = w.heap q := fun q hq =>
    (Function.update_of_ne (Nat.ne_of_lt (Nat.lt_trans hq (Nat.lt_trans lt1 lt2))) _ _).trans
      ((Function.update_of_ne (Nat.ne_of_lt (Nat.lt_trans hq lt1)) _ _).trans
        (Function.update_of_ne (Nat.ne_of_lt hq) _ _))
  have hrun : ∀ c, search a s c w = (turns a w1.next w2.next c n w.next [] >>= fun tr => pure (w2.next, tr)) w3 := by
    intro c
    unfold search
    rw [bind_ok (show rowsOf a w = .ok n w from rfl)]
    rw [bind_ok (show M.lift ((DVec.new n).setVec s 1) w = .ok v0 w by unfold M.lift; rw [hset])]
    rw [bind_ok (show alloc (.dvec v0) w = .ok w.next w1 from rfl)]
    rw [bind_ok hcopy]
    rw [bind_ok (show alloc (.dvec (DVec.new n)) w2 = .ok w2.next w3 from rfl)]
  have vec0 : IsVec (Mat.dvec v0) n := ⟨hv0w, rfl, rfl⟩
  refine ⟨w3, w.next, w1.next, w2.next, hrun, eO, rfl, ?_⟩
  exact
    { fit := ⟨by show Net (w3.heap a) _; rw [eO a han]; exact hN, by show IsVec (w3.heap _) _; rw [eR]; exact ⟨hnw, rfl, rfl⟩, rfl, rfl⟩
      hv := by show IsVec (w3.heap _) _; rw [eV]; exact vec0
      hf := by show IsVec (w3.heap _) _; rw [eF]; exact vec0
      mv := fun i hi => by show (w3.heap _).val _ _ = _; rw [eV, hcell i hi]
      mr := fun i hi => by show (w3.heap _).val _ _ = _; rw [eR, Mat.val_dvec hnw (by exact hi), DVec.cell_new]
      mf := fun i hi => by show (w3.heap _).val _ _ = _; rw [eF, hcell i hi]
      nv := Nat.lt_trans lt2 lt3
      nr := lt3
      nf := Nat.lt_trans lt1 (Nat.lt_trans lt2 lt3)
      ov := Nat.le_of_lt lt1
      oR := Nat.le_of_lt (Nat.lt_trans lt1 lt2)
      oF := Nat.le_refl _
      oa := han
      vr := Nat.ne_of_lt lt2
      fr := Nat.ne_of_lt (Nat.lt_trans lt1 lt2)
      fv := Nat.ne_of_lt lt1 }

/-- The vectors the predicate is given when the context is cancelled during round `m`. -/
def TraceCut (W : Nat → Nat → T) (E : Nat → Nat → Prop) (n s m : Nat) (tr : List (Mat T)) : Prop :=
  ∀ j (hj : j < tr.length), IsVec tr[j] n ∧ (j < m → LevelF W E n s (j + 1) (fun i => tr[j].val i 0)) ∧
    (j = m → ∀ i, i < n → tr[j].val i 0 = 0 ∨ (Dist E s (j + 1) i ∧ tr[j].val i 0 = walkSum W n s (j + 1) i)) ∧
    (m < j → ∀ i, i < n → tr[j].val i 0 = 0)

theorem TraceCut.snoc {W : Nat → Nat → T} {E : Nat → Nat → Prop} {n s m : Nat} {tr : List (Mat T)} {v : Mat T}
    (h : TraceCut W E n s m tr) (hv : IsVec v n)
    (h1 : tr.length < m → LevelF W E n s (tr.length + 1) (fun i => v.val i 0))
    (h2 : tr.length = m → ∀ i, i < n → v.val i 0 = 0 ∨ (Dist E s (tr.length + 1) i ∧ v.val i 0 = walkSum W n s (tr.length + 1) i))
    (h3 : m < tr.length → ∀ i, i < n → v.val i 0 = 0) : TraceCut W E n s m (tr ++ [v]) := by
  intro j hj
  rcases Nat.lt_or_ge j tr.length with hlt | hge
  · rw [List.getElem_append_left hlt]; exact h j hlt
  · have hje : j = tr.length := by simp at hj; omega
    subst hje
    simp only [List.getElem_append_right (le_refl _), Nat.sub_self, List.getElem_cons_zero]
    exact ⟨hv, h1, h2, h3⟩

theorem TraceCut.mono {W : Nat → Nat → T} {E : Nat → Nat → Prop} {n s m m' : Nat} {tr : List (Mat T)}
    (h : TraceCut W E n s m tr) (h1 : tr.length ≤ m) (h2 : tr.length ≤ m') : TraceCut W E n s m' tr := by
  intro j hj
  obtain ⟨a, b, -, -⟩ := h j hj
  exact ⟨a, fun _ => b (by omega), fun e => by omega, fun e => by omega⟩

/-- The whole loop. -/
theorem turns_cut {w0 : World T} {A : Mat T} {n s : Nat} {a visited result : Ref} {W : Nat → Nat → T} {E : Nat → Nat → Prop}
    (hA : w0.heap a = A) (hcols : A.cols = n) (hW : ∀ l r, W l r = A.val r l) (hE : ∀ l r, E l r ↔ l < n ∧ r < n ∧ W l r ≠ 0)
    (hz : GoNum.glt (0 : T) 0 = false) (hp : ∀ k i, i < n → Dist E s k i → GoNum.glt 0 (walkSum W n s k i) = true)
    (hn : 0 < n) (hg : n ≤ w0.gas) (c : List (Mat T) → Bool) :
    ∀ (r : Nat) (w : World T) (k : Nat) (frontier : Ref) (f seen : Nat → T) (tr : List (Mat T)),
      St w0 (uncut w) n a visited result frontier f seen → w.cancel = some k →
      (∀ q, q < w0.next → w.heap q = w0.heap q) →
      ((TraceCut W E n s tr.length tr ∧ LevelF W E n s tr.length f ∧ SeenF W E n s tr.length seen) ∨
        (k = 0 ∧ ∃ m, m ≤ tr.length ∧ TraceCut W E n s m tr)) →
      (∀ j, j < tr.length → c (tr.take (j + 1)) = false) →
      ∃ tr' w' m, turns a visited result c r frontier tr w = .ok tr' w' ∧ tr.length ≤ tr'.length ∧
        tr'.length ≤ tr.length + r ∧ TraceCut W E n s m tr' ∧
        (∀ j, j + 1 < tr'.length → c (tr'.take (j + 1)) = false) ∧
        (∀ q, q < w0.next → w'.heap q = w0.heap q) ∧
        (k = 0 → (∀ v ∈ tr, ∀ i, i < n → v.val i 0 = 0) → ∀ v ∈ tr', ∀ i, i < n → v.val i 0 = 0) ∧
        ((tr.length < tr'.length ∧ c tr' = true ∧ tr'.getLast? = some (w'.heap result)) ∨
         (tr'.length = tr.length + r ∧ (∀ j, j < tr'.length → c (tr'.take (j + 1)) = false) ∧
          IsVec (w'.heap result) n ∧ ∀ i, i < n → (w'.heap result).val i 0 = 0)) := by
  intro r
  induction r with
  | zero =>
    intro w k frontier f seen tr h hc ho hP hq
    obtain ⟨m, hm⟩ : ∃ m, TraceCut W E n s m tr := by
      rcases hP with ⟨h1, -⟩ | ⟨-, m, -, h1⟩ <;> exact ⟨_, h1⟩
    exact ⟨tr, w, m, rfl, le_refl _, le_refl _, hm, fun j hj => hq j (by omega), ho, fun _ h => h,
      Or.inr ⟨rfl, hq, h.fit.vec, h.mr⟩⟩
  | succ r ih =>
    intro w k frontier f seen tr h hc ho hP hq
    obtain ⟨v, k1, e1, hv, p1, p2, p3⟩ := h.mulAny hc hn
    have hAw : w.heap a = A := (ho a h.oa).trans hA
    have hnext : ∀ i, nextLevel (w.heap a) f seen i =
        if GoNum.glt 0 (seen i) then 0 else ∑ l ∈ Finset.range n, W l i * f l := by
      intro i
      unfold nextLevel
      rw [hAw, hcols]
      split
      · rfl
      · exact Finset.sum_congr rfl fun l _ => by rw [hW]
    have hP1 : (TraceCut W E n s (tr ++ [v]).length (tr ++ [v]) ∧ LevelF W E n s (tr.length + 1) (fun i => v.val i 0) ∧
        SeenF W E n s tr.length seen) ∨ (k1 = 0 ∧ ∃ m, m ≤ (tr ++ [v]).length ∧ TraceCut W E n s m (tr ++ [v])) := by
      rcases hP with ⟨h1, h2, h3⟩ | ⟨rfl, m, hm, h1⟩
      · have hL := h2.step hE hz h3 hp
        rcases p2 with rfl | p2
        · right
          refine ⟨rfl, tr.length, by simp, h1.snoc hv (fun h => absurd h (lt_irrefl _)) (fun _ i hi => ?_)
            (fun h => absurd h (lt_irrefl _))⟩
          rcases p1 i hi with h' | h'
          · exact Or.inl h'
          · rw [hnext] at h'
            by_cases hd : Dist E s (tr.length + 1) i
            · exact Or.inr ⟨hd, h'.trans ((hL i hi).1 hd)⟩
            · exact Or.inl (h'.trans ((hL i hi).2 hd))
        · left
          have hLv : LevelF W E n s (tr.length + 1) (fun i => v.val i 0) := by
            intro i hi
            have := hL i hi
            simp only [p2 i hi, hnext]
            exact this
          refine ⟨(h1.mono (le_refl _) (by simp)).snoc hv (fun _ => hLv) (fun h => by simp at h) (fun h => by simp at h),
            hLv, h3⟩
      · right
        obtain ⟨hk1, hv0⟩ := p3 rfl
        refine ⟨hk1, m, by simp; omega, h1.snoc hv (fun h => absurd h (by omega)) (fun _ i hi => Or.inl (hv0 i hi))
          (fun _ => hv0)⟩
    have hzr : k = 0 → (∀ v ∈ tr, ∀ i, i < n → v.val i 0 = 0) → ∀ u ∈ tr ++ [v], ∀ i, i < n → u.val i 0 = 0 := by
      intro hk ht u hu
      rcases List.mem_append.1 hu with hu | hu
      · exact ht u hu
      · obtain rfl := List.mem_singleton.1 hu
        exact (p3 hk).2
    have hq' : ∀ j, j < tr.length → c ((tr ++ [v]).take (j + 1)) = false := by
      intro j hj
      rw [List.take_append_of_le_length (by omega)]
      exact hq j hj
    set w1 := w.upd result v (some k1) with hw1
    have e1r : w1.heap result = v := World.upd_out ..
    have e1o : ∀ q, q ≠ result → w1.heap q = w.heap q := fun q hq => World.upd_ne _ _ _ hq
    have ho1 : ∀ q, q < w0.next → w1.heap q = w0.heap q := fun q hq =>
      (e1o q (Nat.ne_of_lt (Nat.lt_of_lt_of_le hq h.oR))).trans (ho q hq)
    have hl : look result w1 = .ok v w1 := by unfold look; rw [e1r]
    rw [turns, bind_ok e1, bind_ok hl]
    by_cases hb : c (tr ++ [v]) = true
    · obtain ⟨m, hm⟩ : ∃ m, TraceCut W E n s m (tr ++ [v]) := by
        rcases hP1 with ⟨h1, -⟩ | ⟨-, m, -, h1⟩ <;> exact ⟨_, h1⟩
      refine ⟨tr ++ [v], w1, m, by rw [if_pos hb]; rfl, by simp, by simp, hm, fun j hj => hq' j (by simpa using hj), ho1, hzr,
        Or.inl ⟨by simp, hb, by rw [e1r]; simp⟩⟩
    · rw [if_neg hb]
      have ev : w1.heap visited = w.heap visited := e1o _ h.vr
      have F1 : Fit w0 (uncut w1) a result n :=
        ⟨by show Net (w1.heap a) n; rw [e1o a (Nat.ne_of_lt (Nat.lt_of_lt_of_le h.oa h.oR))]; exact h.fit.net,
          by show IsVec (w1.heap result) n; rw [e1r]; exact hv, rfl, h.fit.gas⟩
      obtain ⟨w2, seen', k2, g1, g2, g3, g4, g5, g6⟩ := restAny (u := w1) (k := k1) (seen := seen) rfl F1
        (by rw [ev]; exact h.hv) (by rw [ev]; exact h.mv) h.nv h.nr h.ov h.oR h.oa h.vr hg
      rw [g1]
      have hP2 : (TraceCut W E n s (tr ++ [v]).length (tr ++ [v]) ∧
          LevelF W E n s (tr ++ [v]).length (fun i => (w1.heap result).val i 0) ∧
          SeenF W E n s (tr ++ [v]).length seen') ∨ (k2 = 0 ∧ ∃ m, m ≤ (tr ++ [v]).length ∧ TraceCut W E n s m (tr ++ [v])) := by
        rcases hP1 with ⟨h1, h2, h3⟩ | ⟨hk, h1⟩
        · rcases g5 with rfl | g5
          · exact Or.inr ⟨rfl, _, le_refl _, h1⟩
          · left
            rw [e1r] at g5 ⊢
            refine ⟨h1, by simpa using h2, ?_⟩
            have := SeenF.step h2 h3
            intro i hi
            simp only [List.length_append, List.length_singleton]
            rw [g5 i hi]
            exact this i hi
        · exact Or.inr ⟨g4 hk, h1⟩
      have hq2 : ∀ j, j < (tr ++ [v]).length → c ((tr ++ [v]).take (j + 1)) = false := by
        intro j hj
        rcases Nat.lt_or_ge j tr.length with hlt | hge
        · exact hq' j hlt
        · have hje : j = tr.length := by simp at hj; omega
          subst hje
          rw [List.take_of_length_le (by simp)]
          simpa using hb
      obtain ⟨tr', w', m, i1, i2, i3, i4, i5, i6, i8, i7⟩ := ih w2 k2 w.next _ seen' (tr ++ [v]) g6 g3
        (fun q hq => (g2 q hq).trans (ho1 q hq)) hP2 hq2
      simp only [List.length_append, List.length_singleton] at i2 i3 i7
      refine ⟨tr', w', m, i1, by omega, by omega, i4, i5, i6,
        fun hk ht => i8 (g4 (p3 hk).1) (hzr hk ht), ?_⟩
      rcases i7 with ⟨j1, j2⟩ | ⟨j1, j2⟩
      · exact Or.inl ⟨by omega, j2⟩
      · exact Or.inr ⟨by omega, j2⟩

end BFS
end GB
