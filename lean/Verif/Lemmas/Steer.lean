import Verif.Model.Steer
import Verif.SpecSteer
import Verif.Lemmas.BFS

/-!
# The loop of the search with any predicate
-/

namespace GB

set_option linter.unusedSectionVars false

namespace BFS
open M

variable {T : Type} [GoRing T] [GoLawful T]

/-- The graph is still one the search can go on with. -/
structure Net (A : Mat T) (n : Nat) : Prop where
  wf : A.WF
  rows : A.rows = n
  cols : A.cols = n
  fit : A.RowsFit

/-- The state the predicate is called in, and has to leave. -/
structure Fit (w0 w : World T) (a p : Ref) (n : Nat) : Prop where
  net : Net (w.heap a) n
  vec : IsVec (w.heap p) n
  cancel : w.cancel = none
  gas : w.gas = w0.gas

/-- State of the search between two rounds. -/
structure St (w0 w : World T) (n : Nat) (a visited result frontier : Ref) (f seen : Nat → T) : Prop where
  fit : Fit w0 w a result n
  hv : IsVec (w.heap visited) n
  hf : IsVec (w.heap frontier) n
  mv : ∀ i, i < n → (w.heap visited).val i 0 = seen i
  mr : ∀ i, i < n → (w.heap result).val i 0 = 0
  mf : ∀ i, i < n → (w.heap frontier).val i 0 = f i
  nv : visited < w.next
  nr : result < w.next
  nf : frontier < w.next
  ov : w0.next ≤ visited
  oR : w0.next ≤ result
  oF : w0.next ≤ frontier
  oa : a < w0.next
  vr : visited ≠ result
  fr : frontier ≠ result
  fv : frontier ≠ visited

theorem nextLevel_congr {A : Mat T} {f g seen seen' : Nat → T} {i : Nat} (hs : seen i = seen' i)
    (hf : ∀ l, l < A.cols → f l = g l) : nextLevel A f seen i = nextLevel A g seen' i := by
  unfold nextLevel
  rw [hs]
  split
  · rfl
  · exact Finset.sum_congr rfl fun l hl => by rw [hf l (Finset.mem_range.1 hl)]

/-- The multiplication of a round. -/
theorem St.mul {w0 w : World T} {n : Nat} {a visited result frontier : Ref} {f seen : Nat → T}
    (h : St w0 w n a visited result frontier f seen) :
    ∃ v, Ops.matrixVectorMultiply a frontier (.ref visited) result w = .ok () (w.upd result v none) ∧
      IsVec v n ∧ ∀ i, i < n → v.val i 0 = nextLevel (w.heap a) f seen i := by
  have N := h.fit.net
  have R := h.fit.vec
  have hm := C20_multiply_partial (w := w) (s := a) (m := frontier) (out := result) (mask := .ref visited)
    N.wf h.hf.wf R.wf (by rw [R.kind]; simp)
    (by rw [h.hf.rows, N.cols]) (by rw [N.rows, R.rows]) (by rw [R.cols, h.hf.cols])
    (by rw [Mask.Fits, h.hv.rows, h.hv.cols, R.rows, R.cols]; exact ⟨rfl, rfl⟩)
    (Mat.WF.inv h.hv.wf) h.fr N.fit (Mat.fit_dense (by rw [h.hf.kind]; simp)).2
  obtain ⟨v, c, e1, e2, e3, e4, -⟩ := hm
  obtain ⟨rfl, e5⟩ := e4 h.fit.cancel
  have hv := R.same e2 e3
  refine ⟨v, e1, hv, fun i hi => ?_⟩
  have hval := e5 i 0 (by rw [hv.rows]; exact hi) (by rw [hv.cols]; exact Nat.one_pos)
  rw [hval]
  simp only [Mask.bit, h.mr i hi, h.mv i hi]
  unfold nextLevel
  split
  · rfl
  · refine Finset.sum_congr rfl fun l hl => ?_
    rw [h.mf l (by rw [← N.cols]; exact Finset.mem_range.1 hl)]

/-- The rest of a round, in the state the predicate left. -/
theorem rest_ok {w0 u : World T} {n : Nat} {a visited result : Ref} {seen : Nat → T}
    (F : Fit w0 u a result n) (hv : IsVec (u.heap visited) n) (mv : ∀ i, i < n → (u.heap visited).val i 0 = seen i)
    (nv : visited < u.next) (nr : result < u.next) (ov : w0.next ≤ visited) (oR : w0.next ≤ result) (oa : a < w0.next)
    (vr : visited ≠ result) (hg : n ≤ w0.gas) :
    ∃ w2, (∀ (β : Type) (k : Ref → M T β), (Ops.elementWiseVectorAdd visited result .nil visited >>= fun _ =>
        M.copy result >>= fun f => M.clear result >>= fun _ => k f) u = k u.next w2) ∧
      (∀ q, q < w0.next → w2.heap q = u.heap q) ∧
      St w0 w2 n a visited result u.next (fun i => (u.heap result).val i 0)
        (withLevel seen fun i => (u.heap result).val i 0) := by
  have hE : Ops.elementWiseVectorAdd visited result .nil visited u = Ops.elementWiseAdd visited result .nil visited u := by
    have : (u.heap result).rows = (u.heap visited).rows := by rw [F.vec.rows, hv.rows]
    unfold Ops.elementWiseVectorAdd
    rw [bind_apply]; simp only [rowsOf]; rw [bind_apply]; simp only [rowsOf]; simp [this]
  obtain ⟨vis, c1, e1, e2, e3, e4, -⟩ := Ops.eAdd_ok (w := u) (s := visited) (m := result) (out := visited) (mask := .nil)
    hv.wf F.vec.wf hv.wf (by rw [hv.kind]; simp) ⟨rfl, rfl⟩
    (by rw [SameShape, F.vec.rows, F.vec.cols, hv.rows, hv.cols]; exact ⟨rfl, rfl⟩) trivial trivial
    (by simp) (by rw [hv.nvalues, F.gas]; exact hg) (by rw [F.vec.nvalues, F.gas]; exact hg)
  obtain ⟨rfl, e5⟩ := e4 F.cancel
  have hvis := hv.same e2 e3
  set v := u.heap result with hvdef
  set w1 := u.upd visited vis none with hw1
  have e1r : w1.heap result = v := by rw [hw1, World.upd_ne _ _ _ (Ne.symm vr)]
  have hc : M.copy result w1 = .ok u.next { w1 with heap := Function.update w1.heap u.next v, next := u.next + 1 } := by
    unfold M.copy
    rw [bind_ok (ofObj_ok (p := result) (w := w1) (f := Mat.copy) (a := v) (by rw [e1r]; exact Mat.copy_ok F.vec.wf))]
    rfl
  set w2 : World T := { w1 with heap := Function.update w1.heap u.next v, next := u.next + 1 } with hw2
  set w3 : World T := { w2 with heap := Function.update w2.heap result (w2.heap result).clear } with hw3
  have nr' : result ≠ u.next := Nat.ne_of_lt nr
  have nv' : visited ≠ u.next := Nat.ne_of_lt nv
  have e2r : w2.heap result = v := by
    rw [hw2]; simp only [Function.update_of_ne nr']; exact e1r
  have e3r : w3.heap result = v.clear := by rw [hw3]; simp only [Function.update_self]; rw [e2r]
  have e3v : w3.heap visited = vis := by
    rw [hw3]; simp only [Function.update_of_ne vr]
    rw [hw2]; simp only [Function.update_of_ne nv']
    rw [hw1, World.upd_out]
  have e3f : w3.heap u.next = v := by
    rw [hw3]; simp only [Function.update_of_ne (Ne.symm nr')]
    rw [hw2]; simp
  have lt : w0.next ≤ u.next := Nat.le_of_lt (Nat.lt_of_le_of_lt ov nv)
  have e3o : ∀ q, q < w0.next → w3.heap q = u.heap q := by
    intro q hq
    rw [hw3]; simp only [Function.update_of_ne (Nat.ne_of_lt (Nat.lt_of_lt_of_le hq oR))]
    rw [hw2]; simp only [Function.update_of_ne (Nat.ne_of_lt (Nat.lt_of_lt_of_le hq lt))]
    rw [hw1, World.upd_ne _ _ _ (Nat.ne_of_lt (Nat.lt_of_lt_of_le hq ov))]
  obtain ⟨c1, c2, c3⟩ := Mat.clear_ok v
  refine ⟨w3, ?_, e3o, ?_⟩
  · intro β k
    rw [bind_ok (hE.trans e1), bind_ok hc]
    rw [bind_ok (show M.clear result w2 = .ok () w3 from rfl)]
  · exact
    { fit :=
        { net := by rw [e3o a oa]; exact F.net
          vec := by rw [e3r]; exact F.vec.same c1 c2
          cancel := rfl
          gas := F.gas }
      hv := by rw [e3v]; exact hvis
      hf := by rw [e3f]; exact F.vec
      mv := by
        intro i hi
        rw [e3v, e5 i 0 (by rw [hv.rows]; exact hi) (by rw [hv.cols]; exact Nat.one_pos)]
        simp only [Ops.eAddNew, Mask.bit, ne_eq, not_true, false_and, if_false, Ne.symm vr,
          not_false_iff, true_and, Bool.false_eq_true, Mat.keep_lawful, withLevel, mv i hi]
        cases hz : isZero (v.val i 0) <;> simp [hz, ← hvdef]
      mr := by
        intro i hi; rw [e3r]
        exact c3 i 0 (by rw [F.vec.rows]; exact hi) (by rw [F.vec.cols]; exact Nat.one_pos)
      mf := by intro i hi; rw [e3f]
      nv := Nat.lt_succ_of_lt nv
      nr := Nat.lt_succ_of_lt nr
      nf := Nat.lt_succ_self _
      ov := ov
      oR := oR
      oF := lt
      oa := oa
      vr := vr
      fr := Ne.symm nr'
      fv := Ne.symm nv' }

/-- What is asked of a predicate called on the vector `p`: it leaves the graph a matrix of its shape that multiplication
reads right and the vector a vector of its length, does not cancel the context, and does not write the objects of the
search other than `p`, which it has no access to. It may panic or not return. -/
structure Civil (c : Ref → M T Bool) (w0 : World T) (a : Ref) (n : Nat) : Prop where
  fit : ∀ p w b u, Fit w0 w a p n → w0.next ≤ p → p < w.next → c p w = .ok b u → Fit w0 u a p n
  next : ∀ p w b u, Fit w0 w a p n → w0.next ≤ p → p < w.next → c p w = .ok b u → w.next ≤ u.next
  own : ∀ p w b u q, Fit w0 w a p n → w0.next ≤ p → p < w.next → c p w = .ok b u →
    w0.next ≤ q → q < w.next → q ≠ p → u.heap q = w.heap q

theorem turnsBy_ok {w0 : World T} {n : Nat} {a visited result : Ref} {c : Ref → M T Bool} (hc : Civil c w0 a n)
    (hg : n ≤ w0.gas) : ∀ (k : Nat) (w last : World T) (frontier : Ref) (f seen : Nat → T),
      St w0 w n a visited result frontier f seen → (∀ q, q < w0.next → w.heap q = last.heap q) →
      Rounds c a result w0.next n k f seen last
        ((turnsBy a visited result c k frontier >>= fun _ => (pure result : M T Ref)) w) := by
  intro k
  induction k with
  | zero =>
    intro w last frontier f seen h ho
    exact .over ho h.fit.vec.kind h.fit.vec.rows h.mr
  | succ k ih =>
    intro w last frontier f seen h ho
    obtain ⟨v, e1, hv, mv⟩ := h.mul
    set w1 := w.upd result v none with hw1
    have e1r : w1.heap result = v := World.upd_out ..
    have e1o : ∀ q, q ≠ result → w1.heap q = w.heap q := fun q hq => World.upd_ne _ _ _ hq
    have hA : ∀ q, q < w0.next → w1.heap q = w.heap q := fun q hq => e1o q (Nat.ne_of_lt (Nat.lt_of_lt_of_le hq h.oR))
    have F1 : Fit w0 w1 a result n :=
      ⟨by rw [hA a h.oa]; exact h.fit.net, by rw [e1r]; exact hv, rfl, h.fit.gas⟩
    have asked : Asked a result w0.next n f seen last w1 :=
      ⟨fun q hq => (hA q hq).trans (ho q hq), by rw [e1r]; exact hv.wf, by rw [e1r]; exact hv.kind, by rw [e1r]; exact hv.rows,
        fun i hi => by rw [e1r, mv i hi, ho a h.oa]⟩
    have hrun : (turnsBy a visited result c (k + 1) frontier >>= fun _ => (pure result : M T Ref)) w =
        (c result >>= fun b => (if b then (pure () : M T Unit) else
          (Ops.elementWiseVectorAdd visited result .nil visited >>= fun _ => M.copy result >>= fun f =>
            M.clear result >>= fun _ => turnsBy a visited result c k f)) >>= fun _ => (pure result : M T Ref)) w1 := by
      rw [turnsBy, bind_apply, bind_ok e1]
      rw [bind_apply, bind_apply]
      cases c result w1 <;> rfl
    rw [hrun, bind_apply]
    cases hcw : c result w1 with
    | panic u => exact .panics asked hcw
    | hang u => exact .hangs asked hcw
    | ok b u =>
      cases b with
      | true => exact .found asked hcw
      | false =>
        refine .next asked hcw ?_
        have hnx := hc.next _ _ _ _ F1 h.oR h.nr hcw
        have ev : u.heap visited = w.heap visited := by
          rw [hc.own _ _ _ _ visited F1 h.oR h.nr hcw h.ov h.nv h.vr, e1o _ h.vr]
        obtain ⟨w2, g1, g2, g3⟩ := rest_ok (hc.fit _ _ _ _ F1 h.oR h.nr hcw) (by rw [ev]; exact h.hv)
          (by rw [ev]; exact h.mv) (Nat.lt_of_lt_of_le h.nv hnx) (Nat.lt_of_lt_of_le h.nr hnx) h.ov h.oR h.oa h.vr hg
        have := ih w2 u u.next _ _ g3 g2
        have hrest : ((Ops.elementWiseVectorAdd visited result .nil visited >>= fun _ => M.copy result >>= fun f =>
            M.clear result >>= fun _ => turnsBy a visited result c k f) >>= fun _ => (pure result : M T Ref)) u =
            (turnsBy a visited result c k u.next >>= fun _ => (pure result : M T Ref)) w2 := by
          rw [bind_apply, g1, bind_apply]
        rw [← hrest] at this
        exact this

/-- The three vectors the search starts with. -/
theorem startBy {w : World T} {a : Ref} {s n : Nat} (han : a < w.next) (hN : Net (w.heap a) n) (hs : s < n)
    (hc : w.cancel = none) :
    ∃ w3 frontier visited result, (∀ c, searchBy a s c w =
        (turnsBy a visited result c n frontier >>= fun _ => (pure result : M T Ref)) w3) ∧
      (∀ q, q < w.next → w3.heap q = w.heap q) ∧
      St w w3 n a visited result frontier (fun i => if i = s then 1 else 0) (fun i => if i = s then 1 else 0) := by
  have hr := hN.rows
  subst hr
  set n := (w.heap a).rows with hn
  set v0 : DVec T := { l := n, values := (List.replicate n 0).set s 1 } with hv0
  have hnw : (DVec.new n : DVec T).WF := DVec.wf_new n
  have hset : (DVec.new n : DVec T).setVec s 1 = .ok v0 := by
    rw [DVec.setVec_ok hnw (by exact hs)]; rfl
  have hv0w : v0.WF := DVec.setVec_wf (i := s) (v := 1) hnw
  have hcell : ∀ i, i < n → (Mat.dvec v0).val i 0 = if i = s then 1 else 0 := by
    intro i hi
    rw [Mat.val_dvec hv0w (by exact hi)]
    have := DVec.setVec_cell hnw (i := s) (by exact hs) 1 i
    rw [DVec.cell_new] at this
    exact this
  set w1 : World T := { w with heap := Function.update w.heap w.next (.dvec v0), next := w.next + 1 } with hw1
  set w2 : World T := { w1 with heap := Function.update w1.heap w1.next (.dvec v0), next := w1.next + 1 } with hw2
  set w3 : World T := { w2 with heap := Function.update w2.heap w2.next (.dvec (DVec.new n)), next := w2.next + 1 } with hw3
  have lt1 : w.next < w.next + 1 := Nat.lt_succ_self _
  have lt2 : w.next + 1 < w.next + 1 + 1 := Nat.lt_succ_self _
  have lt3 : w.next + 1 + 1 < w.next + 1 + 1 + 1 := Nat.lt_succ_self _
  have e1 : w1.heap w.next = .dvec v0 := by rw [hw1]; simp
  have hcopy : M.copy w.next w1 = .ok w1.next w2 := by
    unfold M.copy
    rw [bind_ok (ofObj_ok (p := w.next) (w := w1) (f := Mat.copy) (a := .dvec v0)
      (by rw [e1]; exact Mat.copy_ok hv0w))]
    rfl
  have eR : w3.heap w2.next = .dvec (DVec.new n) := by rw [hw3]; simp
  have eV : w3.heap w1.next = .dvec v0 := by
    rw [hw3]; simp only [Function.update_of_ne (Nat.ne_of_lt lt2)]
    rw [hw2]; simp
  have eF : w3.heap w.next = .dvec v0 :=
    (Function.update_of_ne (Nat.ne_of_lt (Nat.lt_trans lt1 lt2)) _ _).trans
      ((Function.update_of_ne (Nat.ne_of_lt lt1) _ _).trans e1)
  have eO : ∀ q, q < w.next → w3.heap q = w.heap q := fun q hq =>
    (Function.update_of_ne (Nat.ne_of_lt (Nat.lt_trans hq (Nat.lt_trans lt1 lt2))) _ _).trans
      ((Function.update_of_ne (Nat.ne_of_lt (Nat.lt_trans hq lt1)) _ _).trans
        (Function.update_of_ne (Nat.ne_of_lt hq) _ _))
  have hrun : ∀ c, searchBy a s c w = (turnsBy a w1.next w2.next c n w.next >>= fun _ => (pure w2.next : M T Ref)) w3 := by
    intro c
    unfold searchBy
    rw [bind_ok (show rowsOf a w = .ok n w from rfl)]
    rw [bind_ok (show M.lift ((DVec.new n).setVec s 1) w = .ok v0 w by unfold M.lift; rw [hset])]
    rw [bind_ok (show alloc (.dvec v0) w = .ok w.next w1 from rfl)]
    rw [bind_ok hcopy]
    rw [bind_ok (show alloc (.dvec (DVec.new n)) w2 = .ok w2.next w3 from rfl)]
  have vec0 : IsVec (Mat.dvec v0) n := ⟨hv0w, rfl, rfl⟩
  refine ⟨w3, w.next, w1.next, w2.next, hrun, eO, ?_⟩
  exact
    { fit := ⟨by rw [eO a han]; exact hN, by rw [eR]; exact ⟨hnw, rfl, rfl⟩, hc, rfl⟩
      hv := by rw [eV]; exact vec0
      hf := by rw [eF]; exact vec0
      mv := fun i hi => by rw [eV, hcell i hi]
      mr := fun i hi => by rw [eR, Mat.val_dvec hnw (by exact hi), DVec.cell_new]
      mf := fun i hi => by rw [eF, hcell i hi]
      nv := Nat.lt_trans lt2 lt3
      nr := lt3
      nf := Nat.lt_trans lt1 (Nat.lt_trans lt2 lt3)
      ov := Nat.le_of_lt lt1
      oR := Nat.le_of_lt (Nat.lt_trans lt1 lt2)
      oF := Nat.le_refl _
      oa := han
      vr := Nat.ne_of_lt lt2
      fr := Nat.ne_of_lt (Nat.lt_trans lt1 lt2)
      fv := Nat.ne_of_lt lt1 }

/-- `f` holds the sums over the shortest walks at the vertices at distance `d`, 0 elsewhere. -/
def LevelF (W : Nat → Nat → T) (E : Nat → Nat → Prop) (n s d : Nat) (f : Nat → T) : Prop :=
  ∀ i, i < n → (Dist E s d i → f i = walkSum W n s d i) ∧ (¬ Dist E s d i → f i = 0)

/-- `f` holds the sums over the shortest walks at the vertices at distance at most `d`, 0 elsewhere. -/
def SeenF (W : Nat → Nat → T) (E : Nat → Nat → Prop) (n s d : Nat) (f : Nat → T) : Prop :=
  ∀ i, i < n → (∀ k, k ≤ d → Dist E s k i → f i = walkSum W n s k i) ∧ ((¬ ∃ k, k ≤ d ∧ Walk E s k i) → f i = 0)

theorem LevelF.step {W : Nat → Nat → T} {E : Nat → Nat → Prop} {n s d : Nat} {f seen : Nat → T}
    (hE : ∀ l r, E l r ↔ l < n ∧ r < n ∧ W l r ≠ 0) (hz : GoNum.glt (0 : T) 0 = false)
    (hf : LevelF W E n s d f) (hs : SeenF W E n s d seen)
    (hp : ∀ k i, i < n → Dist E s k i → GoNum.glt 0 (walkSum W n s k i) = true) :
    LevelF W E n s (d + 1) (fun i => if GoNum.glt 0 (seen i) then 0 else ∑ l ∈ Finset.range n, W l i * f l) := by
  intro i hi
  by_cases hs' : ∃ k, k ≤ d ∧ Walk E s k i
  · obtain ⟨k, hk, hd⟩ := (seen_dist d).1 hs'
    simp only [(hs i hi).1 k hk hd, hp k i hi hd, if_true]
    exact ⟨fun h' => absurd hs' (Dist.step.1 h').1, fun _ => trivial⟩
  · simp only [(hs i hi).2 hs', hz, Bool.false_eq_true, if_false]
    refine ⟨fun hd => ?_, fun hd => ?_⟩
    · rw [walkSum]
      refine Finset.sum_congr rfl fun l hl => ?_
      have hl := Finset.mem_range.1 hl
      by_cases hz : W l i = 0
      · rw [hz, zero_mul, zero_mul]
      · by_cases hdl : Dist E s d l
        · rw [(hf l hl).1 hdl]
        · have he : E l i := (hE l i).2 ⟨hl, hi, hz⟩
          have : walkSum W n s d l = 0 := by
            by_contra hne
            have hw := walk_of_walkSum (E := E) (fun u v hu hv hne => (hE u v).2 ⟨hu, hv, hne⟩) hl hne
            exact hdl ⟨hw, fun k hk hw' => hs' ⟨k + 1, hk, .succ hw' he⟩⟩
          rw [(hf l hl).2 hdl, this]
    · refine Finset.sum_eq_zero fun l hl => ?_
      have hl := Finset.mem_range.1 hl
      by_cases hz : W l i = 0
      · rw [hz, zero_mul]
      · rw [(hf l hl).2 (fun hdl => hd (Dist.step.2 ⟨hs', l, hdl, (hE l i).2 ⟨hl, hi, hz⟩⟩)), mul_zero]

theorem SeenF.step {W : Nat → Nat → T} {E : Nat → Nat → Prop} {n s d : Nat} {x seen : Nat → T}
    (hx : LevelF W E n s (d + 1) x) (hs : SeenF W E n s d seen) : SeenF W E n s (d + 1) (withLevel seen x) := by
  intro i hi
  unfold withLevel
  by_cases hd : Dist E s (d + 1) i
  · have hns := (Dist.step.1 hd).1
    have hk : (if isZero (x i) then seen i else x i) = x i := by
      split
      · rename_i hz
        rw [(hs i hi).2 hns, (isZero_iff _).1 hz]
      · rfl
    rw [hk, (hx i hi).1 hd]
    refine ⟨fun k _ hk => ?_, fun hc => absurd ⟨d + 1, le_refl _, hd.1⟩ hc⟩
    rw [hd.unique hk]
  · rw [(hx i hi).2 hd, if_pos ((isZero_iff _).2 rfl)]
    refine ⟨fun k hk hdk => ?_, fun hc => (hs i hi).2 (fun ⟨k, hk, hw⟩ => hc ⟨k, by omega, hw⟩)⟩
    refine (hs i hi).1 k ?_ hdk
    by_contra hlt
    obtain rfl : k = d + 1 := by omega
    exact hd hdk

end BFS
end GB
