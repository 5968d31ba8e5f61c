import Verif.Model.BFS
import Verif.SpecGraph
import Verif.Props.Multiply
import Verif.Props.EWise
import Mathlib.Data.Fintype.Card
import Mathlib.Algebra.Order.BigOperators.Group.Finset
import Mathlib.Algebra.Order.Ring.Defs
import Mathlib.Algebra.Order.Ring.Nat
import Mathlib.Data.Nat.Cast.Basic
import Mathlib.Algebra.BigOperators.Ring.Finset
import Mathlib.Data.Nat.Cast.Order.Basic

/-!
# The loop of the breadth-first search
-/

namespace GB

set_option linter.unusedSectionVars false

open M

theorem Dist.step {E : ℕ → ℕ → Prop} {s d v : ℕ} :
    Dist E s (d + 1) v ↔ (¬ ∃ k, k ≤ d ∧ Walk E s k v) ∧ ∃ u, Dist E s d u ∧ E u v := by
  constructor
  · rintro ⟨hw, hn⟩
    refine ⟨fun ⟨k, hk, h⟩ => hn k (by omega) h, ?_⟩
    cases hw with
    | @succ _ u _ h e =>
      exact ⟨u, ⟨h, fun k hk h' => hn (k + 1) (by omega) (.succ h' e)⟩, e⟩
  · rintro ⟨hn, u, ⟨hw, -⟩, e⟩
    exact ⟨.succ hw e, fun k hk h => hn ⟨k, by omega, h⟩⟩

theorem seen_step {E : ℕ → ℕ → Prop} {s d v : ℕ} :
    (∃ k, k ≤ d + 1 ∧ Walk E s k v) ↔ Dist E s (d + 1) v ∨ ∃ k, k ≤ d ∧ Walk E s k v := by
  constructor
  · rintro ⟨k, hk, h⟩
    by_cases hs : ∃ k, k ≤ d ∧ Walk E s k v
    · exact Or.inr hs
    · left
      obtain rfl : k = d + 1 := by
        by_contra hne
        exact hs ⟨k, by omega, h⟩
      exact ⟨h, fun k hk h => hs ⟨k, by omega, h⟩⟩
  · rintro (h | ⟨k, hk, h⟩)
    · exact ⟨d + 1, le_refl _, h.1⟩
    · exact ⟨k, by omega, h⟩

theorem Dist.unique {E : ℕ → ℕ → Prop} {s j k v : ℕ} (h : Dist E s j v) (h' : Dist E s k v) : j = k := by
  rcases Nat.lt_trichotomy j k with hlt | heq | hgt
  · exact absurd h.1 (h'.2 j hlt)
  · exact heq
  · exact absurd h'.1 (h.2 k hgt)

theorem seen_dist {E : ℕ → ℕ → Prop} {s v : ℕ} : ∀ d, (∃ k, k ≤ d ∧ Walk E s k v) ↔ ∃ k, k ≤ d ∧ Dist E s k v := by
  intro d
  induction d with
  | zero =>
    constructor
    · rintro ⟨k, hk, h⟩
      obtain rfl : k = 0 := by omega
      exact ⟨0, le_refl _, h, fun k hk => absurd hk (by omega)⟩
    · rintro ⟨k, hk, h⟩; exact ⟨k, hk, h.1⟩
  | succ d ih =>
    rw [seen_step, ih]
    constructor
    · rintro (h | ⟨k, hk, h⟩)
      · exact ⟨d + 1, le_refl _, h⟩
      · exact ⟨k, by omega, h⟩
    · rintro ⟨k, hk, h⟩
      rcases Nat.lt_or_ge d k with hlt | hge
      · obtain rfl : k = d + 1 := by omega
        exact Or.inl h
      · exact Or.inr ⟨k, hge, h⟩

/-- Distances are below the number of vertices. -/
theorem Dist.lt {E : ℕ → ℕ → Prop} {s n : ℕ} (hs : s < n) (hE : ∀ u v, E u v → v < n) {k v : ℕ}
    (h : Dist E s k v) : k < n := by
  have hlt : ∀ {k v}, Walk E s k v → v < n := by
    intro k v hw
    cases hw with
    | zero => exact hs
    | succ _ e => exact hE _ _ e
  have hall : ∀ k v, Dist E s k v → ∀ j, j ≤ k → ∃ u, Dist E s j u := by
    intro k
    induction k with
    | zero => intro v hv j hj; obtain rfl : j = 0 := by omega
              exact ⟨v, hv⟩
    | succ k ih =>
      intro v hv j hj
      rcases Nat.lt_or_ge k j with hl | hg
      · obtain rfl : j = k + 1 := by omega
        exact ⟨v, hv⟩
      · obtain ⟨u, hu, -⟩ := (Dist.step.1 hv).2
        exact ih u hu j hg
  by_contra hk
  have hx : ∀ j : Fin (n + 1), ∃ u : Fin n, Dist E s j u := by
    intro j
    obtain ⟨u, hu⟩ := hall k v h j (by omega)
    exact ⟨⟨u, hlt hu.1⟩, hu⟩
  choose f hf using hx
  have hinj : Function.Injective f := by
    intro x y hxy
    have h1 := hf x
    rw [hxy] at h1
    exact Fin.ext (h1.unique (hf y))
  have := Fintype.card_le_of_injective f hinj
  simp at this

/-- A sum over walks is 0 where there is no walk. -/
theorem walk_of_walkSum {T : Type} [Semiring T] {W : ℕ → ℕ → T} {E : ℕ → ℕ → Prop} {n s : ℕ}
    (hE : ∀ u v, u < n → v < n → W u v ≠ 0 → E u v) :
    ∀ {k v}, v < n → walkSum W n s k v ≠ 0 → Walk E s k v := by
  intro k
  induction k with
  | zero =>
    intro v _ h
    rw [walkSum] at h
    by_cases hv : v = s
    · subst hv; exact .zero
    · rw [if_neg hv] at h; exact absurd rfl h
  | succ k ih =>
    intro v hv h
    rw [walkSum] at h
    obtain ⟨u, hu, hne⟩ := Finset.exists_ne_zero_of_sum_ne_zero h
    have hu := Finset.mem_range.1 hu
    exact .succ (ih hu (right_ne_zero_of_mul hne)) (hE u v hu hv (left_ne_zero_of_mul hne))

namespace BFS

variable {T : Type} [GoRing T] [GoLawful T]

/-- A dense vector of length `n`. -/
structure IsVec (m : Mat T) (n : Nat) : Prop where
  wf : m.WF
  kind : m.kind = .dvec
  rows : m.rows = n

theorem IsVec.cols {m : Mat T} {n : Nat} (h : IsVec m n) : m.cols = 1 := by
  have := h.kind
  cases m <;> simp [Mat.kind] at this
  rfl

theorem IsVec.nvalues {m : Mat T} {n : Nat} (h : IsVec m n) : m.nvalues = n := by
  have h1 := h.kind
  have h2 := h.rows
  cases m <;> simp [Mat.kind] at h1
  exact h2

theorem IsVec.same {m m' : Mat T} {n : Nat} (h : IsVec m n) (hw : m'.WF) (hs : Mat.Same m' m) : IsVec m' n :=
  ⟨hw, by rw [hs.1, h.kind], by rw [hs.2.1, h.rows]⟩

/-- The graph of an `n × n` matrix: an edge from `l` to `r` when the cell `(r, l)` is not 0. -/
def Edge (m : Mat T) (l r : Nat) : Prop := l < m.cols ∧ r < m.rows ∧ m.val r l ≠ 0

/-- Sum over the walks of `k` edges from `src` to `v`. -/
def paths (A : Mat T) (src k v : Nat) : T := walkSum (fun u v => A.val v u) A.rows src k v

/-- The vector holds the sums over the shortest walks at the vertices at distance `d`, 0 elsewhere. -/
def Level (v A : Mat T) (src d : Nat) : Prop :=
  ∀ i, i < A.rows → (Dist (Edge A) src d i → v.val i 0 = paths A src d i) ∧ (¬ Dist (Edge A) src d i → v.val i 0 = 0)

/-- The vector holds the sums over the shortest walks at the vertices at distance at most `d`. -/
def Seen (v A : Mat T) (src d : Nat) : Prop :=
  ∀ i, i < A.rows → (∀ k, k ≤ d → Dist (Edge A) src k i → v.val i 0 = paths A src k i) ∧
    ((¬ ∃ k, k ≤ d ∧ Walk (Edge A) src k i) → v.val i 0 = 0)

/-- The sums over the shortest walks to the vertices at distance `k` are positive. -/
def Pos (A : Mat T) (src k : Nat) : Prop :=
  ∀ i, i < A.rows → Dist (Edge A) src k i → GoNum.glt 0 (paths A src k i) = true

/-- State of the search after `d` turns. -/
structure Inv (w0 w : World T) (A : Mat T) (src : Nat) (a visited result frontier : Ref) (d : Nat) : Prop where
  ha : w.heap a = A
  hv : IsVec (w.heap visited) A.rows
  hr : IsVec (w.heap result) A.rows
  hf : IsVec (w.heap frontier) A.rows
  mv : Seen (w.heap visited) A src d
  mr : ∀ i, i < A.rows → (w.heap result).val i 0 = 0
  mf : Level (w.heap frontier) A src d
  nv : visited < w.next
  nr : result < w.next
  nf : frontier < w.next
  ov : w0.next ≤ visited
  oR : w0.next ≤ result
  oa : a < w0.next
  vr : visited ≠ result
  fr : frontier ≠ result
  fv : frontier ≠ visited
  old : ∀ q, q < w0.next → w.heap q = w0.heap q
  nx : w0.next ≤ w.next
  cancel : w.cancel = none
  gas : w.gas = w0.gas
  reg : w.reg = w0.reg

/-- The condition the adjacency matrix has to meet. -/
structure Graph (A : Mat T) : Prop where
  wf : A.WF
  square : A.cols = A.rows
  fit : A.RowsFit
  zero : GoNum.glt (0 : T) 0 = false

/-- One multiplication yields the next level. -/
theorem mul_step {w0 w : World T} {A : Mat T} {src : Nat} {a visited result frontier : Ref} {d : Nat}
    (hA : Graph A) (h : Inv w0 w A src a visited result frontier d) (hp : ∀ k, k ≤ d → Pos A src k) :
    ∃ v, Ops.matrixVectorMultiply a frontier (.ref visited) result w = .ok () (w.upd result v none) ∧
      IsVec v A.rows ∧ Level v A src (d + 1) := by
  have hm := C20_multiply_partial (w := w) (s := a) (m := frontier) (out := result) (mask := .ref visited)
    (by rw [h.ha]; exact hA.wf) h.hf.wf h.hr.wf (by rw [h.hr.kind]; simp)
    (by rw [h.ha, h.hf.rows, hA.square]) (by rw [h.ha, h.hr.rows]) (by rw [h.hr.cols, h.hf.cols])
    (by rw [Mask.Fits, h.hv.rows, h.hv.cols, h.hr.rows, h.hr.cols]; exact ⟨rfl, rfl⟩)
    (Mat.WF.inv h.hv.wf) h.fr (by rw [h.ha]; exact hA.fit)
    (Mat.fit_dense (by rw [h.hf.kind]; simp)).2
  obtain ⟨v, c, e1, e2, e3, e4, -⟩ := hm
  obtain ⟨rfl, e5⟩ := e4 h.cancel
  have hv := h.hr.same e2 e3
  refine ⟨v, e1, hv, ?_⟩
  intro i hi
  have hval := e5 i 0 (by rw [hv.rows]; exact hi) (by rw [hv.cols]; exact Nat.one_pos)
  simp only [Mask.bit, h.mr i hi, h.ha] at hval
  by_cases hs : ∃ k, k ≤ d ∧ Walk (Edge A) src k i
  · obtain ⟨k, hk, hd⟩ := (seen_dist d).1 hs
    rw [(h.mv i hi).1 k hk hd, if_pos (hp k hk i hi hd)] at hval
    exact ⟨fun h' => absurd hs (Dist.step.1 h').1, fun _ => hval⟩
  · rw [(h.mv i hi).2 hs, if_neg (by rw [hA.zero]; simp)] at hval
    rw [hval]
    refine ⟨fun hd => ?_, fun hd => ?_⟩
    · rw [paths, walkSum, hA.square]
      refine Finset.sum_congr rfl fun l hl => ?_
      have hl := Finset.mem_range.1 hl
      by_cases hz : A.val i l = 0
      · rw [hz, zero_mul, zero_mul]
      · by_cases hdl : Dist (Edge A) src d l
        · rw [(h.mf l hl).1 hdl]; rfl
        · have he : Edge A l i := ⟨by rw [hA.square]; exact hl, hi, hz⟩
          have : paths A src d l = 0 := by
            by_contra hne
            have hw := walk_of_walkSum (E := Edge A) (fun u v hu hv hne => ⟨by rw [hA.square]; exact hu, hv, hne⟩) hl hne
            exact hdl ⟨hw, fun k hk hw' => hs ⟨k + 1, hk, .succ hw' he⟩⟩
          rw [(h.mf l hl).2 hdl]
          show _ = A.val i l * paths A src d l
          rw [this]
    · refine Finset.sum_eq_zero fun l hl => ?_
      have hl := Finset.mem_range.1 hl
      by_cases hz : A.val i l = 0
      · rw [hz, zero_mul]
      · rw [(h.mf l (by rw [← hA.square]; exact hl)).2 (fun hdl => hd (Dist.step.2 ⟨hs, l, hdl, hl, hi, hz⟩)), mul_zero]

/-- The rest of a turn. -/
theorem turn_step {w0 w : World T} {A : Mat T} {src : Nat} {a visited result frontier : Ref} {d : Nat}
    (h : Inv w0 w A src a visited result frontier d) {v : Mat T} (hv : IsVec v A.rows)
    (mv : Level v A src (d + 1)) (hg : A.rows ≤ w.gas) :
    ∃ vis, Ops.elementWiseVectorAdd visited result .nil visited (w.upd result v none) =
        .ok () ((w.upd result v none).upd visited vis none) ∧ IsVec vis A.rows ∧
      Seen vis A src (d + 1) := by
  set w1 := w.upd result v none with hw1
  have er : w1.heap result = v := World.upd_out ..
  have ev : w1.heap visited = w.heap visited := World.upd_ne _ _ _ h.vr
  have hE : Ops.elementWiseVectorAdd visited result .nil visited w1 = Ops.elementWiseAdd visited result .nil visited w1 := by
    have : (w1.heap result).rows = (w1.heap visited).rows := by rw [er, ev, hv.rows, h.hv.rows]
    unfold Ops.elementWiseVectorAdd
    rw [bind_apply]; simp only [rowsOf]; rw [bind_apply]; simp only [rowsOf]; simp [this]
  obtain ⟨m1, c1, e1, e2, e3, e4, -⟩ := Ops.eAdd_ok (w := w1) (s := visited) (m := result) (out := visited) (mask := .nil)
    (by rw [ev]; exact h.hv.wf) (by rw [er]; exact hv.wf) (by rw [ev]; exact h.hv.wf)
    (by rw [ev, h.hv.kind]; simp) ⟨rfl, rfl⟩
    (by rw [er, ev, SameShape, hv.rows, hv.cols, h.hv.rows, h.hv.cols]; exact ⟨rfl, rfl⟩) trivial trivial
    (by simp) (by rw [ev, h.hv.nvalues]; exact hg) (by rw [er, hv.nvalues]; exact hg)
  obtain ⟨rfl, e5⟩ := e4 rfl
  have hm1 := h.hv.same e2 (by rw [← ev]; exact e3)
  refine ⟨m1, by rw [hE]; exact e1, hm1, ?_⟩
  intro i hi
  have hval := e5 i 0 (by rw [ev, h.hv.rows]; exact hi) (by rw [ev, h.hv.cols]; exact Nat.one_pos)
  simp only [Ops.eAddNew, Mask.bit, er, ev, ne_eq, not_true, false_and, if_false, Ne.symm h.vr,
    not_false_iff, true_and, Bool.false_eq_true, Mat.keep_lawful] at hval
  by_cases hd : Dist (Edge A) src (d + 1) i
  · have hns := (Dist.step.1 hd).1
    have hk : m1.val i 0 = v.val i 0 := by
      rw [hval]
      by_cases hz : isZero (v.val i 0) = false
      · rw [if_pos hz]
      · have he : v.val i 0 = 0 := (isZero_iff _).1 (by simpa using hz)
        rw [if_neg hz, he, (h.mv i hi).2 hns]
    rw [hk, (mv i hi).1 hd]
    refine ⟨fun k _ hk => ?_, fun hc => absurd ⟨d + 1, le_refl _, hd.1⟩ hc⟩
    rw [hd.unique hk]
  · rw [if_neg (by rw [(mv i hi).2 hd, (isZero_iff _).2 rfl]; simp)] at hval
    rw [hval]
    refine ⟨fun k hk hdk => ?_, fun hc => (h.mv i hi).2 (fun ⟨k, hk, hw⟩ => hc ⟨k, by omega, hw⟩)⟩
    refine (h.mv i hi).1 k ?_ hdk
    by_contra hlt
    obtain rfl : k = d + 1 := by omega
    exact hd hdk

/-- `Copy` and `Clear` at the end of a turn. -/
theorem next_turn {w0 w : World T} {A : Mat T} {src : Nat} {a visited result frontier : Ref} {d : Nat}
    (h : Inv w0 w A src a visited result frontier d) {v vis : Mat T} (hv : IsVec v A.rows)
    (mv : Level v A src (d + 1)) (hvis : IsVec vis A.rows)
    (mvis : Seen vis A src (d + 1)) :
    ∃ w2, (∀ (β : Type) (k : Ref → M T β), (M.copy result >>= fun f => M.clear result >>= fun _ => k f)
        ((w.upd result v none).upd visited vis none) = k w.next w2) ∧
      Inv w0 w2 A src a visited result w.next (d + 1) := by
  set w1 := (w.upd result v none).upd visited vis none with hw1
  have hc : M.copy result w1 = .ok w.next { w1 with heap := Function.update w1.heap w.next v, next := w.next + 1 } := by
    have e : w1.heap result = v := by rw [hw1, World.upd_ne _ _ _ (Ne.symm h.vr), World.upd_out]
    unfold M.copy
    rw [bind_ok (ofObj_ok (p := result) (w := w1) (f := Mat.copy) (a := v) (by rw [e]; exact Mat.copy_ok hv.wf))]
    rfl
  set w2 : World T := { w1 with heap := Function.update w1.heap w.next v, next := w.next + 1 } with hw2
  set w3 : World T := { w2 with heap := Function.update w2.heap result (w2.heap result).clear } with hw3
  have nr' : result ≠ w.next := Nat.ne_of_lt h.nr
  have nv' : visited ≠ w.next := Nat.ne_of_lt h.nv
  have e2r : w2.heap result = v := by
    rw [hw2]; simp only [Function.update_of_ne nr']
    rw [hw1, World.upd_ne _ _ _ (Ne.symm h.vr), World.upd_out]
  have e2v : w2.heap visited = vis := by
    rw [hw2]; simp only [Function.update_of_ne nv']
    rw [hw1, World.upd_out]
  have e3r : w3.heap result = v.clear := by rw [hw3]; simp only [Function.update_self]; rw [e2r]
  have e3v : w3.heap visited = vis := by rw [hw3]; simp only [Function.update_of_ne h.vr]; exact e2v
  have e3f : w3.heap w.next = v := by
    rw [hw3]; simp only [Function.update_of_ne (Ne.symm nr')]
    rw [hw2]; simp
  have e3o : ∀ q, q ≠ visited → q ≠ result → q ≠ w.next → w3.heap q = w.heap q := by
    intro q q1 q2 q3
    rw [hw3]; simp only [Function.update_of_ne q2]
    rw [hw2]; simp only [Function.update_of_ne q3]
    rw [hw1, World.upd_ne _ _ _ q1, World.upd_ne _ _ _ q2]
  have e3q : ∀ q, q < w0.next → w3.heap q = w0.heap q := by
    intro q hq
    rw [e3o q (Nat.ne_of_lt (Nat.lt_of_lt_of_le hq h.ov)) (Nat.ne_of_lt (Nat.lt_of_lt_of_le hq h.oR))
      (Nat.ne_of_lt (Nat.lt_of_lt_of_le hq h.nx)), h.old q hq]
  obtain ⟨c1, c2, c3⟩ := Mat.clear_ok v
  refine ⟨w3, ?_, ?_⟩
  · intro β k
    rw [bind_ok hc]
    rw [bind_ok (show M.clear result w2 = .ok () w3 from rfl)]
  · exact
    { ha := by rw [e3q a h.oa, ← h.old a h.oa]; exact h.ha
      hv := by rw [e3v]; exact hvis
      hr := by rw [e3r]; exact hv.same c1 c2
      hf := by rw [e3f]; exact hv
      mv := by rw [e3v]; exact mvis
      mr := by
        intro i hi; rw [e3r]
        exact c3 i 0 (by rw [hv.rows]; exact hi) (by rw [hv.cols]; exact Nat.one_pos)
      mf := by rw [e3f]; exact mv
      nv := Nat.lt_succ_of_lt h.nv
      nr := Nat.lt_succ_of_lt h.nr
      nf := Nat.lt_succ_self _
      ov := h.ov
      oR := h.oR
      oa := h.oa
      vr := h.vr
      fr := Ne.symm nr'
      fv := Ne.symm nv'
      old := e3q
      nx := Nat.le_succ_of_le h.nx
      cancel := rfl
      gas := h.gas
      reg := h.reg }

/-- The whole loop. -/
theorem turns_ok {w0 : World T} {A : Mat T} {src : Nat} {a visited result : Ref} (hA : Graph A)
    (hg : A.rows ≤ w0.gas) (c : List (Mat T) → Bool) :
    ∀ (n : Nat) (w : World T) (frontier : Ref) (d : Nat) (tr : List (Mat T)),
      Inv w0 w A src a visited result frontier d → tr.length = d → (∀ k, k < d + n → Pos A src k) →
      (∀ k (hk : k < tr.length), IsVec tr[k] A.rows ∧ Level tr[k] A src (k + 1)) →
      (∀ k, k < tr.length → c (tr.take (k + 1)) = false) →
      ∃ tr' w', turns a visited result c n frontier tr w = .ok tr' w' ∧ d ≤ tr'.length ∧ tr'.length ≤ d + n ∧
        (∀ k (hk : k < tr'.length), IsVec tr'[k] A.rows ∧ Level tr'[k] A src (k + 1)) ∧
        (∀ k, k + 1 < tr'.length → c (tr'.take (k + 1)) = false) ∧
        (∀ q, q < w0.next → w'.heap q = w0.heap q) ∧ w'.cancel = none ∧ w'.reg = w0.reg ∧ w'.gas = w0.gas ∧
        w0.next ≤ w'.next ∧ result < w'.next ∧
        ((d < tr'.length ∧ c tr' = true ∧ tr'.getLast? = some (w'.heap result)) ∨
         (tr'.length = d + n ∧ (∀ k, k < tr'.length → c (tr'.take (k + 1)) = false) ∧
          IsVec (w'.heap result) A.rows ∧ ∀ i, i < A.rows → (w'.heap result).val i 0 = 0)) := by
  intro n
  induction n with
  | zero =>
    intro w frontier d tr h hd hp ht hc
    exact ⟨tr, w, rfl, by omega, by omega, ht, fun k hk => hc k (by omega), h.old, h.cancel, h.reg, h.gas, h.nx, h.nr,
      Or.inr ⟨by omega, hc, h.hr, h.mr⟩⟩
  | succ n ih =>
    intro w frontier d tr h hd hp ht hc
    obtain ⟨v, e1, hv, mv⟩ := mul_step hA h (fun k hk => hp k (by omega))
    have ht' : ∀ k (hk : k < (tr ++ [v]).length), IsVec (tr ++ [v])[k] A.rows ∧
        Level (tr ++ [v])[k] A src (k + 1) := by
      intro k hk
      rcases Nat.lt_or_ge k tr.length with hlt | hge
      · rw [List.getElem_append_left hlt]; exact ht k hlt
      · have hke : k = tr.length := by simp at hk; omega
        subst hke
        simp only [List.getElem_append_right (le_refl _), Nat.sub_self, List.getElem_cons_zero]
        rw [hd]; exact ⟨hv, mv⟩
    have hc' : ∀ k, k < tr.length → c ((tr ++ [v]).take (k + 1)) = false := by
      intro k hk
      rw [List.take_append_of_le_length (by omega)]
      exact hc k hk
    have hl : look result (w.upd result v none) = .ok v (w.upd result v none) := by
      unfold look; rw [World.upd_out]
    rw [turns, bind_ok e1, bind_ok hl]
    by_cases hb : c (tr ++ [v]) = true
    · refine ⟨tr ++ [v], w.upd result v none, by rw [if_pos hb]; rfl, by simp; omega, by simp; omega, ht',
        fun k hk => hc' k (by simpa using hk), ?_, rfl, h.reg, h.gas, h.nx, h.nr, Or.inl ⟨by simp; omega, hb, ?_⟩⟩
      · intro q hq
        rw [World.upd_ne _ _ _ (Nat.ne_of_lt (Nat.lt_of_lt_of_le hq h.oR)), h.old q hq]
      · rw [World.upd_out]; simp
    · rw [if_neg hb]
      obtain ⟨vis, f1, f2, f3⟩ := turn_step h hv mv (by rw [h.gas]; exact hg)
      rw [bind_ok f1]
      obtain ⟨w2, g1, g2⟩ := next_turn h hv mv f2 f3
      rw [g1]
      have hc2 : ∀ k, k < (tr ++ [v]).length → c ((tr ++ [v]).take (k + 1)) = false := by
        intro k hk
        rcases Nat.lt_or_ge k tr.length with hlt | hge
        · exact hc' k hlt
        · have hke : k = tr.length := by simp at hk; omega
          subst hke
          rw [List.take_of_length_le (by simp)]
          simpa using hb
      obtain ⟨tr', w', i1, i2, i3, i4⟩ := ih w2 w.next (d + 1) (tr ++ [v]) g2 (by simp [hd]) (fun k hk => hp k (by omega)) ht' hc2
      refine ⟨tr', w', i1, by omega, by omega, i4.1, i4.2.1, i4.2.2.1, i4.2.2.2.1, i4.2.2.2.2.1, i4.2.2.2.2.2.1,
        i4.2.2.2.2.2.2.1, i4.2.2.2.2.2.2.2.1, ?_⟩
      rcases i4.2.2.2.2.2.2.2.2 with ⟨j1, j2, j3⟩ | ⟨j1, j2⟩
      · exact Or.inl ⟨by omega, j2, j3⟩
      · exact Or.inr ⟨by omega, j2⟩

/-- The three vectors the search starts with. -/
theorem start {w : World T} {a : Ref} {s : Nat} (han : a < w.next) (hs : s < (w.heap a).rows) (hc : w.cancel = none) :
    ∃ w3 frontier visited result, (∀ c, search a s c w =
        (turns a visited result c (w.heap a).rows frontier [] >>= fun tr => pure (result, tr)) w3) ∧
      Inv w w3 (w.heap a) s a visited result frontier 0 := by
  set A := w.heap a with hA
  set n := A.rows with hn
  set v0 : DVec T := { l := n, values := (List.replicate n 0).set s 1 } with hv0
  have hnw : (DVec.new n : DVec T).WF := DVec.wf_new n
  have hset : (DVec.new n : DVec T).setVec s 1 = .ok v0 := by
    rw [DVec.setVec_ok hnw (by exact hs)]; rfl
  have hv0w : v0.WF := DVec.setVec_wf (i := s) (v := 1) hnw
  have hcell : ∀ i, i < n → (Mat.dvec v0).val i 0 = if i = s then 1 else 0 := by
    intro i hi
    rw [Mat.val_dvec hv0w (by exact hi)]
    have := DVec.setVec_cell hnw (i := s) (by exact hs) 1 i
    rw [DVec.cell_new] at this
    exact this
  -- the three vectors
  set w1 : World T := { w with heap := Function.update w.heap w.next (.dvec v0), next := w.next + 1 } with hw1
  set w2 : World T := { w1 with heap := Function.update w1.heap w1.next (.dvec v0), next := w1.next + 1 } with hw2
  set w3 : World T := { w2 with heap := Function.update w2.heap w2.next (.dvec (DVec.new n)), next := w2.next + 1 } with hw3
  have n1 : w1.next = w.next + 1 := rfl
  have n2 : w2.next = w.next + 1 + 1 := rfl
  have n3 : w3.next = w.next + 1 + 1 + 1 := rfl
  have lt1 : w.next < w.next + 1 := Nat.lt_succ_self _
  have lt2 : w.next + 1 < w.next + 1 + 1 := Nat.lt_succ_self _
  have lt3 : w.next + 1 + 1 < w.next + 1 + 1 + 1 := Nat.lt_succ_self _
  have e1 : w1.heap w.next = .dvec v0 := by rw [hw1]; simp
  have hcopy : M.copy w.next w1 = .ok w1.next w2 := by
    unfold M.copy
    rw [bind_ok (ofObj_ok (p := w.next) (w := w1) (f := Mat.copy) (a := .dvec v0)
      (by rw [e1]; exact Mat.copy_ok hv0w))]
    rfl
  have eR : w3.heap w2.next = .dvec (DVec.new n) := by rw [hw3]; simp
  have eV : w3.heap w1.next = .dvec v0 := by
    rw [hw3]; simp only [Function.update_of_ne (Nat.ne_of_lt lt2)]
    rw [hw2]; simp
  have eF : w3.heap w.next = .dvec v0 :=
    (Function.update_of_ne (Nat.ne_of_lt (Nat.lt_trans lt1 lt2)) _ _).trans
      ((Function.update_of_ne (Nat.ne_of_lt lt1) _ _).trans e1)
  have eO : ∀ q, q < w.next → w3.heap q = w.heap q := fun q hq =>
    (Function.update_of_ne (Nat.ne_of_lt (Nat.lt_trans hq (Nat.lt_trans lt1 lt2))) _ _).trans
      ((Function.update_of_ne (Nat.ne_of_lt (Nat.lt_trans hq lt1)) _ _).trans
        (Function.update_of_ne (Nat.ne_of_lt hq) _ _))
  have hrun : ∀ c, search a s c w = (turns a w1.next w2.next c n w.next [] >>= fun tr => pure (w2.next, tr)) w3 := by
    intro c
    unfold search
    rw [bind_ok (show rowsOf a w = .ok n w from rfl)]
    rw [bind_ok (show M.lift ((DVec.new n).setVec s 1) w = .ok v0 w by unfold M.lift; rw [hset])]
    rw [bind_ok (show alloc (.dvec v0) w = .ok w.next w1 from rfl)]
    rw [bind_ok hcopy]
    rw [bind_ok (show alloc (.dvec (DVec.new n)) w2 = .ok w2.next w3 from rfl)]
  have vec0 : IsVec (Mat.dvec v0) n := ⟨hv0w, rfl, rfl⟩
  have hinv : Inv w w3 A s a w1.next w2.next w.next 0 :=
    { ha := eO a han
      hv := by rw [eV]; exact vec0
      hr := by rw [eR]; exact ⟨hnw, rfl, rfl⟩
      hf := by rw [eF]; exact vec0
      mv := by
        intro i hi
        rw [eV, hcell i hi]
        refine ⟨fun k hk h => ?_, fun hc => ?_⟩
        · obtain rfl : k = 0 := by omega
          rfl
        · rw [if_neg]
          rintro rfl
          exact hc ⟨0, le_refl _, .zero⟩
      mr := by
        intro i hi
        rw [eR, Mat.val_dvec hnw (by exact hi), DVec.cell_new]
      mf := by
        intro i hi
        rw [eF, hcell i hi]
        refine ⟨fun _ => rfl, fun hc => ?_⟩
        rw [if_neg]
        rintro rfl
        exact hc ⟨.zero, fun k hk => absurd hk (Nat.not_lt_zero k)⟩
      nv := Nat.lt_trans lt2 lt3
      nr := lt3
      nf := Nat.lt_trans lt1 (Nat.lt_trans lt2 lt3)
      ov := Nat.le_of_lt lt1
      oR := Nat.le_of_lt (Nat.lt_trans lt1 lt2)
      oa := han
      vr := Nat.ne_of_lt lt2
      fr := Nat.ne_of_lt (Nat.lt_trans lt1 lt2)
      fv := Nat.ne_of_lt lt1
      old := eO
      nx := Nat.le_of_lt (Nat.lt_trans lt1 (Nat.lt_trans lt2 lt3))
      cancel := hc
      gas := rfl
      reg := rfl }
  exact ⟨w3, w.next, w1.next, w2.next, fun c => hrun c, hinv⟩

theorem turns_prefix {a visited result : Ref} {c : List (Mat T) → Bool} :
    ∀ {n : Nat} {frontier : Ref} {tr tr' : List (Mat T)} {w w' : World T},
      turns a visited result c n frontier tr w = .ok tr' w' → ∃ rest, tr' = tr ++ rest := by
  intro n
  induction n with
  | zero =>
    intro frontier tr tr' w w' h
    rw [turns] at h
    cases h
    exact ⟨[], by simp⟩
  | succ n ih =>
    intro frontier tr tr' w w' h
    rw [turns, bind_apply] at h
    cases h1 : Ops.matrixVectorMultiply a frontier (.ref visited) result w with
    | panic w1 => rw [h1] at h; cases h
    | hang w1 => rw [h1] at h; cases h
    | ok u w1 =>
      rw [h1] at h
      simp only at h
      rw [bind_ok (show look result w1 = .ok (w1.heap result) w1 from rfl)] at h
      by_cases hb : c (tr ++ [w1.heap result]) = true
      · rw [if_pos hb] at h
        cases h
        exact ⟨_, rfl⟩
      · rw [if_neg hb, bind_apply] at h
        cases h2 : Ops.elementWiseVectorAdd visited result .nil visited w1 with
        | panic w2 => rw [h2] at h; cases h
        | hang w2 => rw [h2] at h; cases h
        | ok u w2 =>
          rw [h2] at h
          simp only at h
          rw [bind_apply] at h
          cases h3 : M.copy result w2 with
          | panic w3 => rw [h3] at h; cases h
          | hang w3 => rw [h3] at h; cases h
          | ok f w3 =>
            rw [h3] at h
            simp only at h
            rw [bind_apply] at h
            cases h4 : M.clear result w3 with
            | panic w4 => rw [h4] at h; cases h
            | hang w4 => rw [h4] at h; cases h
            | ok u w4 =>
              rw [h4] at h
              simp only at h
              obtain ⟨rest, hr⟩ := ih h
              exact ⟨w1.heap result :: rest, by rw [hr]; simp⟩

/-- As long as the sums stay positive the levels are right, whatever happens later. -/
theorem turns_level {w0 : World T} {A : Mat T} {src : Nat} {a visited result : Ref} (hA : Graph A)
    (hg : A.rows ≤ w0.gas) :
    ∀ (m n : Nat) (w : World T) (frontier : Ref) (d : Nat) (tr tr' : List (Mat T)) (w' : World T),
      Inv w0 w A src a visited result frontier d → tr.length = d → (∀ k, k ≤ d + m → Pos A src k) → m < n →
      turns a visited result (fun _ => false) n frontier tr w = .ok tr' w' →
      ∃ h : d + m < tr'.length, Level tr'[d + m] A src (d + m + 1) := by
  intro m
  induction m with
  | zero =>
    intro n w frontier d tr tr' w' h hd hp hn ht
    obtain ⟨n, rfl⟩ : ∃ k, n = k + 1 := ⟨n - 1, by omega⟩
    obtain ⟨v, e1, hv, mv⟩ := mul_step hA h (fun k hk => hp k (by omega))
    have hl : look result (w.upd result v none) = .ok v (w.upd result v none) := by
      unfold look; rw [World.upd_out]
    rw [turns, bind_ok e1, bind_ok hl, if_neg (by simp)] at ht
    obtain ⟨vis, f1, f2, f3⟩ := turn_step h hv mv (by rw [h.gas]; exact hg)
    rw [bind_ok f1] at ht
    obtain ⟨w2, g1, g2⟩ := next_turn h hv mv f2 f3
    rw [g1] at ht
    obtain ⟨rest, rfl⟩ := turns_prefix ht
    subst hd
    refine ⟨by simp, ?_⟩
    simpa using mv
  | succ m ih =>
    intro n w frontier d tr tr' w' h hd hp hn ht
    obtain ⟨n, rfl⟩ : ∃ k, n = k + 1 := ⟨n - 1, by omega⟩
    obtain ⟨v, e1, hv, mv⟩ := mul_step hA h (fun k hk => hp k (by omega))
    have hl : look result (w.upd result v none) = .ok v (w.upd result v none) := by
      unfold look; rw [World.upd_out]
    rw [turns, bind_ok e1, bind_ok hl, if_neg (by simp)] at ht
    obtain ⟨vis, f1, f2, f3⟩ := turn_step h hv mv (by rw [h.gas]; exact hg)
    rw [bind_ok f1] at ht
    obtain ⟨w2, g1, g2⟩ := next_turn h hv mv f2 f3
    rw [g1] at ht
    have := ih n w2 w.next (d + 1) (tr ++ [v]) tr' w' g2 (by simp [hd]) (fun k hk => hp k (by omega)) (by omega) ht
    have e : d + 1 + m = d + (m + 1) := by omega
    rw [e] at this
    exact this

/-- The weights as natural numbers. -/
theorem walkSum_cast {n s : Nat} {W : Nat → Nat → T} {N : Nat → Nat → Nat}
    (h : ∀ u v, u < n → v < n → W u v = (N u v : T)) :
    ∀ k v, v < n → walkSum W n s k v = ((walkSum N n s k v : Nat) : T) := by
  intro k
  induction k with
  | zero => intro v _; rw [walkSum, walkSum]; split <;> simp
  | succ k ih =>
    intro v hv
    rw [walkSum, walkSum, Nat.cast_sum]
    refine Finset.sum_congr rfl fun u hu => ?_
    have hu := Finset.mem_range.1 hu
    rw [h u v hu hv, ih u hu, Nat.cast_mul]

end BFS

/-- A walk with non-zero edges makes the sum positive. -/
theorem walkSum_pos {T : Type} [Semiring T] [PartialOrder T] [IsStrictOrderedRing T] {W : Nat → Nat → T}
    {E : Nat → Nat → Prop} {n s : Nat} (h0 : ∀ u v, u < n → v < n → 0 ≤ W u v)
    (hE : ∀ u v, E u v → u < n ∧ v < n ∧ 0 < W u v) :
    (∀ k v, v < n → 0 ≤ walkSum W n s k v) ∧ ∀ k v, Walk E s k v → 0 < walkSum W n s k v := by
  have h1 : ∀ k v, v < n → 0 ≤ walkSum W n s k v := by
    intro k
    induction k with
    | zero => intro v _; rw [walkSum]; split <;> simp
    | succ k ih =>
      intro v hv
      rw [walkSum]
      exact Finset.sum_nonneg fun u hu => mul_nonneg (h0 u v (Finset.mem_range.1 hu) hv) (ih u (Finset.mem_range.1 hu))
  refine ⟨h1, ?_⟩
  intro k v hw
  induction hw with
  | zero => rw [walkSum, if_pos rfl]; exact one_pos
  | @succ k u v hw he ih =>
    obtain ⟨hu, hv, hp⟩ := hE u v he
    rw [walkSum]
    refine Finset.sum_pos' (fun x hx => mul_nonneg (h0 x v (Finset.mem_range.1 hx) hv) (h1 k x (Finset.mem_range.1 hx)))
      ⟨u, Finset.mem_range.2 hu, mul_pos hp ih⟩

end GB
