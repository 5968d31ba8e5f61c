import Verif.Lemmas.Sched
import Verif.Lemmas.Mul
import Verif.Lemmas.Meth
import Verif.Lemmas.Registry

/-!
# The sequential pieces of Strassen's algorithm
-/

namespace GB
namespace Strassen
open M Meth

set_option linter.unusedSectionVars false

variable {T : Type} [GoNum T] [GoStore T] {live : Prop} {n : Nat} {s t : Nat → Nat → T}

/-- A well-formed dense `n × n` matrix; with the cells `t` if `live`. -/
structure Sq (live : Prop) (n : Nat) (t : Nat → Nat → T) (m : Mat T) : Prop where
  wf : m.WF
  kind : m.kind = .dense
  rows : m.rows = n
  cols : m.cols = n
  val : live → ∀ i j, i < n → j < n → m.val i j = t i j

theorem Sq.congr {m : Mat T} (h : Sq live n t m) (e : live → ∀ i j, i < n → j < n → t i j = s i j) :
    Sq live n s m :=
  ⟨h.wf, h.kind, h.rows, h.cols, fun hl i j hi hj => (h.val hl i j hi hj).trans (e hl i j hi hj)⟩

theorem Sq.nvalues {m : Mat T} (h : Sq live n t m) : m.nvalues = n * n := by
  obtain ⟨wf, k, r, c, -⟩ := h
  cases m with
  | dense d =>
    have r : d.r = n := r
    have c : d.c = n := c
    show d.r * d.c = _
    rw [r, c]
  | _ => simp [Mat.kind] at k

/-- The world went on: what existed is unchanged. -/
structure Ext (live : Prop) (w w' : World T) : Prop where
  next : w.next ≤ w'.next
  heap : ∀ q, q < w.next → w'.heap q = w.heap q
  reg : w'.reg = w.reg
  gas : w'.gas = w.gas
  cancel : live → w.cancel = none → w'.cancel = none

theorem Ext.refl (w : World T) : Ext live w w :=
  ⟨Nat.le_refl _, fun _ _ => rfl, rfl, rfl, fun _ h => h⟩

theorem Ext.trans {w1 w2 w3 : World T} (h1 : Ext live w1 w2) (h2 : Ext live w2 w3) : Ext live w1 w3 :=
  ⟨Nat.le_trans h1.next h2.next,
   fun q hq => (h2.heap q (Nat.lt_of_lt_of_le hq h1.next)).trans (h1.heap q hq),
   h2.reg.trans h1.reg, h2.gas.trans h1.gas, fun hl h => h2.cancel hl (h1.cancel hl h)⟩

/-- The object `p` of `w` is a square matrix. -/
def Has (live : Prop) (n : Nat) (t : Nat → Nat → T) (w : World T) (p : Ref) : Prop :=
  p < w.next ∧ Sq live n t (w.heap p)

theorem Has.mono {w w' : World T} {p : Ref} (h : Has live n t w p) (e : Ext live w w') :
    Has live n t w' p :=
  ⟨Nat.lt_of_lt_of_le h.1 e.next, by rw [e.heap p h.1]; exact h.2⟩

theorem Has.congr {w : World T} {p : Ref} (h : Has live n t w p)
    (e : live → ∀ i j, i < n → j < n → t i j = s i j) : Has live n s w p := ⟨h.1, h.2.congr e⟩

/-- The conditions under which the pieces run. -/
structure Ready (live : Prop) (n : Nat) (w : World T) : Prop where
  reg : w.reg = initReg
  gas : n * n ≤ w.gas
  cancel : live → w.cancel = none

theorem Ready.mono {w w' : World T} (h : Ready live n w) (e : Ext live w w') : Ready live n w' :=
  ⟨e.reg.trans h.reg, by rw [e.gas]; exact h.gas, fun hl => e.cancel hl (h.cancel hl)⟩

theorem Ready.le {w : World T} (h : Ready live n w) {m : Nat} (hm : m ≤ n) : Ready live m w :=
  ⟨h.reg, Nat.le_trans (Nat.mul_le_mul hm hm) h.gas, h.cancel⟩

theorem of_returns {w : World T} {res : Res T Ref} (h : Returns w .dense n n t res) :
    ∃ p w', res = .ok p w' ∧ Ext live w w' ∧ Has live n t w' p := by
  obtain ⟨p, w', h1, h2, h3, h4, h5, h6, h7, h8, h9, h10, h11, h12⟩ := h
  exact ⟨p, w', h1, ⟨Nat.le_trans h2 (Nat.le_of_lt h3), h4, h6, h7, fun _ h => h5.trans h⟩,
    h3, h8, h9, h10, h11, fun _ => h12⟩

theorem keep_dense {m : Mat T} (h : m.kind = .dense) (v : T) : m.keep v = v := by
  unfold Mat.keep; rw [h]

/-- `Add` of two dense square matrices. -/
theorem add_has {w : World T} {p q : Ref} (hw : Ready live n w) (hp : Has live n s w p) (hq : Has live n t w q) :
    ∃ r w', Meth.add p q w = .ok r w' ∧ Ext live w w' ∧ Has live n (fun i j => s i j + t i j) w' r := by
  have ep := fresh_ne w (w.heap p) hp.1
  have eq := fresh_ne w (w.heap p) hq.1
  have hreg : (w.heap p).typeName ∉ w.reg := by
    rw [hw.reg, typeName_initReg, hp.2.kind]
    simp [Kind.sparse]
  have e1 : Ops.addOver (fresh w (w.heap p)) p q = q := if_neg (by rw [ep]; exact hreg)
  have e2 : Ops.addSource (fresh w (w.heap p)) p q = p := if_neg (by rw [ep]; exact hreg)
  have hsh : SameShape (w.heap p) (w.heap q) := ⟨hp.2.rows.trans hq.2.rows.symm, hp.2.cols.trans hq.2.cols.symm⟩
  have := Ops.add_writes (w := fresh w (w.heap p)) (s := p) (m := q) (out := w.next) (mask := .nil)
    (by rw [ep]; exact hp.2.wf) (by rw [eq]; exact hq.2.wf) (by rw [fresh_next]; exact hp.2.wf)
    (by rw [fresh_next, hp.2.kind]; simp) (by rw [ep, eq]; exact hsh) (by rw [ep, fresh_next]; exact ⟨rfl, rfl⟩)
    trivial trivial (by rw [e1, eq, fresh_gas, hq.2.nvalues]; exact hw.gas)
    (fun h => absurd (e1.symm.trans h) (Nat.ne_of_lt hq.1))
  have hR := (returns_of_writes (m := w.heap p) (x := do
    let matrix ← copy p
    Ops.add p q .nil matrix
    pure matrix) (by rw [bind_ok (copy_apply hp.2.wf)]) this hp.2.kind hp.2.rows hp.2.cols).congr
    (new' := fun i j => (w.heap p).val i j + (w.heap q).val i j) (by
      intro i j _ _
      rw [if_pos ⟨by rw [e1, eq]; exact Or.inl hq.2.kind, rfl⟩, fresh_next, keep_dense hp.2.kind, e1, e2, ep, eq])
  obtain ⟨r, w', a1, a2, a3⟩ := of_returns (live := live) hR
  exact ⟨r, w', a1, a2, a3.congr (fun hl i j hi hj => by rw [hp.2.val hl i j hi hj, hq.2.val hl i j hi hj])⟩

/-- `Subtract` of two dense square matrices. -/
theorem sub_has {w : World T} {p q : Ref} (hw : Ready live n w) (hp : Has live n s w p) (hq : Has live n t w q) :
    ∃ r w', Meth.subtract p q w = .ok r w' ∧ Ext live w w' ∧ Has live n (fun i j => s i j - t i j) w' r := by
  have ep := fresh_ne w (w.heap q) hp.1
  have eq := fresh_ne w (w.heap q) hq.1
  have hsh : SameShape (w.heap p) (w.heap q) := ⟨hp.2.rows.trans hq.2.rows.symm, hp.2.cols.trans hq.2.cols.symm⟩
  have := Ops.subtract_writes (w := fresh w (w.heap q)) (s := p) (m := q) (out := w.next) (mask := .nil)
    (by rw [ep]; exact hp.2.wf) (by rw [fresh_next]; exact hq.2.wf)
    (by rw [fresh_next, hq.2.kind]; simp) (by rw [ep, eq]; exact hsh) (by rw [ep, fresh_next]; exact hsh)
    trivial trivial (by rw [ep, fresh_gas, hp.2.nvalues]; exact hw.gas)
    (fun h => absurd h (Nat.ne_of_lt hp.1))
  have hcopy : (fun w : World T => match w.heap p with
      | .svec _ => copy p w
      | _ => copy q w) { w with cancel := none } = .ok w.next (fresh w (w.heap q)) := by
    cases hv : w.heap p with
    | svec v => have := hp.2.kind; rw [hv] at this; simp [Mat.kind] at this
    | _ => simp only [hv]; exact copy_apply hq.2.wf
  have hR := (returns_of_writes (m := w.heap q) (x := do
    let matrix ← fun w => match w.heap p with
      | .svec _ => copy p w
      | _ => copy q w
    Ops.subtract p q .nil matrix
    pure matrix) (bind_ok hcopy) this hq.2.kind hq.2.rows hq.2.cols).congr
    (new' := fun i j => (w.heap p).val i j - (w.heap q).val i j) (by
      intro i j _ _
      rw [if_pos ⟨by rw [ep]; exact Or.inl hp.2.kind, rfl⟩, fresh_next, keep_dense hq.2.kind, ep])
  obtain ⟨r, w', a1, a2, a3⟩ := of_returns (live := live) hR
  exact ⟨r, w', a1, a2, a3.congr (fun hl i j hi hj => by rw [hp.2.val hl i j hi hj, hq.2.val hl i j hi hj])⟩

/-- A new dense matrix. -/
theorem new_has (w : World T) (n : Nat) : ∃ w', newDense n n w = .ok w.next w' ∧ Ext live w w' ∧
    Has live n (fun _ _ => 0) w' w.next ∧ w'.next = w.next + 1 ∧ w'.cancel = w.cancel := by
  refine ⟨_, rfl, ⟨Nat.le_succ _, fun q hq => Function.update_of_ne (Nat.ne_of_lt hq) _ _, rfl, rfl, fun _ h => h⟩,
    ⟨Nat.lt_succ_self _, ?_⟩, rfl, rfl⟩
  simp only [Function.update_self]
  exact ⟨Dense.wf_new _ _, rfl, rfl, rfl, fun _ i j hi hj => Mat.dense_new_val _ _ hi hj⟩

/-- `At` reads the table `t` off the object, at all places below `n`, and leaves the object as it is. -/
def Cells (m : Mat T) (n : Nat) (t : Nat → Nat → T) : Prop := ∀ i j, i < n → j < n → m.at' i j = .ok (t i j, m)

theorem Cells.of_wf {m : Mat T} (h : m.WF) (hr : n ≤ m.rows) (hc : n ≤ m.cols) : Cells m n m.val :=
  fun _ _ hi hj => Mat.at_ok h (by omega) (by omega)

/-- A cell of one object is copied into another. -/
theorem copyCell_ok {w : World T} {dst src : Ref} {r c i j : Nat} (hd : Sq live n t (w.heap dst)) (hr : r < n)
    (hc : c < n) {x : T} (hs : (w.heap src).at' i j = .ok (x, w.heap src)) :
    ∃ m', copyCell dst r c src i j w = .ok () (w.upd dst m' w.cancel) ∧
      Sq live n (fun a b => if a = r ∧ b = c then x else t a b) m' := by
  obtain ⟨m', h1, h2⟩ := Mat.set_ok hd.wf (by rw [hd.kind]; simp) (by rw [hd.rows]; exact hr)
    (by rw [hd.cols]; exact hc) x
  refine ⟨m', ?_, h2.wf, h2.same.1.trans hd.kind, h2.same.2.1.trans hd.rows, h2.same.2.2.trans hd.cols, ?_⟩
  · unfold copyCell
    have ha : M.at' src i j w = .ok x w := by
      unfold M.at' withObj
      dsimp only
      rw [hs]
      simp
    rw [bind_ok ha]
    unfold M.set withObj
    dsimp only
    rw [h1]
    rfl
  · intro hl a b ha hb
    by_cases e : a = r ∧ b = c
    · obtain ⟨rfl, rfl⟩ := e
      rw [h2.hit, if_pos ⟨rfl, rfl⟩, keep_dense hd.kind]
    · rw [if_neg e, h2.miss a b (by rw [hd.rows]; exact ha) (by rw [hd.cols]; exact hb) e, hd.val hl a b ha hb]

/-! ## Division into blocks -/

/-- The world inside the loop that fills the blocks `blk k`: nothing else has changed, block `k`
holds the table `F k`. -/
structure Filling {N : Nat} (live : Prop) (n : Nat) (w : World T) (blk : Fin N → Ref) (F : Fin N → Nat → Nat → T)
    (w' : World T) : Prop where
  next : w'.next = w.next
  reg : w'.reg = w.reg
  gas : w'.gas = w.gas
  cancel : live → w'.cancel = none
  frame : ∀ q, (∀ k, q ≠ blk k) → w'.heap q = w.heap q
  block : ∀ k, Sq live n (F k) (w'.heap (blk k))

theorem Filling.copy {N : Nat} {w w' : World T} {blk : Fin N → Ref} {F : Fin N → Nat → Nat → T}
    (h : Filling live n w blk F w') (hinj : Function.Injective blk) (k : Fin N) {src : Ref}
    (hsrc : ∀ k, src ≠ blk k) {r c i j : Nat} (hr : r < n) (hc : c < n) {x : T}
    (hs : (w.heap src).at' i j = .ok (x, w.heap src)) :
    ∃ w'', copyCell (blk k) r c src i j w' = .ok () w'' ∧
      Filling live n w blk (Function.update F k
        (fun a b => if a = r ∧ b = c then x else F k a b)) w'' := by
  have e := h.frame src hsrc
  obtain ⟨m', h1, h2⟩ := copyCell_ok (h.block k) hr hc (src := src) (i := i) (j := j)
    (x := x) (by rw [e]; exact hs)
  refine ⟨_, h1, h.next, h.reg, h.gas, h.cancel, ?_, ?_⟩
  · intro q hq
    rw [World.upd_ne _ _ _ (hq k)]
    exact h.frame q hq
  · intro k'
    by_cases ek : k' = k
    · subst ek
      rw [Function.update_self, World.upd_out]
      exact h2
    · rw [Function.update_of_ne ek, World.upd_ne _ _ _ (fun h => ek (hinj h))]
      exact h.block k'

/-- The table with the cells before `(r, c)` filled in. -/
def part (t : Nat → Nat → T) (r c : Nat) (i j : Nat) : T :=
  if i < r ∨ (i = r ∧ j < c) then t i j else 0

theorem part_succ (t : Nat → Nat → T) (r c i j : Nat) :
    (if i = r ∧ j = c then t r c else part t r c i j) = part t r (c + 1) i j := by
  unfold part
  by_cases e : i = r ∧ j = c
  · obtain ⟨rfl, rfl⟩ := e
    simp
  · rw [if_neg e]
    by_cases h : i < r ∨ (i = r ∧ j < c)
    · rw [if_pos h, if_pos (by omega)]
    · rw [if_neg h, if_neg (by omega)]

theorem part_row (t : Nat → Nat → T) {r n i j : Nat} (hj : j < n) : part t r n i j = part t (r + 1) 0 i j := by
  unfold part
  by_cases h : i < r ∨ (i = r ∧ j < n)
  · rw [if_pos h, if_pos (by omega)]
  · rw [if_neg h, if_neg (by omega)]

/-- The block of the table `t` that starts at `(r, c)`. -/
def sub (t : Nat → Nat → T) (r c : Nat) : Nat → Nat → T := fun i j => t (i + r) (j + c)

/-- The eight blocks of two tables. -/
def quarters (n : Nat) (A B : Nat → Nat → T) : Fin 8 → Nat → Nat → T :=
  ![sub A 0 0, sub A 0 n, sub A n 0, sub A n n, sub B 0 0, sub B 0 n, sub B n 0, sub B n n]

/-- The block references in order. -/
def Blocks.ref (k : Blocks) : Fin 8 → Ref := ![k.a11, k.a12, k.a21, k.a22, k.b11, k.b12, k.b21, k.b22]

theorem splitCell_ok {w w' : World T} {a b : Ref} {k : Blocks} {size r c : Nat} {A B : Nat → Nat → T}
    (hinj : Function.Injective k.ref) (ha : ∀ i, a ≠ k.ref i) (hb : ∀ i, b ≠ k.ref i)
    (hr : r < size) (hc : c < size)
    (hA : Cells (w.heap a) (size + size) A) (hB : Cells (w.heap b) (size + size) B)
    (h : Filling live size w k.ref (fun i => part (quarters size A B i) r c) w') :
    ∃ w'', splitCell a b k size r c w' = .ok none w'' ∧
      Filling live size w k.ref (fun i => part (quarters size A B i) r (c + 1)) w'' := by
  unfold splitCell
  by_cases hcn : w'.cancel = some 0
  · rw [bind_ok (poll_stop hcn), if_pos rfl]
    have hnl : ¬ live := fun hl => by rw [h.cancel hl] at hcn; exact absurd hcn (by simp)
    exact ⟨w', rfl, h.next, h.reg, h.gas, h.cancel, h.frame,
      fun i => (h.block i).congr (fun hl => absurd hl hnl)⟩
  · rw [bind_ok (poll_go hcn)]
    have h0 : Filling live size w k.ref (fun i => part (quarters size A B i) r c)
        { w' with cancel := tick w'.cancel } :=
      ⟨h.next, h.reg, h.gas, fun hl => by simp only [h.cancel hl]; rfl, h.frame, h.block⟩
    obtain ⟨w1, e1, h1⟩ := h0.copy hinj 0 ha (i := r) (j := c) hr hc (by exact_mod_cast hA (r) (c) (by omega) (by omega))
    obtain ⟨w2, e2, h2⟩ := h1.copy hinj 1 ha (i := r) (j := c + size) hr hc (by exact_mod_cast hA (r) (c + size) (by omega) (by omega))
    obtain ⟨w3, e3, h3⟩ := h2.copy hinj 2 ha (i := r + size) (j := c) hr hc (by exact_mod_cast hA (r + size) (c) (by omega) (by omega))
    obtain ⟨w4, e4, h4⟩ := h3.copy hinj 3 ha (i := r + size) (j := c + size) hr hc (by exact_mod_cast hA (r + size) (c + size) (by omega) (by omega))
    obtain ⟨w5, e5, h5⟩ := h4.copy hinj 4 hb (i := r) (j := c) hr hc (by exact_mod_cast hB (r) (c) (by omega) (by omega))
    obtain ⟨w6, e6, h6⟩ := h5.copy hinj 5 hb (i := r) (j := c + size) hr hc (by exact_mod_cast hB (r) (c + size) (by omega) (by omega))
    obtain ⟨w7, e7, h7⟩ := h6.copy hinj 6 hb (i := r + size) (j := c) hr hc (by exact_mod_cast hB (r + size) (c) (by omega) (by omega))
    obtain ⟨w8, e8, h8⟩ := h7.copy hinj 7 hb (i := r + size) (j := c + size) hr hc (by exact_mod_cast hB (r + size) (c + size) (by omega) (by omega))
    refine ⟨w8, ?_, h8.next, h8.reg, h8.gas, h8.cancel, h8.frame, ?_⟩
    · show ((copyCell (k.ref 0) r c a r c >>= fun _ => _) : M T _) _ = _
      rw [bind_ok e1]
      show ((copyCell (k.ref 1) r c a r (c + size) >>= fun _ => _) : M T _) _ = _
      rw [bind_ok e2]
      show ((copyCell (k.ref 2) r c a (r + size) c >>= fun _ => _) : M T _) _ = _
      rw [bind_ok e3]
      show ((copyCell (k.ref 3) r c a (r + size) (c + size) >>= fun _ => _) : M T _) _ = _
      rw [bind_ok e4]
      show ((copyCell (k.ref 4) r c b r c >>= fun _ => _) : M T _) _ = _
      rw [bind_ok e5]
      show ((copyCell (k.ref 5) r c b r (c + size) >>= fun _ => _) : M T _) _ = _
      rw [bind_ok e6]
      show ((copyCell (k.ref 6) r c b (r + size) c >>= fun _ => _) : M T _) _ = _
      rw [bind_ok e7]
      show ((copyCell (k.ref 7) r c b (r + size) (c + size) >>= fun _ => _) : M T _) _ = _
      rw [bind_ok e8]
      rfl
    · intro i
      refine (h8.block i).congr (fun _ x y _ _ => ?_)
      rw [← part_succ]
      fin_cases i <;> rfl

theorem split_ok {w : World T} {a b : Ref} {n size : Nat} {A B : Nat → Nat → T}
    (hbr : (w.heap b).rows = n) (hsz : size = n / 2)
    (hA : Cells (w.heap a) (size + size) A) (hB : Cells (w.heap b) (size + size) B) (han : a < w.next) (hbn : b < w.next)
    (hw : Ready live n w) :
    ∃ k w', split a b w = .ok k w' ∧ Ext live w w' ∧
      ∀ i, Has live size (quarters size A B i) w' (k.ref i) := by
  unfold split
  rw [bind_ok (show rowsOf b w = .ok n w by rw [rowsOf_apply, hbr])]
  simp only [← hsz]
  obtain ⟨w1, e1, x1, g1, n1, c1⟩ := new_has (live := live) w size
  obtain ⟨w2, e2, x2, g2, n2, c2⟩ := new_has (live := live) w1 size
  obtain ⟨w3, e3, x3, g3, n3, c3⟩ := new_has (live := live) w2 size
  obtain ⟨w4, e4, x4, g4, n4, c4⟩ := new_has (live := live) w3 size
  obtain ⟨w5, e5, x5, g5, n5, c5⟩ := new_has (live := live) w4 size
  obtain ⟨w6, e6, x6, g6, n6, c6⟩ := new_has (live := live) w5 size
  obtain ⟨w7, e7, x7, g7, n7, c7⟩ := new_has (live := live) w6 size
  obtain ⟨w8, e8, x8, g8, n8, c8⟩ := new_has (live := live) w7 size
  rw [bind_ok e1, bind_ok e2, bind_ok e3, bind_ok e4, bind_ok e5, bind_ok e6, bind_ok e7, bind_ok e8]
  set k : Blocks := ⟨w.next, w1.next, w2.next, w3.next, w4.next, w5.next, w6.next, w7.next⟩ with hk
  have hex : Ext live w w8 :=
    x1.trans (x2.trans (x3.trans (x4.trans (x5.trans (x6.trans (x7.trans x8))))))
  have m1 : @Eq Nat w1.next (w.next + 1) := n1
  have m2 : @Eq Nat w2.next (w.next + 2) := by rw [n2, m1]
  have m3 : @Eq Nat w3.next (w.next + 3) := by rw [n3, m2]
  have m4 : @Eq Nat w4.next (w.next + 4) := by rw [n4, m3]
  have m5 : @Eq Nat w5.next (w.next + 5) := by rw [n5, m4]
  have m6 : @Eq Nat w6.next (w.next + 6) := by rw [n6, m5]
  have m7 : @Eq Nat w7.next (w.next + 7) := by rw [n7, m6]
  have hnext : @Eq Nat w8.next (w.next + 8) := by rw [n8, m7]
  have href : ∀ i : Fin 8, k.ref i = w.next + i.1 := by
    intro i
    fin_cases i
    · rfl
    · exact m1
    · exact m2
    · exact m3
    · exact m4
    · exact m5
    · exact m6
    · exact m7
  have hinj : Function.Injective k.ref := by
    intro i j h
    rw [href, href] at h
    exact Fin.ext (Nat.add_left_cancel h)
  have hout : ∀ q, q < w.next → ∀ i, q ≠ k.ref i := by
    intro q hq i
    rw [href]
    exact Nat.ne_of_lt (Nat.lt_of_lt_of_le hq (Nat.le_add_right _ _))
  have h0 : Filling live size w8 k.ref (fun i => part (quarters size A B i) 0 0) w8 := by
    refine ⟨rfl, rfl, rfl, fun hl => hex.cancel hl (hw.cancel hl), fun _ _ => rfl, fun i => ?_⟩
    have z : ∀ t : Nat → Nat → T, part t 0 0 = fun _ _ => 0 := by
      intro t; funext x y; simp [part]
    rw [z]
    fin_cases i
    · exact (g1.mono (x2.trans (x3.trans (x4.trans (x5.trans (x6.trans (x7.trans x8))))))).2
    · exact (g2.mono (x3.trans (x4.trans (x5.trans (x6.trans (x7.trans x8)))))).2
    · exact (g3.mono (x4.trans (x5.trans (x6.trans (x7.trans x8))))).2
    · exact (g4.mono (x5.trans (x6.trans (x7.trans x8)))).2
    · exact (g5.mono (x6.trans (x7.trans x8))).2
    · exact (g6.mono (x7.trans x8)).2
    · exact (g7.mono x8).2
    · exact g8.2
  have ea := hex.heap a han
  have eb := hex.heap b hbn
  have hinner : ∀ r, r < size → ∀ w', Filling live size w8 k.ref (fun i => part (quarters size A B i) r 0) w' →
      ∃ w'', forN size 0 (fun c => splitCell a b k size r c) w' = .ok none w'' ∧
        Filling live size w8 k.ref (fun i => part (quarters size A B i) (r + 1) 0) w'' := by
    intro r hr w' hw'
    obtain ⟨x, w'', f1, f2⟩ := forN_rule (body := fun c => splitCell a b k size r c)
      (J := fun c w'' => Filling live size w8 k.ref (fun i => part (quarters size A B i) r c) w'')
      (Q := fun _ _ => False) size 0 w'
      (by
        intro c _ hc w'' hJ
        obtain ⟨w3, q1, q2⟩ := splitCell_ok hinj (hout a han) (hout b hbn) hr (by omega) (by rw [ea]; exact hA)
          (by rw [eb]; exact hB) hJ
        exact ⟨none, w3, q1, fun _ => q2, fun b h => absurd h (by simp)⟩)
      hw'
    rcases f2 with ⟨rfl, f2⟩ | ⟨_, _, h⟩
    · rw [Nat.zero_add] at f2
      exact ⟨w'', f1, f2.next, f2.reg, f2.gas, f2.cancel, f2.frame,
        fun i => (f2.block i).congr (fun _ x y _ hy => part_row _ hy)⟩
    · exact h.elim
  obtain ⟨x, w', f1, f2⟩ := forN_rule
    (body := fun r => forN size 0 (fun c => splitCell a b k size r c))
    (J := fun r w'' => Filling live size w8 k.ref (fun i => part (quarters size A B i) r 0) w'')
    (Q := fun (_ : Unit) _ => False) size 0 w8
    (by
      intro r _ hr w'' hJ
      obtain ⟨w3, q1, q2⟩ := hinner r (by omega) w'' hJ
      exact ⟨none, w3, q1, fun _ => q2, fun b h => absurd h (by simp)⟩)
    h0
  rw [bind_ok f1]
  rcases f2 with ⟨rfl, f2⟩ | ⟨_, _, h⟩
  swap
  · exact h.elim
  rw [Nat.zero_add] at f2
  refine ⟨k, w', rfl, ⟨by rw [f2.next]; exact hex.next, ?_, f2.reg.trans hex.reg, f2.gas.trans hex.gas,
    fun hl _ => f2.cancel hl⟩, ?_⟩
  · intro q hq
    rw [f2.frame q (hout q hq)]
    exact hex.heap q hq
  · intro i
    refine ⟨by rw [f2.next, href, hnext]; exact Nat.add_lt_add_left i.2 _, (f2.block i).congr ?_⟩
    intro _ x y hx hy
    unfold part
    rw [if_pos (Or.inl hx)]

/-! ## The operands of the workers -/

/-- The tables of the left operands. -/
def lefts (n : Nat) (A : Nat → Nat → T) : Fin 7 → Nat → Nat → T :=
  let a11 := sub A 0 0; let a12 := sub A 0 n; let a21 := sub A n 0; let a22 := sub A n n
  ![fun i j => a11 i j + a22 i j, fun i j => a21 i j + a22 i j, a11, a22, fun i j => a11 i j + a12 i j,
    fun i j => a21 i j - a11 i j, fun i j => a12 i j - a22 i j]

/-- The tables of the right operands. -/
def rights (n : Nat) (B : Nat → Nat → T) : Fin 7 → Nat → Nat → T :=
  let b11 := sub B 0 0; let b12 := sub B 0 n; let b21 := sub B n 0; let b22 := sub B n n
  ![fun i j => b11 i j + b22 i j, b11, fun i j => b12 i j - b22 i j, fun i j => b21 i j - b11 i j, b22,
    fun i j => b11 i j + b12 i j, fun i j => b21 i j + b22 i j]

theorem operands_ok {w : World T} {k : Blocks} {A B : Nat → Nat → T} (hw : Ready live n w)
    (h : ∀ i, Has live n (quarters n A B i) w (k.ref i)) :
    ∃ l w', operands k w = .ok l w' ∧ Ext live w w' ∧
      ∀ i, Has live n (lefts n A i) w' (l i).1 ∧ Has live n (rights n B i) w' (l i).2 := by
  have ha11 : Has live n (sub A 0 0) w k.a11 := h 0
  have ha12 : Has live n (sub A 0 n) w k.a12 := h 1
  have ha21 : Has live n (sub A n 0) w k.a21 := h 2
  have ha22 : Has live n (sub A n n) w k.a22 := h 3
  have hb11 : Has live n (sub B 0 0) w k.b11 := h 4
  have hb12 : Has live n (sub B 0 n) w k.b12 := h 5
  have hb21 : Has live n (sub B n 0) w k.b21 := h 6
  have hb22 : Has live n (sub B n n) w k.b22 := h 7
  unfold operands
  obtain ⟨x1, w1, e1, t1, g1⟩ := add_has hw ha11 ha22
  obtain ⟨y1, w2, e2, t2, g2⟩ := add_has (hw.mono t1) (hb11.mono t1) (hb22.mono t1)
  have s2 := t1.trans t2
  obtain ⟨x2, w3, e3, t3, g3⟩ := add_has (hw.mono s2) (ha21.mono s2) (ha22.mono s2)
  have s3 := s2.trans t3
  obtain ⟨y3, w4, e4, t4, g4⟩ := sub_has (hw.mono s3) (hb12.mono s3) (hb22.mono s3)
  have s4 := s3.trans t4
  obtain ⟨y4, w5, e5, t5, g5⟩ := sub_has (hw.mono s4) (hb21.mono s4) (hb11.mono s4)
  have s5 := s4.trans t5
  obtain ⟨x5, w6, e6, t6, g6⟩ := add_has (hw.mono s5) (ha11.mono s5) (ha12.mono s5)
  have s6 := s5.trans t6
  obtain ⟨x6, w7, e7, t7, g7⟩ := sub_has (hw.mono s6) (ha21.mono s6) (ha11.mono s6)
  have s7 := s6.trans t7
  obtain ⟨y6, w8, e8, t8, g8⟩ := add_has (hw.mono s7) (hb11.mono s7) (hb12.mono s7)
  have s8 := s7.trans t8
  obtain ⟨x7, w9, e9, t9, g9⟩ := sub_has (hw.mono s8) (ha12.mono s8) (ha22.mono s8)
  have s9 := s8.trans t9
  obtain ⟨y7, w10, e10, t10, g10⟩ := add_has (hw.mono s9) (hb21.mono s9) (hb22.mono s9)
  have s10 := s9.trans t10
  rw [bind_ok e1, bind_ok e2, bind_ok e3, bind_ok e4, bind_ok e5, bind_ok e6, bind_ok e7, bind_ok e8,
    bind_ok e9, bind_ok e10]
  have u9 := t10
  have u8 := t9.trans u9
  have u7 := t8.trans u8
  have u6 := t7.trans u7
  have u5 := t6.trans u6
  have u4 := t5.trans u5
  have u3 := t4.trans u4
  have u2 := t3.trans u3
  have u1 := t2.trans u2
  refine ⟨_, w10, rfl, s10, ?_⟩
  intro i
  fin_cases i
  · exact ⟨g1.mono u1, g2.mono u2⟩
  · exact ⟨g3.mono u3, hb11.mono s10⟩
  · exact ⟨ha11.mono s10, g4.mono u4⟩
  · exact ⟨ha22.mono s10, g5.mono u5⟩
  · exact ⟨g6.mono u6, hb22.mono s10⟩
  · exact ⟨g7.mono u7, g8.mono u8⟩
  · exact ⟨g9.mono u9, g10⟩

/-! ## Assembly -/

/-- Four blocks put together. -/
def quad (n : Nat) (c11 c12 c21 c22 : Nat → Nat → T) (i j : Nat) : T :=
  if i < n then if j < n then c11 i j else c12 i (j - n)
  else if j < n then c21 (i - n) j else c22 (i - n) (j - n)

/-- The result with the cells of the blocks before `(r, c)` filled in. -/
def qpart (n : Nat) (q : Nat → Nat → T) (r c : Nat) (i j : Nat) : T :=
  let i' := if i < n then i else i - n
  let j' := if j < n then j else j - n
  if i' < r ∨ (i' = r ∧ j' < c) then q i j else 0

theorem qpart_succ {n r c : Nat} {C11 C12 C21 C22 : Nat → Nat → T} (hr : r < n) (hc : c < n) (x y : Nat) :
    (if x = r + n ∧ y = c + n then C22 r c else if x = r + n ∧ y = c then C21 r c else
      if x = r ∧ y = c + n then C12 r c else if x = r ∧ y = c then C11 r c else
      qpart n (quad n C11 C12 C21 C22) r c x y) = qpart n (quad n C11 C12 C21 C22) r (c + 1) x y := by
  have a1 : ¬ r + n < n := by omega
  have a2 : ¬ c + n < n := by omega
  by_cases e : x = r + n ∧ y = c + n
  · obtain ⟨rfl, rfl⟩ := e
    simp [qpart, quad]
  rw [if_neg e]
  by_cases e2 : x = r + n ∧ y = c
  · obtain ⟨rfl, rfl⟩ := e2
    simp [qpart, quad, hc]
  rw [if_neg e2]
  by_cases e3 : x = r ∧ y = c + n
  · obtain ⟨rfl, rfl⟩ := e3
    simp [qpart, quad, hr]
  rw [if_neg e3]
  by_cases e4 : x = r ∧ y = c
  · obtain ⟨rfl, rfl⟩ := e4
    simp [qpart, quad, hr, hc]
  rw [if_neg e4]
  unfold qpart
  dsimp only
  refine if_congr ?_ rfl rfl
  by_cases p1 : x < n <;> by_cases p2 : y < n <;> simp only [p1, p2, if_true, if_false] <;> omega

theorem joinCell_ok {w w' : World T} {matrix c11 c12 c21 c22 : Ref} {n r c : Nat}
    {C11 C12 C21 C22 : Nat → Nat → T}
    (h11 : Has live n C11 w c11) (h12 : Has live n C12 w c12) (h21 : Has live n C21 w c21)
    (h22 : Has live n C22 w c22) (d11 : c11 ≠ matrix) (d12 : c12 ≠ matrix) (d21 : c21 ≠ matrix) (d22 : c22 ≠ matrix)
    (hr : r < n) (hc : c < n)
    (h : Filling live (n * 2) w (fun _ : Fin 1 => matrix) (fun _ => qpart n (quad n C11 C12 C21 C22) r c) w') :
    ∃ w'', joinCell matrix c11 c12 c21 c22 n r c w' = .ok none w'' ∧
      Filling live (n * 2) w (fun _ : Fin 1 => matrix) (fun _ => qpart n (quad n C11 C12 C21 C22) r (c + 1)) w'' := by
  unfold joinCell
  by_cases hcn : w'.cancel = some 0
  · rw [bind_ok (poll_stop hcn), if_pos rfl]
    have hnl : ¬ live := fun hl => by rw [h.cancel hl] at hcn; exact absurd hcn (by simp)
    exact ⟨w', rfl, h.next, h.reg, h.gas, h.cancel, h.frame,
      fun i => (h.block i).congr (fun hl => absurd hl hnl)⟩
  · rw [bind_ok (poll_go hcn)]
    have h0 : Filling live (n * 2) w (fun _ : Fin 1 => matrix) (fun _ => qpart n (quad n C11 C12 C21 C22) r c)
        { w' with cancel := tick w'.cancel } :=
      ⟨h.next, h.reg, h.gas, fun hl => by simp only [h.cancel hl]; rfl, h.frame, h.block⟩
    have hinj : Function.Injective (fun _ : Fin 1 => matrix) := fun i j _ => Subsingleton.elim _ _
    obtain ⟨w1, e1, h1⟩ := h0.copy hinj 0 (fun _ => d11) (r := r) (c := c) (i := r) (j := c) (by omega) (by omega)
      (Mat.at_ok h11.2.wf (by rw [h11.2.rows]; exact hr) (by rw [h11.2.cols]; exact hc))
    obtain ⟨w2, e2, h2⟩ := h1.copy hinj 0 (fun _ => d12) (r := r) (c := c + n) (i := r) (j := c) (by omega) (by omega)
      (Mat.at_ok h12.2.wf (by rw [h12.2.rows]; exact hr) (by rw [h12.2.cols]; exact hc))
    obtain ⟨w3, e3, h3⟩ := h2.copy hinj 0 (fun _ => d21) (r := r + n) (c := c) (i := r) (j := c) (by omega) (by omega)
      (Mat.at_ok h21.2.wf (by rw [h21.2.rows]; exact hr) (by rw [h21.2.cols]; exact hc))
    obtain ⟨w4, e4, h4⟩ := h3.copy hinj 0 (fun _ => d22) (r := r + n) (c := c + n) (i := r) (j := c) (by omega) (by omega)
      (Mat.at_ok h22.2.wf (by rw [h22.2.rows]; exact hr) (by rw [h22.2.cols]; exact hc))
    refine ⟨w4, ?_, h4.next, h4.reg, h4.gas, h4.cancel, h4.frame, ?_⟩
    · show ((copyCell matrix r c c11 r c >>= fun _ => _) : M T _) _ = _
      rw [bind_ok e1]
      show ((copyCell matrix r (c + n) c12 r c >>= fun _ => _) : M T _) _ = _
      rw [bind_ok e2]
      show ((copyCell matrix (r + n) c c21 r c >>= fun _ => _) : M T _) _ = _
      rw [bind_ok e3]
      show ((copyCell matrix (r + n) (c + n) c22 r c >>= fun _ => _) : M T _) _ = _
      rw [bind_ok e4]
      rfl
    · intro i
      refine (h4.block i).congr (fun hl x y hx hy => ?_)
      obtain rfl : i = 0 := Subsingleton.elim _ _
      simp only [Function.update_self, h11.2.val hl r c hr hc, h12.2.val hl r c hr hc,
        h21.2.val hl r c hr hc, h22.2.val hl r c hr hc]
      exact qpart_succ hr hc x y

theorem join_ok {w : World T} {c11 c12 c21 c22 : Ref} {n : Nat} {C11 C12 C21 C22 : Nat → Nat → T}
    (hw : live → w.cancel = none)
    (h11 : Has live n C11 w c11) (h12 : Has live n C12 w c12) (h21 : Has live n C21 w c21)
    (h22 : Has live n C22 w c22) :
    ∃ r w', join c11 c12 c21 c22 w = .ok r w' ∧ Ext live w w' ∧
      Has live (n * 2) (quad n C11 C12 C21 C22) w' r := by
  unfold join
  rw [bind_ok (show rowsOf c11 w = .ok n w by rw [rowsOf_apply, h11.2.rows])]
  obtain ⟨w1, e1, x1, g1, n1, c1⟩ := new_has (live := live) w (n * 2)
  rw [bind_ok e1]
  have k11 := h11.mono x1
  have k12 := h12.mono x1
  have k21 := h21.mono x1
  have k22 := h22.mono x1
  have er : rowsOf c11 w1 = .ok n w1 := by rw [rowsOf_apply, k11.2.rows]
  rw [bind_ok er, bind_ok er]
  have d11 := Nat.ne_of_lt h11.1
  have d12 := Nat.ne_of_lt h12.1
  have d21 := Nat.ne_of_lt h21.1
  have d22 := Nat.ne_of_lt h22.1
  have h0 : Filling live (n * 2) w1 (fun _ : Fin 1 => w.next)
      (fun _ => qpart n (quad n C11 C12 C21 C22) 0 0) w1 := by
    refine ⟨rfl, rfl, rfl, fun hl => c1.trans (hw hl), fun _ _ => rfl, fun i => ?_⟩
    refine g1.2.congr (fun _ i j _ _ => ?_)
    simp [qpart]
  have hinner : ∀ r, r < n → ∀ w', Filling live (n * 2) w1 (fun _ : Fin 1 => w.next)
        (fun _ => qpart n (quad n C11 C12 C21 C22) r 0) w' →
      ∃ w'', (colsOf c11 >>= fun cols => forN cols 0 (fun c => joinCell w.next c11 c12 c21 c22 n r c)) w' =
          .ok none w'' ∧
        Filling live (n * 2) w1 (fun _ : Fin 1 => w.next)
          (fun _ => qpart n (quad n C11 C12 C21 C22) (r + 1) 0) w'' := by
    intro r hr w' hw'
    have ec : colsOf c11 w' = .ok n w' := by
      rw [colsOf_apply, hw'.frame c11 (fun _ => d11), k11.2.cols]
    rw [bind_ok ec]
    obtain ⟨x, w'', f1, f2⟩ := forN_rule (body := fun c => joinCell w.next c11 c12 c21 c22 n r c)
      (J := fun c w'' => Filling live (n * 2) w1 (fun _ : Fin 1 => w.next)
        (fun _ => qpart n (quad n C11 C12 C21 C22) r c) w'')
      (Q := fun _ _ => False) n 0 w'
      (by
        intro c _ hc w'' hJ
        obtain ⟨w3, q1, q2⟩ := joinCell_ok k11 k12 k21 k22 d11 d12 d21 d22 hr (by omega) hJ
        exact ⟨none, w3, q1, fun _ => q2, fun b h => absurd h (by simp)⟩)
      hw'
    rcases f2 with ⟨rfl, f2⟩ | ⟨_, _, h⟩
    · rw [Nat.zero_add] at f2
      refine ⟨w'', f1, f2.next, f2.reg, f2.gas, f2.cancel, f2.frame,
        fun i => (f2.block i).congr (fun _ x y _ hy => ?_)⟩
      unfold qpart
      dsimp only
      refine if_congr ?_ rfl rfl
      have hy' : (if y < n then y else y - n) < n := by split <;> omega
      generalize (if x < n then x else x - n) = x' at *
      generalize (if y < n then y else y - n) = y' at *
      omega
    · exact h.elim
  obtain ⟨x, w', f1, f2⟩ := forN_rule
    (body := fun r => colsOf c11 >>= fun cols => forN cols 0 (fun c => joinCell w.next c11 c12 c21 c22 n r c))
    (J := fun r w'' => Filling live (n * 2) w1 (fun _ : Fin 1 => w.next)
      (fun _ => qpart n (quad n C11 C12 C21 C22) r 0) w'')
    (Q := fun (_ : Unit) _ => False) n 0 w1
    (by
      intro r _ hr w'' hJ
      obtain ⟨w3, q1, q2⟩ := hinner r (by omega) w'' hJ
      exact ⟨none, w3, q1, fun _ => q2, fun b h => absurd h (by simp)⟩)
    h0
  rw [bind_ok f1]
  rcases f2 with ⟨rfl, f2⟩ | ⟨_, _, h⟩
  swap
  · exact h.elim
  rw [Nat.zero_add] at f2
  refine ⟨w.next, w', rfl, ⟨by rw [f2.next]; exact x1.next, ?_, f2.reg.trans x1.reg, f2.gas.trans x1.gas,
    fun hl _ => f2.cancel hl⟩, by rw [f2.next]; exact g1.1, (f2.block 0).congr ?_⟩
  · intro q hq
    rw [f2.frame q (fun _ => Nat.ne_of_lt hq)]
    exact x1.heap q hq
  · intro _ x y hx hy
    unfold qpart
    dsimp only
    rw [if_pos]
    left
    by_cases p1 : x < n <;> simp only [p1, if_true, if_false]
    omega

/-- The table of the result from the tables of the seven products. -/
def combine (n : Nat) (P : Fin 7 → Nat → Nat → T) : Nat → Nat → T :=
  quad n (fun i j => P 0 i j + P 3 i j - P 4 i j + P 6 i j) (fun i j => P 2 i j + P 4 i j)
    (fun i j => P 1 i j + P 3 i j) (fun i j => P 0 i j - P 1 i j + P 2 i j + P 5 i j)

theorem assemble_ok {w : World T} {p : Fin 7 → Ref} {P : Fin 7 → Nat → Nat → T} (hw : Ready live n w)
    (h : ∀ i, Has live n (P i) w (p i)) :
    ∃ r w', assemble (p 0) (p 1) (p 2) (p 3) (p 4) (p 5) (p 6) w = .ok r w' ∧ Ext live w w' ∧
      Has live (n * 2) (combine n P) w' r := by
  unfold assemble
  obtain ⟨x1, w1, e1, t1, g1⟩ := add_has hw (h 0) (h 3)
  obtain ⟨x2, w2, e2, t2, g2⟩ := sub_has (hw.mono t1) g1 ((h 4).mono t1)
  have s2 := t1.trans t2
  obtain ⟨c11, w3, e3, t3, g3⟩ := add_has (hw.mono s2) g2 ((h 6).mono s2)
  have s3 := s2.trans t3
  obtain ⟨c12, w4, e4, t4, g4⟩ := add_has (hw.mono s3) ((h 2).mono s3) ((h 4).mono s3)
  have s4 := s3.trans t4
  obtain ⟨c21, w5, e5, t5, g5⟩ := add_has (hw.mono s4) ((h 1).mono s4) ((h 3).mono s4)
  have s5 := s4.trans t5
  obtain ⟨y1, w6, e6, t6, g6⟩ := sub_has (hw.mono s5) ((h 0).mono s5) ((h 1).mono s5)
  have s6 := s5.trans t6
  obtain ⟨y2, w7, e7, t7, g7⟩ := add_has (hw.mono s6) g6 ((h 2).mono s6)
  have s7 := s6.trans t7
  obtain ⟨c22, w8, e8, t8, g8⟩ := add_has (hw.mono s7) g7 ((h 5).mono s7)
  have s8 := s7.trans t8
  rw [bind_ok e1, bind_ok e2, bind_ok e3, bind_ok e4, bind_ok e5, bind_ok e6, bind_ok e7, bind_ok e8]
  have u5 := t6.trans (t7.trans t8)
  have u4 := t5.trans u5
  obtain ⟨r, w9, e9, t9, g9⟩ := join_ok (hw.mono s8).cancel (g3.mono (t4.trans u4)) (g4.mono u4) (g5.mono u5) g8
  exact ⟨r, w9, e9, s8.trans t9, g9⟩

/-! ## The pieces on matrix states -/

theorem leafV_ok {gas : Nat} {cn : Option Nat} {a b : Mat T} (ha : a.WF) (hb : b.WF) (h : a.cols = b.rows)
    (hl : live → cn = none) :
    ∃ v, leafV gas cn a b = .ok v ∧ v.WF ∧ v.kind = .dense ∧ v.rows = a.rows ∧ v.cols = b.cols ∧
      (live → ∀ i j, i < a.rows → j < b.cols → v.val i j = dotSum a.cols (a.rowVal i) (b.colVal j)) := by
  unfold leafV leaf
  set w : World T := scene gas cn [a, b] with hw
  have e0 : w.heap 0 = a := rfl
  have e1 : w.heap 1 = b := rfl
  have en : w.next = 2 := rfl
  rw [bind_ok (show rowsOf 0 w = .ok a.rows w from rfl), bind_ok (show colsOf 1 w = .ok b.cols w from rfl)]
  set w1 : World T := { w with heap := Function.update w.heap 2 (.dense (Dense.new a.rows b.cols)), next := 3 } with hw1
  have hnew : newDense a.rows b.cols w = .ok 2 w1 := rfl
  rw [bind_ok hnew]
  have f0 : w1.heap 0 = a := rfl
  have f1 : w1.heap 1 = b := rfl
  have f2 : w1.heap 2 = .dense (Dense.new a.rows b.cols) := rfl
  have f2w : (w1.heap 2).WF := by rw [f2]; exact Dense.wf_new _ _
  obtain ⟨m', c', g1, g2, g3, g4, g5⟩ := Ops.multiply_writes (w := w1) (s := 0) (m := 1) (out := 2) (mask := .nil)
    (by rw [f0]; exact ha) (by rw [f1]; exact hb) f2w (by rw [f2]; simp [Mat.kind])
    (by rw [f0, f1]; exact h.symm) rfl rfl trivial trivial (by decide)
  have g1' : Ops.matrixMatrixMultiply 0 1 .nil 2 w1 = .ok () (w1.upd 2 m' c') := g1
  rw [bind_ok g1']
  refine ⟨m', ?_, g2, g3.1, g3.2.1, g3.2.2, ?_⟩
  · show Out.ok ((w1.upd 2 m' c').heap 2) = _
    rw [World.upd_out]
  · intro hlive i j hi hj
    have hc : w1.cancel = none := hl hlive
    rw [(g4 hc).2 i j (by rw [g3.2.1]; exact hi) (by rw [g3.2.2]; exact hj)]
    show (if (false = true) then _ else (w1.heap 2).keep (dotSum (w1.heap 0).cols _ _)) = _
    rw [if_neg (by simp), f0, f1, f2]
    rfl

/-- The ordinary product of tables, added up as the code does. -/
def prod (n : Nat) (A B : Nat → Nat → T) (i j : Nat) : T := dotSum n (fun l => A i l) (fun l => B l j)

theorem dotSum_congr {n : Nat} {a a' b b' : Nat → T} (ha : ∀ l, l < n → a l = a' l) (hb : ∀ l, l < n → b l = b' l) :
    dotSum n a b = dotSum n a' b' := by
  induction n with
  | zero => rfl
  | succ n ih =>
    have hs : ∀ a b : Nat → T, dotSum (n + 1) a b = dotSum n a b + a n * b n := by
      intro a b; unfold dotSum; rw [List.range_succ, List.foldl_append]; rfl
    rw [hs, hs, ih (fun l h => ha l (by omega)) (fun l h => hb l (by omega)), ha n (by omega), hb n (by omega)]

theorem forkV_ok {gas : Nat} {cn : Option Nat} {a b : Mat T} {A B : Nat → Nat → T} (hbr : b.rows = n)
    (hA : Cells a (n / 2 + n / 2) A) (hB : Cells b (n / 2 + n / 2) B) (hl : live → cn = none) (hg : n * n ≤ gas) :
    ∃ ops, forkV gas cn a b = .ok ops ∧
      ∀ i, Sq live (n / 2) (lefts (n / 2) A i) (ops i).1 ∧ Sq live (n / 2) (rights (n / 2) B i) (ops i).2 := by
  have hr : Ready live n (scene gas cn [a, b]) := ⟨rfl, hg, hl⟩
  obtain ⟨k, w1, e1, x1, h1⟩ := split_ok (live := live) (w := scene gas cn [a, b]) (a := 0) (b := 1)
    hbr rfl hA hB (by decide : 0 < 2) (by decide : 1 < 2) hr
  obtain ⟨l, w2, e2, x2, h2⟩ := operands_ok ((hr.mono x1).le (Nat.div_le_self n 2)) h1
  unfold forkV
  have : (do let k ← split 0 1; operands k : M T _) (scene gas cn [a, b]) = .ok l w2 := by
    rw [bind_ok e1, e2]
  rw [this]
  exact ⟨_, rfl, fun i => ⟨(h2 i).1.2, (h2 i).2.2⟩⟩

theorem joinV_ok {gas : Nat} {cn : Option Nat} {vs : Fin 7 → Mat T} {P : Fin 7 → Nat → Nat → T}
    (h : ∀ i, Sq live n (P i) (vs i)) (hl : live → cn = none) (hg : n * n ≤ gas) :
    ∃ v, joinV gas cn (slots vs) = .ok v ∧ Sq live (n * 2) (combine n P) v := by
  have hr : Ready live n (scene gas cn [vs 0, vs 1, vs 2, vs 3, vs 4, vs 5, vs 6]) := ⟨rfl, hg, hl⟩
  obtain ⟨r, w, e1, x1, h1⟩ := assemble_ok (live := live) (n := n) (P := P) (p := fun i => i.1) hr (by
    intro i
    refine ⟨i.2, ?_⟩
    have := h i
    fin_cases i <;> exact this)
  refine ⟨w.heap r, ?_, h1.2⟩
  unfold joinV
  have e : assemble 0 1 2 3 4 5 6 (scene gas cn [vs 0, vs 1, vs 2, vs 3, vs 4, vs 5, vs 6]) = .ok r w := e1
  have t := slots_tag vs
  have t1 : slots vs 1 = some (vs 0) := t 0
  have t2 : slots vs 2 = some (vs 1) := t 1
  have t3 : slots vs 3 = some (vs 2) := t 2
  have t4 : slots vs 4 = some (vs 3) := t 3
  have t5 : slots vs 5 = some (vs 4) := t 4
  have t6 : slots vs 6 = some (vs 5) := t 5
  have t7 : slots vs 7 = some (vs 6) := t 6
  rw [t1, t2, t3, t4, t5, t6, t7]
  simp only [e]
  rfl

end Strassen
end GB
