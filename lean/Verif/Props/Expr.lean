import Verif.SpecExpr
import Verif.Props.Multiply
import Verif.Props.AddSub
import Verif.Props.EWise
import Verif.Props.Symm

/-!
# C66: expressions over dense matrices compute what they denote
-/

namespace GB

set_option linter.unusedSectionVars false

open M Meth

variable {T : Type} [GoRing T] [GoLawful T]

/-- The program ended with a dense matrix holding `A`; whatever existed before is as it was. -/
def Computes (w : World T) {r c : Nat} (A : Matrix (Fin r) (Fin c) T) (res : Res T Ref) : Prop :=
  ∃ p w', res = .ok p w' ∧ p < w'.next ∧ w.next ≤ w'.next ∧ (∀ q, q < w.next → w'.heap q = w.heap q) ∧
    w'.cancel = w.cancel ∧ w'.reg = w.reg ∧ w'.gas = w.gas ∧
    (w'.heap p).WF ∧ (w'.heap p).kind = .dense ∧ (w'.heap p).rows = r ∧ (w'.heap p).cols = c ∧
    ∀ (i : Fin r) (j : Fin c), (w'.heap p).val i j = A i j

namespace MExpr

theorem Good.mono {w w' : World T} (hn : w.next ≤ w'.next) (hh : ∀ q, q < w.next → w'.heap q = w.heap q) :
    ∀ {r c : Nat} (e : MExpr T r c), e.Good w → e.Good w'
  | _, _, var p r c, h => by
    obtain ⟨h1, h2, h3, h4, h5⟩ := h
    refine ⟨Nat.lt_of_lt_of_le h1 hn, ?_⟩
    rw [hh p h1]
    exact ⟨h2, h3, h4, h5⟩
  | _, _, mul a b, h => ⟨Good.mono hn hh a h.1, Good.mono hn hh b h.2⟩
  | _, _, add a b, h => ⟨Good.mono hn hh a h.1, Good.mono hn hh b h.2⟩
  | _, _, sub a b, h => ⟨Good.mono hn hh a h.1, Good.mono hn hh b h.2⟩
  | _, _, neg a, h => Good.mono (e := a) hn hh h
  | _, _, smul _ a, h => Good.mono (e := a) hn hh h
  | _, _, trans a, h => Good.mono (e := a) hn hh h

theorem den_congr {w w' : World T} (hh : ∀ q, q < w.next → w'.heap q = w.heap q) :
    ∀ {r c : Nat} (e : MExpr T r c), e.Good w → e.den w' = e.den w
  | _, _, var p r c, h => by
    funext i j
    show (w'.heap p).val i j = (w.heap p).val i j
    rw [hh p h.1]
  | _, _, mul a b, h => by simp only [den, den_congr hh a h.1, den_congr hh b h.2]
  | _, _, add a b, h => by simp only [den, den_congr hh a h.1, den_congr hh b h.2]
  | _, _, sub a b, h => by simp only [den, den_congr hh a h.1, den_congr hh b h.2]
  | _, _, neg a, h => by simp only [den, den_congr hh a h]
  | _, _, smul _ a, h => by simp only [den, den_congr hh a h]
  | _, _, trans a, h => by simp only [den, den_congr hh a h]

theorem Small.le {n : Nat} : ∀ {r c : Nat} (e : MExpr T r c), e.Small n → r * c ≤ n
  | _, _, var _ _ _, h => h
  | _, _, mul _ _, h => h.1
  | _, _, add a _, h => Small.le a h.1
  | _, _, sub a _, h => Small.le a h.1
  | _, _, neg a, h => Small.le a h
  | _, _, smul _ a, h => Small.le a h
  | _, _, trans a, h => by rw [Nat.mul_comm]; exact Small.le a h

end MExpr

theorem Computes.map {w : World T} {r c r' c' : Nat} {A : Matrix (Fin r) (Fin c) T} {B : Matrix (Fin r') (Fin c') T}
    {x : M T Ref} {f : Ref → M T Ref} (h : Computes w A (x w))
    (hf : ∀ p w', p < w'.next → w'.reg = w.reg → w'.gas = w.gas → (w'.heap p).WF → (w'.heap p).kind = .dense →
      (w'.heap p).rows = r → (w'.heap p).cols = c → (∀ (i : Fin r) (j : Fin c), (w'.heap p).val i j = A i j) →
      ∃ F, Returns w' .dense r' c' F (f p w') ∧ ∀ (i : Fin r') (j : Fin c'), F i j = B i j) :
    Computes w B ((x >>= f) w) := by
  obtain ⟨p, w', h1, h2, h3, h4, h5, h6, h7, h8, h9, h10, h11, h12⟩ := h
  obtain ⟨F, ⟨q, v, g1, g2, g3, g4, g5, g6, g7, g8, g9, g10, g11, g12⟩, hF⟩ := hf p w' h2 h6 h7 h8 h9 h10 h11 h12
  rw [bind_ok h1]
  exact ⟨q, v, g1, g3, Nat.le_trans h3 (Nat.le_of_lt (Nat.lt_of_le_of_lt g2 g3)),
    fun k hk => (g4 k (Nat.lt_of_lt_of_le hk h3)).trans (h4 k hk), g5.trans h5, g6.trans h6, g7.trans h7,
    g8, g9, g10, g11, fun i j => (g12 i j i.2 j.2).trans (hF i j)⟩

theorem Computes.map₂ {w : World T} {r c r' c' r'' c'' : Nat} {A : Matrix (Fin r) (Fin c) T}
    {B : Matrix (Fin r') (Fin c') T} {C : Matrix (Fin r'') (Fin c'') T}
    {x y : M T Ref} {f : Ref → Ref → M T Ref} (h : Computes w A (x w))
    (hy : ∀ w', w.next ≤ w'.next → (∀ q, q < w.next → w'.heap q = w.heap q) → w'.reg = w.reg → w'.gas = w.gas →
      Computes w' B (y w'))
    (hf : ∀ p q w', p < w'.next → q < w'.next → w'.reg = w.reg → w'.gas = w.gas →
      (w'.heap p).WF → (w'.heap p).kind = .dense → (w'.heap p).rows = r → (w'.heap p).cols = c →
      (∀ (i : Fin r) (j : Fin c), (w'.heap p).val i j = A i j) →
      (w'.heap q).WF → (w'.heap q).kind = .dense → (w'.heap q).rows = r' → (w'.heap q).cols = c' →
      (∀ (i : Fin r') (j : Fin c'), (w'.heap q).val i j = B i j) →
      ∃ F, Returns w' .dense r'' c'' F (f p q w') ∧ ∀ (i : Fin r'') (j : Fin c''), F i j = C i j) :
    Computes w C ((x >>= fun p => y >>= fun q => f p q) w) := by
  obtain ⟨p, w', h1, h2, h3, h4, h5, h6, h7, h8, h9, h10, h11, h12⟩ := h
  obtain ⟨q, v, g1, g2, g3, g4, g5, g6, g7, g8, g9, g10, g11, g12⟩ := hy w' h3 h4 h6 h7
  have ep : v.heap p = w'.heap p := g4 p h2
  obtain ⟨F, ⟨t, u, k1, k2, k3, k4, k5, k6, k7, k8, k9, k10, k11, k12⟩, hF⟩ :=
    hf p q v (Nat.lt_of_lt_of_le h2 g3) g2 (g6.trans h6) (g7.trans h7) (by rw [ep]; exact h8) (by rw [ep]; exact h9)
      (by rw [ep]; exact h10) (by rw [ep]; exact h11) (by rw [ep]; exact h12) g8 g9 g10 g11 g12
  rw [bind_ok h1, bind_ok g1]
  exact ⟨t, u, k1, k3, Nat.le_trans h3 (Nat.le_trans g3 (Nat.le_of_lt (Nat.lt_of_le_of_lt k2 k3))),
    fun k hk => (k4 k (Nat.lt_of_lt_of_le hk (Nat.le_trans h3 g3))).trans ((g4 k (Nat.lt_of_lt_of_le hk h3)).trans (h4 k hk)),
    (k5.trans g5).trans h5, (k6.trans g6).trans h6, (k7.trans g7).trans h7,
    k8, k9, k10, k11, fun i j => (k12 i j i.2 j.2).trans (hF i j)⟩

/-- C66. Every expression over dense matrices — sums, differences, products, negatives, multiples and
transposes, nested in any way and with any sharing of the variables — computes the matrix it denotes and
changes no matrix it was given. -/
theorem C66_expression : ∀ {r c : Nat} (e : MExpr T r c) {w : World T}, w.reg = initReg → e.Good w → e.Small w.gas →
    Computes w (e.den w) (e.run w)
  | _, _, .var p r c, w, _, hg, _ => by
    obtain ⟨h1, h2, h3, h4, h5⟩ := hg
    exact ⟨p, w, rfl, h1, Nat.le_refl _, fun _ _ => rfl, rfl, rfl, rfl, h2, h3, h4, h5, fun _ _ => rfl⟩
  | r, c, .mul (k := k) a b, w, hr, hg, hsm => by
    refine Computes.map₂ (f := Meth.multiply) (C66_expression a hr hg.1 hsm.2.1)
      (fun w' e1 e2 e3 e4 => by
        have := C66_expression b (e3.trans hr) (hg.2.mono e1 e2) (by rw [e4]; exact hsm.2.2)
        rwa [MExpr.den_congr e2 b hg.2] at this) ?_
    intro p q w' hp hq _ _ p1 p2 p3 p4 p5 q1 q2 q3 q4 q5
    have := C20_method_partial hp hq p1 q1 (by rw [p2]; simp) (by rw [q3, p4])
      (Mat.fit_dense (by rw [p2]; simp)).1 (Mat.fit_dense (by rw [q2]; simp)).2
    rw [p2, p3, q4] at this
    refine ⟨_, this, fun i j => ?_⟩
    show _ = (a.den w * b.den w) i j
    rw [Matrix.mul_apply, p4, ← Fin.sum_univ_eq_sum_range (fun l => (w'.heap p).val i l * (w'.heap q).val l j) k]
    exact Finset.sum_congr rfl (fun l _ => by rw [p5 i l, q5 l j])
  | r, c, .add a b, w, hr, hg, hsm => by
    refine Computes.map₂ (f := Meth.add) (C66_expression a hr hg.1 hsm.1)
      (fun w' e1 e2 e3 e4 => by
        have := C66_expression b (e3.trans hr) (hg.2.mono e1 e2) (by rw [e4]; exact hsm.2)
        rwa [MExpr.den_congr e2 b hg.2] at this) ?_
    intro p q w' hp hq er eg p1 p2 p3 p4 p5 q1 q2 q3 q4 q5
    have hl := MExpr.Small.le a hsm.1
    have := C18_add_unregistered_partial hp hq p1 q1 (by rw [p2]; simp) ⟨p3.trans q3.symm, p4.trans q4.symm⟩
      (Nat.le_trans (Mat.nvalues_le p1) (by rw [p3, p4, eg]; exact hl))
      (Nat.le_trans (Mat.nvalues_le q1) (by rw [q3, q4, eg]; exact hl)) (er.trans hr) (Or.inr (Or.inl p2))
    rw [p2, p3, p4] at this
    exact ⟨_, this, fun i j => by rw [p5, q5]; rfl⟩
  | r, c, .sub a b, w, hr, hg, hsm => by
    refine Computes.map₂ (f := Meth.subtract) (C66_expression a hr hg.1 hsm.1)
      (fun w' e1 e2 e3 e4 => by
        have := C66_expression b (e3.trans hr) (hg.2.mono e1 e2) (by rw [e4]; exact hsm.2)
        rwa [MExpr.den_congr e2 b hg.2] at this) ?_
    intro p q w' hp hq er eg p1 p2 p3 p4 p5 q1 q2 q3 q4 q5
    have hl := MExpr.Small.le a hsm.1
    have := C19_subtract_partial hp hq p1 q1 (by rw [p2]; simp) (by rw [q2]; simp) ⟨p3.trans q3.symm, p4.trans q4.symm⟩
      (Nat.le_trans (Mat.nvalues_le p1) (by rw [p3, p4, eg]; exact hl)) (Or.inl p2)
    rw [q2, p3, p4] at this
    exact ⟨_, this, fun i j => by rw [p5, q5]; rfl⟩
  | r, c, .neg a, w, hr, hg, hsm => by
    refine Computes.map (f := Meth.negative) (C66_expression a hr hg hsm) ?_
    intro p w' hp er eg p1 p2 p3 p4 p5
    have := C16_negative p1 (Nat.le_trans (Mat.nvalues_le p1) (by rw [p3, p4, eg]; exact MExpr.Small.le a hsm))
    rw [p2, p3, p4] at this
    exact ⟨_, this, fun i j => by rw [p5]; rfl⟩
  | r, c, .smul alpha a, w, hr, hg, hsm => by
    refine Computes.map (f := fun x => Meth.scalar x alpha) (C66_expression a hr hg hsm) ?_
    intro p w' hp er eg p1 p2 p3 p4 p5
    have := C17_scalar_partial alpha p1 (Nat.le_trans (Mat.nvalues_le p1) (by rw [p3, p4, eg]; exact MExpr.Small.le a hsm))
      (Or.inl p2)
    rw [p2, p3, p4] at this
    exact ⟨_, this, fun i j => by rw [p5]; rfl⟩
  | c, r, .trans a, w, hr, hg, hsm => by
    refine Computes.map (f := Meth.transpose) (C66_expression a hr hg hsm) ?_
    intro p w' hp er eg p1 p2 p3 p4 p5
    have := C15_transpose p1 hp (Nat.le_trans (Mat.nvalues_le p1) (by rw [p3, p4, eg]; exact MExpr.Small.le a hsm))
    rw [p2, p3, p4] at this
    exact ⟨_, this, fun i j => p5 j i⟩

/-- Two expressions computed one after the other and compared with `Equal`. -/
def MExpr.same {r c r' c' : Nat} (a : MExpr T r c) (b : MExpr T r' c') : M T Bool := do
  let x ← a.run
  let y ← b.run
  Meth.equal x y

/-- C66, equality. Two expressions of one shape, computed one after the other, are `Equal` exactly when they
denote the same matrix. -/
theorem C66_equal {w : World T} {r c : Nat} (a b : MExpr T r c) (hr : w.reg = initReg) (ha : a.Good w) (hb : b.Good w)
    (sa : a.Small w.gas) (sb : b.Small w.gas) :
    ∃ res w', a.same b w = .ok res w' ∧ (res = true ↔ a.den w = b.den w) ∧ ∀ q, q < w.next → w'.heap q = w.heap q := by
  obtain ⟨p, w', h1, h2, h3, h4, h5, h6, h7, h8, h9, h10, h11, h12⟩ := C66_expression a hr ha sa
  obtain ⟨q, v, g1, g2, g3, g4, g5, g6, g7, g8, g9, g10, g11, g12⟩ :=
    C66_expression b (h6.trans hr) (hb.mono h3 h4) (by rw [h7]; exact sb)
  rw [MExpr.den_congr h4 b hb] at g12
  have ep : v.heap p = w'.heap p := g4 p h2
  have hl := MExpr.Small.le a sa
  have eg : v.gas = w.gas := g7.trans h7
  obtain ⟨res, k1, -, k2⟩ := C27_equal_partial (w := v) (s := p) (m := q) ((g6.trans h6).trans hr) (by rw [ep]; exact h8) g8
    (Nat.le_trans (Mat.nvalues_le (by rw [ep]; exact h8)) (by rw [ep, h10, h11, eg]; exact hl))
    (Nat.le_trans (Mat.nvalues_le g8) (by rw [g10, g11, eg]; exact hl)) (by rw [ep, h9, g9])
  refine ⟨res, v, ?_, ?_, fun k hk => (g4 k (Nat.lt_of_lt_of_le hk h3)).trans (h4 k hk)⟩
  · show (a.run >>= fun x => b.run >>= fun y => Meth.equal x y) w = _
    rw [bind_ok h1, bind_ok g1, k1]
  · rw [k2, ep]
    constructor
    · rintro ⟨-, hv⟩
      funext i j
      rw [← h12, ← g12]
      exact hv i j (by rw [h10]; exact i.2) (by rw [h11]; exact j.2)
    · intro hd
      refine ⟨⟨h10.trans g10.symm, h11.trans g11.symm⟩, fun i j hi hj => ?_⟩
      rw [h10] at hi
      rw [h11] at hj
      rw [h12 ⟨i, hi⟩ ⟨j, hj⟩, g12 ⟨i, hi⟩ ⟨j, hj⟩, hd]

/-- The comparison answers yes and leaves what was there. -/
def Agrees (w : World T) (res : Res T Bool) : Prop :=
  ∃ w', res = .ok true w' ∧ ∀ q, q < w.next → w'.heap q = w.heap q

theorem Agrees.of_den {w : World T} {r c : Nat} {a b : MExpr T r c} (hr : w.reg = initReg) (ha : a.Good w) (hb : b.Good w)
    (sa : a.Small w.gas) (sb : b.Small w.gas) (h : a.den w = b.den w) : Agrees w (a.same b w) := by
  obtain ⟨res, w', h1, h2, h3⟩ := C66_equal a b hr ha hb sa sb
  rw [h2.2 h] at h1
  exact ⟨w', h1, h3⟩

section laws
variable {w : World T} {r k l c : Nat}

/-- C66, associativity: `(A·B)·C` and `A·(B·C)` are `Equal`, for any dense matrices and for nested expressions. -/
theorem C66_assoc (a : MExpr T r k) (b : MExpr T k l) (e : MExpr T l c) (hr : w.reg = initReg)
    (ha : a.Good w) (hb : b.Good w) (he : e.Good w) (sa : a.Small w.gas) (sb : b.Small w.gas) (se : e.Small w.gas)
    (s1 : r * l ≤ w.gas) (s2 : k * c ≤ w.gas) (s3 : r * c ≤ w.gas) :
    Agrees w (((a.mul b).mul e).same (a.mul (b.mul e)) w) :=
  Agrees.of_den hr ⟨⟨ha, hb⟩, he⟩ ⟨ha, hb, he⟩ ⟨s3, ⟨s1, sa, sb⟩, se⟩ ⟨s3, sa, s2, sb, se⟩ (Matrix.mul_assoc _ _ _)

/-- C66, distributivity: `A·(B+C)` and `A·B + A·C` are `Equal`. -/
theorem C66_distrib (a : MExpr T r k) (b e : MExpr T k c) (hr : w.reg = initReg)
    (ha : a.Good w) (hb : b.Good w) (he : e.Good w) (sa : a.Small w.gas) (sb : b.Small w.gas) (se : e.Small w.gas)
    (s3 : r * c ≤ w.gas) : Agrees w ((a.mul (b.add e)).same ((a.mul b).add (a.mul e)) w) :=
  Agrees.of_den hr ⟨ha, hb, he⟩ ⟨⟨ha, hb⟩, ha, he⟩ ⟨s3, sa, sb, se⟩ ⟨⟨s3, sa, sb⟩, s3, sa, se⟩ (Matrix.mul_add _ _ _)

/-- C66, transposed product: `(A·B)ᵀ` and `Bᵀ·Aᵀ` are `Equal`. -/
theorem C66_transpose_mul (a : MExpr T r k) (b : MExpr T k c) (hr : w.reg = initReg)
    (ha : a.Good w) (hb : b.Good w) (sa : a.Small w.gas) (sb : b.Small w.gas) (s3 : r * c ≤ w.gas) :
    Agrees w ((a.mul b).trans.same (b.trans.mul a.trans) w) :=
  Agrees.of_den hr ⟨ha, hb⟩ ⟨hb, ha⟩ ⟨s3, sa, sb⟩ ⟨by rw [Nat.mul_comm]; exact s3, sb, sa⟩ (Matrix.transpose_mul _ _)

/-- C66, subtraction: `A − B` and `A + (−B)` are `Equal`. -/
theorem C66_sub (a b : MExpr T r c) (hr : w.reg = initReg)
    (ha : a.Good w) (hb : b.Good w) (sa : a.Small w.gas) (sb : b.Small w.gas) :
    Agrees w ((a.sub b).same (a.add b.neg) w) :=
  Agrees.of_den hr ⟨ha, hb⟩ ⟨ha, hb⟩ ⟨sa, sb⟩ ⟨sa, sb⟩ (sub_eq_add_neg _ _)

/-- C66, multiples: `α(A·B)` and `A·(αB)` are `Equal`. -/
theorem C66_smul (alpha : T) (a : MExpr T r k) (b : MExpr T k c) (hr : w.reg = initReg)
    (ha : a.Good w) (hb : b.Good w) (sa : a.Small w.gas) (sb : b.Small w.gas) (s3 : r * c ≤ w.gas) :
    Agrees w ((MExpr.smul alpha (a.mul b)).same (a.mul (MExpr.smul alpha b)) w) :=
  Agrees.of_den hr ⟨ha, hb⟩ ⟨ha, hb⟩ ⟨s3, sa, sb⟩ ⟨s3, sa, sb⟩ (Matrix.mul_smul _ _ _).symm

/-- C66, order of the summands: `A + B` and `B + A` are `Equal`, also where both are computed. -/
theorem C66_add_comm (a b : MExpr T r c) (hr : w.reg = initReg)
    (ha : a.Good w) (hb : b.Good w) (sa : a.Small w.gas) (sb : b.Small w.gas) :
    Agrees w ((a.add b).same (b.add a) w) :=
  Agrees.of_den hr ⟨ha, hb⟩ ⟨hb, ha⟩ ⟨sa, sb⟩ ⟨sb, sa⟩ (add_comm _ _)

end laws

/-- An expression, then `Symmetric` of the result. -/
def MExpr.symmetric {r c : Nat} (a : MExpr T r c) : M T Bool := do
  let x ← a.run
  MathPkg.symmetric x

/-- An expression, then `SkewSymmetric` of the result. -/
def MExpr.skew {r c : Nat} (a : MExpr T r c) : M T Bool := do
  let x ← a.run
  MathPkg.skewSymmetric x

/-- C66, symmetry: `Symmetric` of a square expression answers whether the matrix it denotes is its own transpose. -/
theorem C66_symmetric {w : World T} {n : Nat} (a : MExpr T n n) (hr : w.reg = initReg) (ha : a.Good w) (sa : a.Small w.gas) :
    ∃ res w', a.symmetric w = .ok res w' ∧ (res = true ↔ (a.den w).transpose = a.den w) ∧
      ∀ q, q < w.next → w'.heap q = w.heap q := by
  obtain ⟨p, w', h1, h2, h3, h4, h5, h6, h7, h8, h9, h10, h11, h12⟩ := C66_expression a hr ha sa
  obtain ⟨res, v, k1, k2, k3⟩ := C37_symmetric_partial (w := w') (s := p) (h6.trans hr) h8 h2
    (by rw [h10, h11, h7]; exact MExpr.Small.le a sa) (by rw [h9]; simp)
  refine ⟨res, v, ?_, ?_, fun k hk => (k3 k (Nat.lt_of_lt_of_le hk h3)).trans (h4 k hk)⟩
  · show (a.run >>= fun x => MathPkg.symmetric x) w = _
    rw [bind_ok h1, k1]
  · rw [k2]
    constructor
    · rintro ⟨-, hv⟩
      funext i j
      show a.den w j i = a.den w i j
      rw [← h12, ← h12]
      exact hv j i (by rw [h10]; exact j.2) (by rw [h11]; exact i.2)
    · intro hd
      refine ⟨h10.trans h11.symm, fun i j hi hj => ?_⟩
      rw [h10] at hi
      rw [h11] at hj
      rw [h12 ⟨i, hi⟩ ⟨j, hj⟩, h12 ⟨j, hj⟩ ⟨i, hi⟩]
      exact (congrFun (congrFun hd ⟨j, hj⟩) ⟨i, hi⟩)

/-- C66, skew-symmetry. -/
theorem C66_skew {w : World T} {n : Nat} (a : MExpr T n n) (hr : w.reg = initReg) (ha : a.Good w) (sa : a.Small w.gas) :
    ∃ res w', a.skew w = .ok res w' ∧ (res = true ↔ (a.den w).transpose = - a.den w) ∧
      ∀ q, q < w.next → w'.heap q = w.heap q := by
  obtain ⟨p, w', h1, h2, h3, h4, h5, h6, h7, h8, h9, h10, h11, h12⟩ := C66_expression a hr ha sa
  obtain ⟨res, v, k1, k2, k3⟩ := C38_skewSymmetric_partial (w := w') (s := p) (h6.trans hr) h8 h2
    (by rw [h10, h11, h7]; exact MExpr.Small.le a sa) (by rw [h9]; simp)
  refine ⟨res, v, ?_, ?_, fun k hk => (k3 k (Nat.lt_of_lt_of_le hk h3)).trans (h4 k hk)⟩
  · show (a.run >>= fun x => MathPkg.skewSymmetric x) w = _
    rw [bind_ok h1, k1]
  · rw [k2]
    constructor
    · rintro ⟨-, hv⟩
      funext i j
      show a.den w j i = - a.den w i j
      rw [← h12, ← h12]
      exact hv j i (by rw [h10]; exact j.2) (by rw [h11]; exact i.2)
    · intro hd
      refine ⟨h10.trans h11.symm, fun i j hi hj => ?_⟩
      rw [h10] at hi
      rw [h11] at hj
      rw [h12 ⟨i, hi⟩ ⟨j, hj⟩, h12 ⟨j, hj⟩ ⟨i, hi⟩]
      exact (congrFun (congrFun hd ⟨j, hj⟩) ⟨i, hi⟩)

/-- C66: `A + Aᵀ` is always reported symmetric. -/
theorem C66_symmetric_part {w : World T} {n : Nat} (a : MExpr T n n) (hr : w.reg = initReg) (ha : a.Good w)
    (sa : a.Small w.gas) : Agrees w ((a.add a.trans).symmetric w) := by
  obtain ⟨res, w', h1, h2, h3⟩ := C66_symmetric (a.add a.trans) hr ⟨ha, ha⟩ ⟨sa, sa⟩
  rw [h2.2 (by show (a.den w + (a.den w).transpose).transpose = _; rw [Matrix.transpose_add, Matrix.transpose_transpose, add_comm]; rfl)] at h1
  exact ⟨w', h1, h3⟩

/-- C66: `A − Aᵀ` is always reported skew-symmetric. -/
theorem C66_skew_part {w : World T} {n : Nat} (a : MExpr T n n) (hr : w.reg = initReg) (ha : a.Good w)
    (sa : a.Small w.gas) : Agrees w ((a.sub a.trans).skew w) := by
  obtain ⟨res, w', h1, h2, h3⟩ := C66_skew (a.sub a.trans) hr ⟨ha, ha⟩ ⟨sa, sa⟩
  rw [h2.2 (by show (a.den w - (a.den w).transpose).transpose = -(a.den w - (a.den w).transpose); rw [Matrix.transpose_sub, Matrix.transpose_transpose, neg_sub])] at h1
  exact ⟨w', h1, h3⟩

/-- C66: `A·Aᵀ` is always reported symmetric. -/
theorem C66_gram {w : World T} {n k : Nat} (a : MExpr T n k) (hr : w.reg = initReg) (ha : a.Good w)
    (sa : a.Small w.gas) (hn : n * n ≤ w.gas) : Agrees w ((a.mul a.trans).symmetric w) := by
  obtain ⟨res, w', h1, h2, h3⟩ := C66_symmetric (a.mul a.trans) hr ⟨ha, ha⟩ ⟨hn, sa, sa⟩
  rw [h2.2 (by show (a.den w * (a.den w).transpose).transpose = _; rw [Matrix.transpose_mul, Matrix.transpose_transpose]; rfl)] at h1
  exact ⟨w', h1, h3⟩

/-- `A` multiplied by itself `n` further times: the expression of a loop of `Multiply` calls. -/
def MExpr.pow {m : Nat} (a : MExpr T m m) : Nat → MExpr T m m
  | 0 => a
  | n + 1 => (a.pow n).mul a

/-- C66, powers: `n` rounds of `x = x.Multiply(A)` from `x = A` compute the power `A^(n+1)`. -/
theorem C66_power {w : World T} {m : Nat} (a : MExpr T m m) (n : Nat) (hr : w.reg = initReg) (ha : a.Good w)
    (sa : a.Small w.gas) : Computes w ((a.den w) ^ (n + 1)) ((a.pow n).run w) := by
  have key : ∀ n, (a.pow n).Good w ∧ (a.pow n).Small w.gas ∧ (a.pow n).den w = (a.den w) ^ (n + 1) := by
    intro n
    induction n with
    | zero => exact ⟨ha, sa, (pow_one _).symm⟩
    | succ n ih =>
      refine ⟨⟨ih.1, ha⟩, ⟨MExpr.Small.le a sa, ih.2.1, sa⟩, ?_⟩
      show (a.pow n).den w * a.den w = _
      rw [ih.2.2, ← pow_succ]
  obtain ⟨h1, h2, h3⟩ := key n
  have := C66_expression (a.pow n) hr h1 h2
  rwa [h3] at this

namespace ExprEx

def a : Mat ℤ := .dense ⟨2, 2, [[1, 2], [3, 4]]⟩
def b : Mat ℤ := .dense ⟨2, 3, [[0, 1, -1], [5, 0, 2]]⟩
def w : World ℤ := World.of 9 [a, b]
def A : MExpr ℤ 2 2 := .var 0 2 2
def B : MExpr ℤ 2 3 := .var 1 2 3

/-- `(A + Aᵀ)·B − 2(A·B)`. -/
def e : MExpr ℤ 2 3 := .sub (.mul (.add A A.trans) B) (.smul 2 (.mul A B))

theorem good_A : A.Good w := ⟨by decide, ⟨rfl, by simp⟩, rfl, rfl, rfl⟩
theorem good_B : B.Good w := ⟨by decide, ⟨rfl, by simp⟩, rfl, rfl, rfl⟩

theorem small_A : A.Small w.gas := show 2 * 2 ≤ 9 by decide
theorem small_B : B.Small w.gas := show 2 * 3 ≤ 9 by decide

example : Computes w (e.den w) (e.run w) :=
  C66_expression e rfl ⟨⟨⟨good_A, good_A⟩, good_B⟩, good_A, good_B⟩ (by simp [e, A, B, MExpr.Small, w, World.of])

example : ((e.run w).obj.map (·.val 0 0)) = some 5 := by kernel_rfl

example : Agrees w ((A.mul B).trans.same (B.trans.mul A.trans) w) :=
  C66_transpose_mul A B rfl good_A good_B small_A small_B (by decide)

example : Agrees w ((A.mul A).mul B |>.same (A.mul (A.mul B)) <| w) :=
  C66_assoc A A B rfl good_A good_A good_B small_A small_A small_B (by decide) (by decide) (by decide)

example : Agrees w ((B.mul B.trans).symmetric w) := C66_gram B rfl good_B small_B (by decide)

/-- The comparison also answers no: `A·A` is not `A + A`. -/
example : ((A.mul A).same (A.add A) w).val = some false := by kernel_rfl

example : Computes w ((A.den w) ^ 5) ((A.pow 4).run w) := C66_power A 4 rfl good_A small_A

end ExprEx

end GB
