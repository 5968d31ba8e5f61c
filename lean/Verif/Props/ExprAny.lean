import Verif.SpecExprAny
import Verif.Props.Expr
import Verif.Props.Exact
import Verif.Props.MapZero

/-!
# C79: expressions over matrices of any format
-/

namespace GB

set_option linter.unusedSectionVars false

open M Meth

variable {T : Type} [GoRing T] [GoLawful T]

/-- The program ended with a matrix of format `k` holding `A`; whatever existed before is as it was. -/
def ComputesIn (w : World T) (k : Kind) {r c : Nat} (A : Matrix (Fin r) (Fin c) T) (res : Res T Ref) : Prop :=
  ∃ p w', res = .ok p w' ∧ p < w'.next ∧ w.next ≤ w'.next ∧ (∀ q, q < w.next → w'.heap q = w.heap q) ∧
    w'.cancel = w.cancel ∧ w'.reg = w.reg ∧ w'.gas = w.gas ∧
    (w'.heap p).WF ∧ (w'.heap p).kind = k ∧ (w'.heap p).rows = r ∧ (w'.heap p).cols = c ∧
    ∀ (i : Fin r) (j : Fin c), (w'.heap p).val i j = A i j

namespace MExpr

theorem Given.mono {w w' : World T} (hn : w.next ≤ w'.next) (hh : ∀ q, q < w.next → w'.heap q = w.heap q) :
    ∀ {r c : Nat} (e : MExpr T r c), e.Given w → e.Given w'
  | _, _, var p r c, h => by
    obtain ⟨h1, h2⟩ := h
    refine ⟨Nat.lt_of_lt_of_le h1 hn, ?_⟩
    rw [hh p h1]
    exact h2
  | _, _, mul a b, h => ⟨Given.mono hn hh a h.1, Given.mono hn hh b h.2⟩
  | _, _, add a b, h => ⟨Given.mono hn hh a h.1, Given.mono hn hh b h.2⟩
  | _, _, sub a b, h => ⟨Given.mono hn hh a h.1, Given.mono hn hh b h.2⟩
  | _, _, neg a, h => Given.mono (e := a) hn hh h
  | _, _, smul _ a, h => Given.mono (e := a) hn hh h
  | _, _, trans a, h => Given.mono (e := a) hn hh h

theorem fmt_matrix {w : World T} : ∀ {r c : Nat} (e : MExpr T r c), e.Given w → e.fmt w ≠ .dvec ∧ e.fmt w ≠ .svec
  | _, _, var _ _ _, h => ⟨h.2.2.1, h.2.2.2.1⟩
  | _, _, mul a _, h => fmt_matrix a h.1
  | _, _, add a _, h => fmt_matrix a h.1
  | _, _, sub _ b, h => fmt_matrix b h.2
  | _, _, neg a, h => fmt_matrix a h
  | _, _, smul _ a, h => fmt_matrix a h
  | _, _, trans a, h => fmt_matrix a h

theorem fmt_congr {w w' : World T} (hh : ∀ q, q < w.next → w'.heap q = w.heap q) :
    ∀ {r c : Nat} (e : MExpr T r c), e.Given w → e.fmt w' = e.fmt w
  | _, _, var p _ _, h => by
    show (w'.heap p).kind = _
    rw [hh p h.1]; rfl
  | _, _, mul a _, h => fmt_congr hh a h.1
  | _, _, add a _, h => fmt_congr hh a h.1
  | _, _, sub _ b, h => fmt_congr hh b h.2
  | _, _, neg a, h => fmt_congr hh a h
  | _, _, smul _ a, h => fmt_congr hh a h
  | _, _, trans a, h => fmt_congr hh a h

theorem got_congr {w w' : World T} (hh : ∀ q, q < w.next → w'.heap q = w.heap q) :
    ∀ {r c : Nat} (e : MExpr T r c), e.Given w → e.got w' = e.got w
  | _, _, var p r c, h => by
    funext i j
    show (w'.heap p).val i j = (w.heap p).val i j
    rw [hh p h.1]
  | _, _, mul a b, h => by
    simp only [got, got_congr hh a h.1, got_congr hh b h.2, fmt_congr hh a h.1, fmt_congr hh b h.2]
  | _, _, add a b, h => by simp only [got, got_congr hh a h.1, got_congr hh b h.2, fmt_congr hh a h.1]
  | _, _, sub a b, h => by simp only [got, got_congr hh a h.1, got_congr hh b h.2, fmt_congr hh a h.1]
  | _, _, neg a, h => by simp only [got, got_congr hh a h]
  | _, _, smul _ a, h => by simp only [got, got_congr hh a h]
  | _, _, trans a, h => by simp only [got, got_congr hh a h]

theorem Keeps.congr {w w' : World T} (hh : ∀ q, q < w.next → w'.heap q = w.heap q) :
    ∀ {r c : Nat} (e : MExpr T r c), e.Given w → e.Keeps w → e.Keeps w'
  | _, _, var _ _ _, _, _ => trivial
  | _, _, mul a b, h, k => ⟨Keeps.congr hh a h.1 k.1, Keeps.congr hh b h.2 k.2⟩
  | _, _, add a b, h, k => ⟨Keeps.congr hh a h.1 k.1, Keeps.congr hh b h.2 k.2⟩
  | _, _, sub a b, h, k => ⟨Keeps.congr hh a h.1 k.1, Keeps.congr hh b h.2 k.2⟩
  | _, _, neg a, h, k => Keeps.congr (e := a) hh h k
  | _, _, smul _ a, h, k => ⟨Keeps.congr hh a h k.1, by rw [fmt_congr hh a h, got_congr hh a h]; exact k.2⟩
  | _, _, trans a, h, k => Keeps.congr (e := a) hh h k

theorem filled_eq {n : Nat} (g : Nat → T) : filled (fun l : Fin n => g l) = nonzeros n g := by
  classical
  unfold filled nonzeros
  rw [← List.toFinset_card_of_nodup ((List.nodup_range).filter _)]
  rw [← Finset.card_map Fin.valEmbedding]
  congr 1
  ext l
  simp only [Finset.mem_map, Finset.mem_filter, Finset.mem_univ, true_and, Fin.valEmbedding_apply, List.mem_toFinset,
    List.mem_filter, List.mem_range]
  constructor
  · rintro ⟨x, hx, rfl⟩
    refine ⟨x.2, ?_⟩
    rw [Bool.not_eq_true', Bool.eq_false_iff]
    exact fun h => hx ((isZero_iff _).1 h)
  · rintro ⟨hl, hz⟩
    refine ⟨⟨l, hl⟩, ?_, rfl⟩
    intro h0
    rw [(isZero_iff _).2 h0] at hz
    exact absurd hz (by decide)

theorem seen_short {n : Nat} {k : Kind} (hk : k.sparse = true) (g : Nat → T) (l : Fin n) :
    seen k (fun x : Fin n => g x) l = shortRead n g l := by
  unfold seen shortRead
  rw [filled_eq g]
  by_cases h : (l : Nat) ≤ nonzeros n g
  · rw [if_pos h, if_neg (by simp [hk]; exact h)]
  · rw [if_neg h, if_pos ⟨hk, by omega⟩]

theorem seen_dense {n : Nat} {k : Kind} (hk : k.sparse = false) (g : Fin n → T) (l : Fin n) : seen k g l = g l := by
  unfold seen
  rw [if_neg (by simp [hk])]

theorem rowVal_seen {m : Mat T} {n c : Nat} (hc : m.cols = c) (hv : m.kind ≠ .dvec ∧ m.kind ≠ .svec)
    {A : Matrix (Fin n) (Fin c) T} (hA : ∀ (i : Fin n) (j : Fin c), m.val i j = A i j) (i : Fin n) (l : Fin c) :
    m.rowVal i l = seen m.kind (A i) l := by
  subst hc
  have e : A i = fun x : Fin m.cols => m.val i x := by funext x; rw [hA]
  rw [e]
  unfold Mat.rowVal
  cases hk : m.kind with
  | csr => rw [seen_short rfl (fun x => m.val i x)]
  | csc => rw [seen_short rfl (fun x => m.val i x)]
  | dense => rw [seen_dense rfl]
  | dvec => exact absurd hk hv.1
  | svec => exact absurd hk hv.2

theorem colVal_seen {m : Mat T} {n c : Nat} (hr : m.rows = n) (hv : m.kind ≠ .dvec ∧ m.kind ≠ .svec)
    {A : Matrix (Fin n) (Fin c) T} (hA : ∀ (i : Fin n) (j : Fin c), m.val i j = A i j) (j : Fin c) (l : Fin n) :
    m.colVal j l = seen m.kind (fun x => A x j) l := by
  subst hr
  have e : (fun x => A x j) = fun x : Fin m.rows => m.val x j := by funext x; rw [hA]
  rw [e]
  unfold Mat.colVal
  cases hk : m.kind with
  | csr => rw [seen_short rfl (fun x => m.val x j)]
  | csc => rw [seen_short rfl (fun x => m.val x j)]
  | dense => rw [seen_dense rfl]
  | dvec => exact absurd hk hv.1
  | svec => exact absurd hk hv.2

end MExpr

theorem ComputesIn.map {w : World T} {k k' : Kind} {r c r' c' : Nat} {A : Matrix (Fin r) (Fin c) T}
    {B : Matrix (Fin r') (Fin c') T} {x : M T Ref} {f : Ref → M T Ref} (h : ComputesIn w k A (x w))
    (hf : ∀ p w', p < w'.next → w'.reg = w.reg → w'.gas = w.gas → (w'.heap p).WF → (w'.heap p).kind = k →
      (w'.heap p).rows = r → (w'.heap p).cols = c → (∀ (i : Fin r) (j : Fin c), (w'.heap p).val i j = A i j) →
      ∃ F, Returns w' k' r' c' F (f p w') ∧ ∀ (i : Fin r') (j : Fin c'), F i j = B i j) :
    ComputesIn w k' B ((x >>= f) w) := by
  obtain ⟨p, w', h1, h2, h3, h4, h5, h6, h7, h8, h9, h10, h11, h12⟩ := h
  obtain ⟨F, ⟨q, v, g1, g2, g3, g4, g5, g6, g7, g8, g9, g10, g11, g12⟩, hF⟩ := hf p w' h2 h6 h7 h8 h9 h10 h11 h12
  rw [bind_ok h1]
  exact ⟨q, v, g1, g3, Nat.le_trans h3 (Nat.le_of_lt (Nat.lt_of_le_of_lt g2 g3)),
    fun k hk => (g4 k (Nat.lt_of_lt_of_le hk h3)).trans (h4 k hk), g5.trans h5, g6.trans h6, g7.trans h7,
    g8, g9, g10, g11, fun i j => (g12 i j i.2 j.2).trans (hF i j)⟩

theorem ComputesIn.map₂ {w : World T} {k k' k'' : Kind} {r c r' c' r'' c'' : Nat} {A : Matrix (Fin r) (Fin c) T}
    {B : Matrix (Fin r') (Fin c') T} {C : Matrix (Fin r'') (Fin c'') T}
    {x y : M T Ref} {f : Ref → Ref → M T Ref} (h : ComputesIn w k A (x w))
    (hy : ∀ w', w.next ≤ w'.next → (∀ q, q < w.next → w'.heap q = w.heap q) → w'.reg = w.reg → w'.gas = w.gas →
      ComputesIn w' k' B (y w'))
    (hf : ∀ p q w', p < w'.next → q < w'.next → w'.reg = w.reg → w'.gas = w.gas →
      (w'.heap p).WF → (w'.heap p).kind = k → (w'.heap p).rows = r → (w'.heap p).cols = c →
      (∀ (i : Fin r) (j : Fin c), (w'.heap p).val i j = A i j) →
      (w'.heap q).WF → (w'.heap q).kind = k' → (w'.heap q).rows = r' → (w'.heap q).cols = c' →
      (∀ (i : Fin r') (j : Fin c'), (w'.heap q).val i j = B i j) →
      ∃ F, Returns w' k'' r'' c'' F (f p q w') ∧ ∀ (i : Fin r'') (j : Fin c''), F i j = C i j) :
    ComputesIn w k'' C ((x >>= fun p => y >>= fun q => f p q) w) := by
  obtain ⟨p, w', h1, h2, h3, h4, h5, h6, h7, h8, h9, h10, h11, h12⟩ := h
  obtain ⟨q, v, g1, g2, g3, g4, g5, g6, g7, g8, g9, g10, g11, g12⟩ := hy w' h3 h4 h6 h7
  have ep : v.heap p = w'.heap p := g4 p h2
  obtain ⟨F, ⟨t, u, k1, k2, k3, k4, k5, k6, k7, k8, k9, k10, k11, k12⟩, hF⟩ :=
    hf p q v (Nat.lt_of_lt_of_le h2 g3) g2 (g6.trans h6) (g7.trans h7) (by rw [ep]; exact h8) (by rw [ep]; exact h9)
      (by rw [ep]; exact h10) (by rw [ep]; exact h11) (by rw [ep]; exact h12) g8 g9 g10 g11 g12
  rw [bind_ok h1, bind_ok g1]
  exact ⟨t, u, k1, k3, Nat.le_trans h3 (Nat.le_trans g3 (Nat.le_of_lt (Nat.lt_of_le_of_lt k2 k3))),
    fun k hk => (k4 k (Nat.lt_of_lt_of_le hk (Nat.le_trans h3 g3))).trans ((g4 k (Nat.lt_of_lt_of_le hk h3)).trans (h4 k hk)),
    (k5.trans g5).trans h5, (k6.trans g6).trans h6, (k7.trans g7).trans h7,
    k8, k9, k10, k11, fun i j => (k12 i j i.2 j.2).trans (hF i j)⟩

/-- C79, what is computed. Every expression over CSR, CSC and dense matrices in any mixture whose multiples
annihilate at most the last non-zero cell of a row (CSR) or column (CSC) ends with a matrix of the format `fmt`
that holds `got`, and changes no matrix it was given. `got` depends on the cells and formats of the variables only:
how the matrices came about does not matter. -/
theorem C79_exact : ∀ {r c : Nat} (e : MExpr T r c) {w : World T}, w.reg = initReg → e.Given w → e.Small w.gas →
    e.Keeps w → ComputesIn w (e.fmt w) (e.got w) (e.run w)
  | _, _, .var p r c, w, _, hg, _, _ => by
    obtain ⟨h1, h2, -, -, h4, h5⟩ := hg
    exact ⟨p, w, rfl, h1, Nat.le_refl _, fun _ _ => rfl, rfl, rfl, rfl, h2, rfl, h4, h5, fun _ _ => rfl⟩
  | r, c, .mul (k := k) a b, w, hr, hg, hsm, hk => by
    refine ComputesIn.map₂ (f := Meth.multiply) (C79_exact a hr hg.1 hsm.2.1 hk.1)
      (fun w' e1 e2 e3 e4 => by
        have := C79_exact b (e3.trans hr) (hg.2.mono e1 e2) (by rw [e4]; exact hsm.2.2) (hk.2.congr e2 b hg.2)
        rwa [MExpr.got_congr e2 b hg.2, MExpr.fmt_congr e2 b hg.2] at this) ?_
    intro p q w' hp hq _ _ p1 p2 p3 p4 p5 q1 q2 q3 q4 q5
    have ha := MExpr.fmt_matrix a hg.1
    have hb := MExpr.fmt_matrix b hg.2
    rw [← p2] at ha
    rw [← q2] at hb
    have := C20_method_exact hp hq p1 q1 ⟨ha.2, ha.1⟩ (by rw [q3, p4])
    rw [p3, q4] at this
    refine ⟨_, by rw [p2] at this; exact this, fun i j => ?_⟩
    show _ = ∑ l, MExpr.seen (a.fmt w) (a.got w i) l * MExpr.seen (b.fmt w) (fun x => b.got w x j) l
    rw [p4, ← Fin.sum_univ_eq_sum_range (fun l => (w'.heap p).rowVal i l * (w'.heap q).colVal j l) k]
    refine Finset.sum_congr rfl (fun l _ => ?_)
    rw [MExpr.rowVal_seen p4 ha p5, MExpr.colVal_seen q3 hb q5, p2, q2]
  | r, c, .add a b, w, hr, hg, hsm, hk => by
    refine ComputesIn.map₂ (f := Meth.add) (C79_exact a hr hg.1 hsm.1 hk.1)
      (fun w' e1 e2 e3 e4 => by
        have := C79_exact b (e3.trans hr) (hg.2.mono e1 e2) (by rw [e4]; exact hsm.2) (hk.2.congr e2 b hg.2)
        rwa [MExpr.got_congr e2 b hg.2, MExpr.fmt_congr e2 b hg.2] at this) ?_
    intro p q w' hp hq er eg p1 p2 p3 p4 p5 q1 q2 q3 q4 q5
    have hl := MExpr.Small.le a hsm.1
    have ha := MExpr.fmt_matrix a hg.1
    rw [← p2] at ha
    have := C18_add_exact hp hq p1 q1 ha.2 ⟨p3.trans q3.symm, p4.trans q4.symm⟩
      (Nat.le_trans (Mat.nvalues_le p1) (by rw [p3, p4, eg]; exact hl))
      (Nat.le_trans (Mat.nvalues_le q1) (by rw [q3, q4, eg]; exact hl))
    refine ⟨_, by rw [p3, p4, p2] at this; exact this, fun i j => ?_⟩
    show _ = MExpr.sumIn (a.fmt w) (a.got w) (b.got w) i j
    unfold MExpr.sumIn
    have hiff : ((w'.heap p).typeName ∈ w'.reg ∧ a.fmt w ≠ .dense ∧ a.fmt w ≠ .dvec ∧
        (w'.heap p).val i j = 0) ↔ ((a.fmt w).sparse = true ∧ GoNum.gname T = "float64" ∧ a.got w i j = 0) := by
      rw [er, hr, typeName_initReg, p5, p2]
      cases hf : a.fmt w <;> simp_all [Kind.sparse]
    by_cases h : (a.fmt w).sparse = true ∧ GoNum.gname T = "float64" ∧ a.got w i j = 0
    · rw [if_pos h, if_pos (hiff.2 h)]
    · rw [if_neg h, if_neg (fun h' => h (hiff.1 h')), p5, q5]
  | r, c, .sub a b, w, hr, hg, hsm, hk => by
    refine ComputesIn.map₂ (f := Meth.subtract) (C79_exact a hr hg.1 hsm.1 hk.1)
      (fun w' e1 e2 e3 e4 => by
        have := C79_exact b (e3.trans hr) (hg.2.mono e1 e2) (by rw [e4]; exact hsm.2) (hk.2.congr e2 b hg.2)
        rwa [MExpr.got_congr e2 b hg.2, MExpr.fmt_congr e2 b hg.2] at this) ?_
    intro p q w' hp hq er eg p1 p2 p3 p4 p5 q1 q2 q3 q4 q5
    have hl := MExpr.Small.le a hsm.1
    have ha := MExpr.fmt_matrix a hg.1
    have hb := MExpr.fmt_matrix b hg.2
    rw [← p2] at ha
    rw [← q2] at hb
    have := C19_subtract_exact hp hq p1 q1 ha.2 hb.2 ⟨p3.trans q3.symm, p4.trans q4.symm⟩
      (Nat.le_trans (Mat.nvalues_le p1) (by rw [p3, p4, eg]; exact hl))
    refine ⟨_, by rw [q2, p3, p4] at this; exact this, fun i j => ?_⟩
    show _ = MExpr.diffIn (a.fmt w) (a.got w) (b.got w) i j
    unfold MExpr.diffIn
    have hiff : ((w'.heap p).kind ≠ .dense ∧ (w'.heap p).kind ≠ .dvec ∧ (w'.heap p).val i j = 0) ↔
        ((a.fmt w).sparse = true ∧ a.got w i j = 0) := by
      rw [p5, p2]
      cases hf : a.fmt w <;> simp_all [Kind.sparse]
    by_cases h : (a.fmt w).sparse = true ∧ a.got w i j = 0
    · rw [if_pos h, if_pos (hiff.2 h), q5]
    · rw [if_neg h, if_neg (fun h' => h (hiff.1 h')), p5, q5]
  | r, c, .neg a, w, hr, hg, hsm, hk => by
    refine ComputesIn.map (f := Meth.negative) (C79_exact a hr hg hsm hk) ?_
    intro p w' hp er eg p1 p2 p3 p4 p5
    have := C16_negative p1 (Nat.le_trans (Mat.nvalues_le p1) (by rw [p3, p4, eg]; exact MExpr.Small.le a hsm))
    rw [p2, p3, p4] at this
    exact ⟨_, this, fun i j => by rw [p5]; rfl⟩
  | r, c, .smul alpha a, w, hr, hg, hsm, hk => by
    refine ComputesIn.map (f := fun x => Meth.scalar x alpha) (C79_exact a hr hg hsm hk.1) ?_
    intro p w' hp er eg p1 p2 p3 p4 p5
    have hgas := Nat.le_trans (Mat.nvalues_le p1) (by rw [p3, p4, eg]; exact MExpr.Small.le a hsm : _ ≤ w'.gas)
    have ha := MExpr.fmt_matrix a hg
    have key : Returns w' (w'.heap p).kind (w'.heap p).rows (w'.heap p).cols
        (fun i j => alpha * (w'.heap p).val i j) (Meth.scalar p alpha w') := by
      cases hf : a.fmt w with
      | csr =>
        refine C17_csr_partial alpha (p2.trans hf) p1 hgas (fun i j j' hi hj hj' => ?_)
        rw [p3] at hi
        rw [p4] at hj'
        have := hk.2.1 hf ⟨i, hi⟩ ⟨j, by omega⟩ ⟨j', hj'⟩ hj
        rwa [← p5, ← p5] at this
      | csc =>
        refine C17_csc_partial alpha (p2.trans hf) p1 hgas (fun i i' j hi hi' hj => ?_)
        rw [p3] at hi'
        rw [p4] at hj
        have := hk.2.2 hf ⟨i, by omega⟩ ⟨i', hi'⟩ ⟨j, hj⟩ hi
        rwa [← p5, ← p5] at this
      | dense => exact C17_scalar_partial alpha p1 hgas (Or.inl (p2.trans hf))
      | dvec => exact absurd hf ha.1
      | svec => exact absurd hf ha.2
    rw [p2, p3, p4] at key
    exact ⟨_, key, fun i j => by rw [p5]; rfl⟩
  | c, r, .trans a, w, hr, hg, hsm, hk => by
    refine ComputesIn.map (f := Meth.transpose) (C79_exact a hr hg hsm hk) ?_
    intro p w' hp er eg p1 p2 p3 p4 p5
    have := C15_transpose p1 hp (Nat.le_trans (Mat.nvalues_le p1) (by rw [p3, p4, eg]; exact MExpr.Small.le a hsm))
    have ht : transKind (a.fmt w) = a.fmt w := by
      have ha := MExpr.fmt_matrix a hg
      cases hf : a.fmt w <;> simp_all [transKind]
    rw [p2, p3, p4, ht] at this
    exact ⟨_, this, fun i j => p5 j i⟩

namespace MExpr

theorem seen_right {k : Kind} {n : Nat} {g : Fin n → T} (h : k.sparse = true → ∀ l, g l ≠ 0 → (l : Nat) ≤ filled g)
    (l : Fin n) : seen k g l = g l := by
  unfold seen
  split
  · rename_i hs
    by_contra hc
    exact absurd (h hs.1 l (fun h0 => hc h0.symm)) (by omega)
  · rfl

/-- Where every call is right the program computes what it denotes. -/
theorem got_right {w : World T} : ∀ {r c : Nat} (e : MExpr T r c), e.Right w → e.got w = e.den w ∧ e.Keeps w
  | _, _, var _ _ _, _ => ⟨rfl, trivial⟩
  | _, _, mul a b, h => by
    obtain ⟨ea, ka⟩ := got_right a h.1
    obtain ⟨eb, kb⟩ := got_right b h.2.1
    refine ⟨?_, ka, kb⟩
    funext i j
    show prodIn (a.fmt w) (b.fmt w) (a.got w) (b.got w) i j = (a.den w * b.den w) i j
    rw [ea, eb, Matrix.mul_apply]
    refine Finset.sum_congr rfl (fun l _ => ?_)
    rw [seen_right (fun hs l => h.2.2.1 hs i l), seen_right (fun hs l => h.2.2.2 hs j l)]
  | _, _, add a b, h => by
    obtain ⟨ea, ka⟩ := got_right a h.1
    obtain ⟨eb, kb⟩ := got_right b h.2.1
    refine ⟨?_, ka, kb⟩
    funext i j
    show sumIn (a.fmt w) (a.got w) (b.got w) i j = a.den w i j + b.den w i j
    rw [ea, eb]
    unfold sumIn
    split
    · rename_i hs
      rw [hs.2.2, h.2.2 hs.1 hs.2.1 i j hs.2.2, add_zero]
    · rfl
  | _, _, sub a b, h => by
    obtain ⟨ea, ka⟩ := got_right a h.1
    obtain ⟨eb, kb⟩ := got_right b h.2.1
    refine ⟨?_, ka, kb⟩
    funext i j
    show diffIn (a.fmt w) (a.got w) (b.got w) i j = a.den w i j - b.den w i j
    rw [ea, eb]
    unfold diffIn
    split
    · rename_i hs
      rw [hs.2, zero_sub]
      exact h.2.2 hs.1 i j hs.2
    · rfl
  | _, _, neg a, h => by
    obtain ⟨ea, ka⟩ := got_right a h
    exact ⟨by simp only [got, den, ea], ka⟩
  | _, _, smul alpha a, h => by
    obtain ⟨ea, ka⟩ := got_right a h.1
    refine ⟨by simp only [got, den, ea], ka, ?_⟩
    rw [ea]
    exact h.2
  | _, _, trans a, h => by
    obtain ⟨ea, ka⟩ := got_right a h
    exact ⟨by simp only [got, den, ea], ka⟩

theorem Right.congr {w w' : World T} (hh : ∀ q, q < w.next → w'.heap q = w.heap q) :
    ∀ {r c : Nat} (e : MExpr T r c), e.Given w → (e.Right w ↔ e.Right w') ∧ e.den w' = e.den w
  | _, _, var p _ _, h => ⟨Iff.rfl, by
    funext i j
    show (w'.heap p).val i j = (w.heap p).val i j
    rw [hh p h.1]⟩
  | _, _, mul a b, h => by
    obtain ⟨a1, a2⟩ := Right.congr hh a h.1
    obtain ⟨b1, b2⟩ := Right.congr hh b h.2
    refine ⟨?_, by simp only [den, a2, b2]⟩
    simp only [Right, a1, b1, a2, b2, fmt_congr hh a h.1, fmt_congr hh b h.2]
  | _, _, add a b, h => by
    obtain ⟨a1, a2⟩ := Right.congr hh a h.1
    obtain ⟨b1, b2⟩ := Right.congr hh b h.2
    refine ⟨?_, by simp only [den, a2, b2]⟩
    simp only [Right, a1, b1, a2, b2, fmt_congr hh a h.1]
  | _, _, sub a b, h => by
    obtain ⟨a1, a2⟩ := Right.congr hh a h.1
    obtain ⟨b1, b2⟩ := Right.congr hh b h.2
    refine ⟨?_, by simp only [den, a2, b2]⟩
    simp only [Right, a1, b1, a2, b2, fmt_congr hh a h.1]
  | _, _, neg a, h => by
    obtain ⟨a1, a2⟩ := Right.congr hh a h
    exact ⟨a1, by simp only [den, a2]⟩
  | _, _, smul _ a, h => by
    obtain ⟨a1, a2⟩ := Right.congr hh a h
    refine ⟨?_, by simp only [den, a2]⟩
    simp only [Right, a1, a2, fmt_congr hh a h]
  | _, _, trans a, h => by
    obtain ⟨a1, a2⟩ := Right.congr hh a h
    exact ⟨a1, by simp only [den, a2]⟩

/-- Sums, negatives and transposes are right without conditions unless the elements are `float64`. -/
theorem Linear.right (hn : GoNum.gname T ≠ "float64") {w : World T} : ∀ {r c : Nat} (e : MExpr T r c), e.Linear → e.Right w
  | _, _, var _ _ _, _ => trivial
  | _, _, add a b, h => ⟨Linear.right hn a h.1, Linear.right hn b h.2, fun _ h' => absurd h' hn⟩
  | _, _, neg a, h => Linear.right hn a h
  | _, _, trans a, h => Linear.right hn a h

end MExpr

/-- C79, the part that holds: an expression over CSR, CSC and dense matrices in any mixture, each of whose calls is
given operands its method handles (`MExpr.Right`), computes the matrix it denotes.

Missing: without the conditions it is false (`C79_refuted`); `C79_exact` says what is computed then. -/
theorem C79_expression_partial {r c : Nat} (e : MExpr T r c) {w : World T} (hr : w.reg = initReg) (hg : e.Given w)
    (hsm : e.Small w.gas) (h : e.Right w) : ComputesIn w (e.fmt w) (e.den w) (e.run w) := by
  obtain ⟨h1, h2⟩ := MExpr.got_right e h
  have := C79_exact e hr hg hsm h2
  rwa [h1] at this

/-- C79, exactly when: an expression whose multiples remove no cells but last ones computes the matrix it denotes if
and only if that is what the formats make of it. -/
theorem C79_iff {r c : Nat} (e : MExpr T r c) {w : World T} (hr : w.reg = initReg) (hg : e.Given w)
    (hsm : e.Small w.gas) (hk : e.Keeps w) : ComputesIn w (e.fmt w) (e.den w) (e.run w) ↔ e.got w = e.den w := by
  have hx := C79_exact e hr hg hsm hk
  constructor
  · intro hd
    obtain ⟨p, w', h1, -, -, -, -, -, -, -, -, -, -, h2⟩ := hx
    obtain ⟨q, v, g1, -, -, -, -, -, -, -, -, -, -, g2⟩ := hd
    rw [h1] at g1
    cases g1
    funext i j
    rw [← h2, ← g2]
  · intro he
    rwa [he] at hx

/-- C79 for element types other than `float64`: sums, negatives and transposes, nested in any way over any mixture
of formats, compute what they denote. No condition on the contents. -/
theorem C79_linear {r c : Nat} (e : MExpr T r c) {w : World T} (hn : GoNum.gname T ≠ "float64") (hr : w.reg = initReg)
    (hg : e.Given w) (hsm : e.Small w.gas) (hl : e.Linear) : ComputesIn w (e.fmt w) (e.den w) (e.run w) :=
  C79_expression_partial e hr hg hsm (hl.right hn)

/-- C79, equality. Two expressions of one shape whose results are both compressed or both dense are `Equal`
exactly when they denote the same matrix. -/
theorem C79_equal {w : World T} {r c : Nat} (a b : MExpr T r c) (hr : w.reg = initReg) (ha : a.Given w) (hb : b.Given w)
    (sa : a.Small w.gas) (sb : b.Small w.gas) (ra : a.Right w) (rb : b.Right w)
    (hk : (a.fmt w).sparse = (b.fmt w).sparse) :
    ∃ res w', a.same b w = .ok res w' ∧ (res = true ↔ a.den w = b.den w) ∧ ∀ q, q < w.next → w'.heap q = w.heap q := by
  obtain ⟨p, w', h1, h2, h3, h4, h5, h6, h7, h8, h9, h10, h11, h12⟩ := C79_expression_partial a hr ha sa ra
  obtain ⟨q, v, g1, g2, g3, g4, g5, g6, g7, g8, g9, g10, g11, g12⟩ :=
    C79_expression_partial b (h6.trans hr) (hb.mono h3 h4) (by rw [h7]; exact sb) ((MExpr.Right.congr h4 b hb).1.1 rb)
  rw [(MExpr.Right.congr h4 b hb).2] at g12
  rw [MExpr.fmt_congr h4 b hb] at g9
  have ep : v.heap p = w'.heap p := g4 p h2
  have hl := MExpr.Small.le a sa
  have eg : v.gas = w.gas := g7.trans h7
  obtain ⟨res, k1, -, k2⟩ := C27_equal_partial (w := v) (s := p) (m := q) ((g6.trans h6).trans hr) (by rw [ep]; exact h8) g8
    (Nat.le_trans (Mat.nvalues_le (by rw [ep]; exact h8)) (by rw [ep, h10, h11, eg]; exact hl))
    (Nat.le_trans (Mat.nvalues_le g8) (by rw [g10, g11, eg]; exact hl)) (by rw [ep, h9, g9]; exact hk)
  refine ⟨res, v, ?_, ?_, fun k hk => (g4 k (Nat.lt_of_lt_of_le hk h3)).trans (h4 k hk)⟩
  · show (a.run >>= fun x => b.run >>= fun y => Meth.equal x y) w = _
    rw [bind_ok h1, bind_ok g1, k1]
  · rw [k2, ep]
    constructor
    · rintro ⟨-, hv⟩
      funext i j
      rw [← h12, ← g12]
      exact hv i j (by rw [h10]; exact i.2) (by rw [h11]; exact j.2)
    · intro hd
      refine ⟨⟨h10.trans g10.symm, h11.trans g11.symm⟩, fun i j hi hj => ?_⟩
      rw [h10] at hi
      rw [h11] at hj
      rw [h12 ⟨i, hi⟩ ⟨j, hj⟩, g12 ⟨i, hi⟩ ⟨j, hj⟩, hd]

theorem Agrees.of_right {w : World T} {r c : Nat} {a b : MExpr T r c} (hr : w.reg = initReg) (ha : a.Given w)
    (hb : b.Given w) (sa : a.Small w.gas) (sb : b.Small w.gas) (ra : a.Right w) (rb : b.Right w)
    (hk : (a.fmt w).sparse = (b.fmt w).sparse) (h : a.den w = b.den w) : Agrees w (a.same b w) := by
  obtain ⟨res, w', h1, h2, h3⟩ := C79_equal a b hr ha hb sa sb ra rb hk
  rw [h2.2 h] at h1
  exact ⟨w', h1, h3⟩

section laws
variable {w : World T} {r c : Nat}

/-- C79: for element types other than `float64`, `A + B` and `B + A` are `Equal` when both are compressed or both are
dense, whichever compressed formats they are in. -/
theorem C79_add_comm (hn : GoNum.gname T ≠ "float64") (a b : MExpr T r c) (hr : w.reg = initReg)
    (ha : a.Given w) (hb : b.Given w) (sa : a.Small w.gas) (sb : b.Small w.gas) (ra : a.Right w) (rb : b.Right w)
    (hk : (a.fmt w).sparse = (b.fmt w).sparse) : Agrees w ((a.add b).same (b.add a) w) :=
  Agrees.of_right hr ⟨ha, hb⟩ ⟨hb, ha⟩ ⟨sa, sb⟩ ⟨sb, sa⟩ ⟨ra, rb, fun _ h => absurd h hn⟩ ⟨rb, ra, fun _ h => absurd h hn⟩
    hk (add_comm _ _)

/-- C79: `(A + B) + C` and `A + (B + C)` are `Equal`, in any mixture of formats. -/
theorem C79_add_assoc (hn : GoNum.gname T ≠ "float64") (a b d : MExpr T r c) (hr : w.reg = initReg)
    (ha : a.Given w) (hb : b.Given w) (hd : d.Given w) (sa : a.Small w.gas) (sb : b.Small w.gas) (sd : d.Small w.gas)
    (ra : a.Right w) (rb : b.Right w) (rd : d.Right w) : Agrees w (((a.add b).add d).same (a.add (b.add d)) w) :=
  Agrees.of_right hr ⟨⟨ha, hb⟩, hd⟩ ⟨ha, hb, hd⟩ ⟨⟨sa, sb⟩, sd⟩ ⟨sa, sb, sd⟩
    ⟨⟨ra, rb, fun _ h => absurd h hn⟩, rd, fun _ h => absurd h hn⟩
    ⟨ra, ⟨rb, rd, fun _ h => absurd h hn⟩, fun _ h => absurd h hn⟩ rfl (add_assoc _ _ _)

/-- C79: `(A + B)ᵀ` and `Aᵀ + Bᵀ` are `Equal`, in any mixture of formats. -/
theorem C79_transpose_add (hn : GoNum.gname T ≠ "float64") (a b : MExpr T r c) (hr : w.reg = initReg)
    (ha : a.Given w) (hb : b.Given w) (sa : a.Small w.gas) (sb : b.Small w.gas) (ra : a.Right w) (rb : b.Right w) :
    Agrees w ((a.add b).trans.same (a.trans.add b.trans) w) :=
  Agrees.of_right hr ⟨ha, hb⟩ ⟨ha, hb⟩ ⟨sa, sb⟩ ⟨sa, sb⟩ ⟨ra, rb, fun _ h => absurd h hn⟩ ⟨ra, rb, fun _ h => absurd h hn⟩
    rfl (Matrix.transpose_add _ _)

/-- C79: `(Aᵀ)ᵀ` and `A` are `Equal`, and so are `−(−A)` and `A`, for every element type and format. -/
theorem C79_involutions (a : MExpr T r c) (hr : w.reg = initReg) (ha : a.Given w) (sa : a.Small w.gas) (ra : a.Right w) :
    Agrees w (a.trans.trans.same a w) ∧ Agrees w (a.neg.neg.same a w) :=
  ⟨Agrees.of_right hr ha ha sa sa ra ra rfl (Matrix.transpose_transpose _),
    Agrees.of_right hr ha ha sa sa ra ra rfl (neg_neg _)⟩

/-- C79: `−(Aᵀ)` and `(−A)ᵀ` are `Equal`, for every element type and format. -/
theorem C79_neg_transpose (a : MExpr T r c) (hr : w.reg = initReg) (ha : a.Given w) (sa : a.Small w.gas) (ra : a.Right w) :
    Agrees w (a.trans.neg.same a.neg.trans w) :=
  Agrees.of_right hr ha ha sa sa ra ra rfl (Matrix.transpose_neg _).symm

end laws

namespace ExprAnyEx

/-- `[[0, 7], [0, 0]]` in CSR. -/
def a : Mat ℤ := .csr ⟨2, 2, [7], [1], [0, 1, 1]⟩
/-- `[[1, 0], [0, 2]]` in CSC. -/
def b : Mat ℤ := .csc ⟨2, 2, [1, 2], [0, 1], [0, 1, 2]⟩
def d : Mat ℤ := .dense ⟨2, 2, [[1, 2], [3, 4]]⟩
def w : World ℤ := World.of 9 [a, b, d]
def A : MExpr ℤ 2 2 := .var 0 2 2
def B : MExpr ℤ 2 2 := .var 1 2 2
def D : MExpr ℤ 2 2 := .var 2 2 2

theorem given_A : A.Given w :=
  ⟨by decide, (Reach.arrCSR (data := [[0, 7], [0, 0]]) (c := 2) (by unfold Rect; simp)
    (by kernel_rfl)).wf (by decide), by decide, by decide, rfl, rfl⟩
theorem given_B : B.Given w :=
  ⟨by decide, (Reach.arrCSC (data := [[1, 0], [0, 2]]) (c := 2) (by unfold Rect; simp)
    (by kernel_rfl)).wf (by decide), by decide, by decide, rfl, rfl⟩
theorem given_D : D.Given w := ⟨by decide, ⟨rfl, by simp⟩, by decide, by decide, rfl, rfl⟩

/-- `(A + Bᵀ) + (−D)`: a CSR, a CSC and a dense matrix. -/
def e : MExpr ℤ 2 2 := .add (.add A B.trans) D.neg

example : ComputesIn w .csr (e.den w) (e.run w) :=
  C79_linear e (by decide) rfl ⟨⟨given_A, given_B⟩, given_D⟩ (by simp [e, A, B, D, MExpr.Small, w, World.of])
    ⟨⟨trivial, trivial⟩, trivial⟩

example : ((e.run w).obj.map (fun m => (m.kind, m.val 0 0, m.val 0 1, m.val 1 0, m.val 1 1))) =
    some (.csr, 0, 5, -3, -2) := by kernel_rfl

example : Agrees w ((A.add B).same (B.add A) w) :=
  C79_add_comm (by decide) A B rfl given_A given_B (show 2 * 2 ≤ 9 by decide) (show 2 * 2 ≤ 9 by decide) trivial trivial rfl

/-- A product with compressed operands all of whose lines are packed. -/
example : ComputesIn w .csc ((B.mul D).den w) ((B.mul D).run w) := by
  refine C79_expression_partial (B.mul D) rfl ⟨given_B, given_D⟩ ⟨show 2 * 2 ≤ 9 by decide, show 2 * 2 ≤ 9 by decide,
    show 2 * 2 ≤ 9 by decide⟩ ⟨trivial, trivial, fun _ i l hl => ?_, fun h => absurd h (by decide)⟩
  have h1 : 1 ≤ MExpr.filled (B.den w i) := by
    classical
    unfold MExpr.filled
    exact Finset.card_pos.2 ⟨l, by simp [hl]⟩
  omega

end ExprAnyEx

/-- C79 in full is false: over the integers, `A.Subtract(B)` with `A` a CSR matrix does not compute the
difference. -/
theorem C79_refuted : ∃ (w : World ℤ) (e : MExpr ℤ 2 2), w.reg = initReg ∧ e.Given w ∧ e.Small w.gas ∧
    ¬ ∃ k, ComputesIn w k (e.den w) (e.run w) := by
  refine ⟨ExprAnyEx.w, .sub ExprAnyEx.A ExprAnyEx.B, rfl, ⟨ExprAnyEx.given_A, ExprAnyEx.given_B⟩,
    ⟨show 2 * 2 ≤ 9 by decide, show 2 * 2 ≤ 9 by decide⟩, ?_⟩
  rintro ⟨k, p, w', h1, -, -, -, -, -, -, -, -, -, -, h2⟩
  have h3 := h2 0 0
  have h4 : ((MExpr.run (.sub ExprAnyEx.A ExprAnyEx.B) ExprAnyEx.w).obj.map (·.val 0 0)) = some 1 := by kernel_rfl
  rw [h1] at h4
  have h5 : (w'.heap p).val 0 0 = 1 := by simpa [Res.obj] using h4
  have h6 : MExpr.den ExprAnyEx.w (.sub ExprAnyEx.A ExprAnyEx.B) 0 0 = -1 := by kernel_rfl
  rw [h6] at h3
  exact absurd (h5.symm.trans h3) (by decide)

end GB
