import Verif.Lemmas.Strassen
import Verif.Lemmas.Sched

/-!
# The division into blocks of operands that are too small
-/

namespace GB

namespace M
variable {T : Type} [GoNum T]

/-- A counting loop whose body keeps `J` or panics, and panics from `J` at some value of the counter,
panics. -/
theorem forN_panic {β : Type} {body : Nat → M T (Option β)} {J : World T → Prop} : ∀ (n i0 : Nat) (w : World T),
    (∀ i, i0 ≤ i → i < i0 + n → ∀ w, J w → (∃ w', body i w = .panic w') ∨ ∃ w', body i w = .ok none w' ∧ J w') →
    (∃ i, i0 ≤ i ∧ i < i0 + n ∧ ∀ w, J w → ∃ w', body i w = .panic w') →
    J w → ∃ w', forN n i0 body w = .panic w' := by
  intro n
  induction n with
  | zero => rintro i0 w - ⟨i, h1, h2, -⟩; omega
  | succ n ih =>
    rintro i0 w hs ⟨i, h1, h2, h3⟩ hJ
    unfold forN
    rcases hs i0 (Nat.le_refl _) (by omega) w hJ with ⟨w', e⟩ | ⟨w', e, hJ'⟩
    · exact ⟨w', by simp only [bind_apply, e]⟩
    · rw [bind_ok e]
      by_cases he : i = i0
      · subst he
        obtain ⟨w2, e2⟩ := h3 w hJ
        rw [e] at e2
        cases e2
      · exact ih (i0 + 1) w' (fun x a b => hs x (by omega) (by omega)) ⟨i, by omega, by omega, h3⟩ hJ'

/-- A counting loop whose body keeps `J` or panics does so too. -/
theorem forN_or {β : Type} {body : Nat → M T (Option β)} {J : World T → Prop} : ∀ (n i0 : Nat) (w : World T),
    (∀ i, i0 ≤ i → i < i0 + n → ∀ w, J w → (∃ w', body i w = .panic w') ∨ ∃ w', body i w = .ok none w' ∧ J w') →
    J w → (∃ w', forN n i0 body w = .panic w') ∨ ∃ w', forN n i0 body w = .ok none w' ∧ J w' := by
  intro n
  induction n with
  | zero => intro i0 w _ hJ; exact Or.inr ⟨w, rfl, hJ⟩
  | succ n ih =>
    intro i0 w hs hJ
    unfold forN
    rcases hs i0 (Nat.le_refl _) (by omega) w hJ with ⟨w', e⟩ | ⟨w', e, hJ'⟩
    · exact Or.inl ⟨w', by simp only [bind_apply, e]⟩
    · rw [bind_ok e]
      exact ih (i0 + 1) w' (fun x a b => hs x (by omega) (by omega)) hJ'

end M

namespace Strassen
open M Meth

set_option linter.unusedSectionVars false

variable {T : Type} [GoNum T] [GoStore T] {n : Nat}

/-- The places at which `At` answers: those of the matrix; for a dense vector, which ignores the column, any column. -/
def Answers (m : Mat T) (i j : Nat) : Prop := i < m.rows ∧ (m.kind = .dvec ∨ j < m.cols)

theorem at_in {m : Mat T} (h : m.WF) {i j : Nat} (ha : Answers m i j) :
    m.at' (i : Int) (j : Int) = .ok (m.val i (if m.kind = .dvec then 0 else j), m) := by
  by_cases hk : m.kind = .dvec
  · rw [if_pos hk]
    have := Mat.at_ok h ha.1 (j := 0) (by cases m <;> simp [Mat.kind] at hk; exact Nat.one_pos)
    cases m <;> simp [Mat.kind] at hk
    exact this
  · rw [if_neg hk]
    exact Mat.at_ok h ha.1 (ha.2.resolve_left hk)

theorem at_out {m : Mat T} {i j : Nat} (h : ¬ Answers m i j) : m.at' (i : Int) (j : Int) = .panic := by
  have hn : m.kind ≠ .dvec → ¬ (inRange (i : Int) m.rows = true ∧ inRange (j : Int) m.cols = true) := by
    rw [inRange_iff, inRange_iff]
    rintro hk ⟨⟨a, b⟩, c, d⟩
    exact h ⟨by omega, Or.inr (by omega)⟩
  cases m with
  | csr s => simp [Mat.at', CSR.at', CSR.updateWith_panic _ _ _ _ (hn (by simp [Mat.kind]))]
  | csc s => simp [Mat.at', CSC.at', CSC.updateWith_panic _ _ _ _ (hn (by simp [Mat.kind]))]
  | dense s => simp [Mat.at', Dense.at_panic _ _ _ (hn (by simp [Mat.kind]))]
  | dvec s =>
    have : ¬ i < s.l := fun hi => h ⟨hi, Or.inl rfl⟩
    simp [Mat.at', DVec.at', DVec.atVec_panic _ _ (show ¬ inRange (i : Int) s.l = true by simpa using this)]
  | svec s =>
    have := hn (by simp [Mat.kind])
    have e : s.at' (i : Int) (j : Int) = .panic := by
      unfold SVec.at' SVec.updateWith
      by_cases h1 : inRange (i : Int) s.l = true
      · rw [if_pos h1, if_neg (show ¬ inRange (j : Int) 1 = true from fun h2 => this ⟨h1, h2⟩)]
      · rw [if_neg h1]
    simp [Mat.at', e]

/-- The blocks are being filled, whatever with; the context is not cancelled. -/
def Busy {N : Nat} (n : Nat) (w : World T) (blk : Fin N → Ref) (w' : World T) : Prop :=
  ∃ F, Filling True n w blk F w'

theorem Busy.copy {N : Nat} {w w' : World T} {blk : Fin N → Ref}
    (h : Busy n w blk w') (hinj : Function.Injective blk) (k : Fin N) {src : Ref}
    (hsrc : ∀ k, src ≠ blk k) {r c : Nat} (i j : Nat) (hr : r < n) (hc : c < n) (hs : (w.heap src).WF) :
    (∃ w'', copyCell (blk k) r c src i j w' = .panic w'') ∨
      (Answers (w.heap src) i j ∧ ∃ w'', copyCell (blk k) r c src i j w' = .ok () w'' ∧ Busy n w blk w'') := by
  obtain ⟨F, hF⟩ := h
  by_cases hij : Answers (w.heap src) i j
  · obtain ⟨w'', e, h2⟩ := hF.copy hinj k hsrc hr hc (at_in hs hij)
    exact Or.inr ⟨hij, w'', e, _, h2⟩
  · refine Or.inl ⟨w', ?_⟩
    have e := hF.frame src hsrc
    unfold copyCell
    have ha : M.at' src i j w' = .panic w' := by
      unfold M.at' withObj
      dsimp only
      rw [e, at_out hij]
    simp only [bind_apply, ha]

theorem splitCell_or {w w' : World T} {a b : Ref} {k : Blocks} {size r c : Nat}
    (hinj : Function.Injective k.ref) (ha : ∀ i, a ≠ k.ref i) (hb : ∀ i, b ≠ k.ref i)
    (haw : (w.heap a).WF) (hbw : (w.heap b).WF) (hr : r < size) (hc : c < size) (h : Busy size w k.ref w') :
    (∃ w'', splitCell a b k size r c w' = .panic w'') ∨
      (r + size < (w.heap a).rows ∧ ((w.heap b).kind = .dvec ∨ c + size < (w.heap b).cols) ∧
        ∃ w'', splitCell a b k size r c w' = .ok none w'' ∧ Busy size w k.ref w'') := by
  have hcn : w'.cancel = none := by obtain ⟨F, hF⟩ := h; exact hF.cancel trivial
  have e0 : splitCell a b k size r c w' = (do
    copyCell (k.ref 0) r c a r c
    copyCell (k.ref 1) r c a r (c + size)
    copyCell (k.ref 2) r c a (r + size) c
    copyCell (k.ref 3) r c a (r + size) (c + size)
    copyCell (k.ref 4) r c b r c
    copyCell (k.ref 5) r c b r (c + size)
    copyCell (k.ref 6) r c b (r + size) c
    copyCell (k.ref 7) r c b (r + size) (c + size)
    pure none : M T (Option Unit)) w' := by
    have e1 : ({ w' with cancel := tick w'.cancel } : World T) = w' := by
      cases w'; simp only at hcn; subst hcn; rfl
    unfold splitCell
    rw [bind_ok (poll_go (by rw [hcn]; simp)), e1]
    rfl
  rw [e0]
  rcases h.copy hinj 0 ha r c hr hc haw with ⟨w1, e1⟩ | ⟨-, w1, e1, h1⟩
  · exact Or.inl ⟨w1, by simp only [bind_apply, e1]⟩
  rw [bind_ok e1]
  rcases h1.copy hinj 1 ha r (c + size) hr hc haw with ⟨w2, e2⟩ | ⟨-, w2, e2, h2⟩
  · exact Or.inl ⟨w2, by simp only [bind_apply, e2]⟩
  rw [bind_ok e2]
  rcases h2.copy hinj 2 ha (r + size) c hr hc haw with ⟨w3, e3⟩ | ⟨⟨hR, -⟩, w3, e3, h3⟩
  · exact Or.inl ⟨w3, by simp only [bind_apply, e3]⟩
  rw [bind_ok e3]
  rcases h3.copy hinj 3 ha (r + size) (c + size) hr hc haw with ⟨w4, e4⟩ | ⟨-, w4, e4, h4⟩
  · exact Or.inl ⟨w4, by simp only [bind_apply, e4]⟩
  rw [bind_ok e4]
  rcases h4.copy hinj 4 hb r c hr hc hbw with ⟨w5, e5⟩ | ⟨-, w5, e5, h5⟩
  · exact Or.inl ⟨w5, by simp only [bind_apply, e5]⟩
  rw [bind_ok e5]
  rcases h5.copy hinj 5 hb r (c + size) hr hc hbw with ⟨w6, e6⟩ | ⟨⟨-, hC⟩, w6, e6, h6⟩
  · exact Or.inl ⟨w6, by simp only [bind_apply, e6]⟩
  rw [bind_ok e6]
  rcases h6.copy hinj 6 hb (r + size) c hr hc hbw with ⟨w7, e7⟩ | ⟨-, w7, e7, h7⟩
  · exact Or.inl ⟨w7, by simp only [bind_apply, e7]⟩
  rw [bind_ok e7]
  rcases h7.copy hinj 7 hb (r + size) (c + size) hr hc hbw with ⟨w8, e8⟩ | ⟨-, w8, e8, h8⟩
  · exact Or.inl ⟨w8, by simp only [bind_apply, e8]⟩
  rw [bind_ok e8]
  exact Or.inr ⟨hR, hC, w8, rfl, h8⟩

theorem split_panic {w : World T} {a b : Ref} {size : Nat}
    (haw : (w.heap a).WF) (hbw : (w.heap b).WF)
    (hbr : (w.heap b).rows / 2 = size)
    (hlow : ¬ (size + size ≤ (w.heap a).rows ∧ ((w.heap b).kind = .dvec ∨ size + size ≤ (w.heap b).cols)))
    (han : a < w.next) (hbn : b < w.next) (hc : w.cancel = none) :
    ∃ w', split a b w = .panic w' := by
  unfold split
  rw [bind_ok (show rowsOf b w = .ok (w.heap b).rows w by rw [rowsOf_apply])]
  simp only [hbr]
  obtain ⟨w1, e1, x1, g1, n1, c1⟩ := new_has (live := True) w size
  obtain ⟨w2, e2, x2, g2, n2, c2⟩ := new_has (live := True) w1 size
  obtain ⟨w3, e3, x3, g3, n3, c3⟩ := new_has (live := True) w2 size
  obtain ⟨w4, e4, x4, g4, n4, c4⟩ := new_has (live := True) w3 size
  obtain ⟨w5, e5, x5, g5, n5, c5⟩ := new_has (live := True) w4 size
  obtain ⟨w6, e6, x6, g6, n6, c6⟩ := new_has (live := True) w5 size
  obtain ⟨w7, e7, x7, g7, n7, c7⟩ := new_has (live := True) w6 size
  obtain ⟨w8, e8, x8, g8, n8, c8⟩ := new_has (live := True) w7 size
  rw [bind_ok e1, bind_ok e2, bind_ok e3, bind_ok e4, bind_ok e5, bind_ok e6, bind_ok e7, bind_ok e8]
  set k : Blocks := ⟨w.next, w1.next, w2.next, w3.next, w4.next, w5.next, w6.next, w7.next⟩ with hk
  have hex : Ext True w w8 :=
    x1.trans (x2.trans (x3.trans (x4.trans (x5.trans (x6.trans (x7.trans x8))))))
  have m1 : @Eq Nat w1.next (w.next + 1) := n1
  have m2 : @Eq Nat w2.next (w.next + 2) := by rw [n2, m1]
  have m3 : @Eq Nat w3.next (w.next + 3) := by rw [n3, m2]
  have m4 : @Eq Nat w4.next (w.next + 4) := by rw [n4, m3]
  have m5 : @Eq Nat w5.next (w.next + 5) := by rw [n5, m4]
  have m6 : @Eq Nat w6.next (w.next + 6) := by rw [n6, m5]
  have m7 : @Eq Nat w7.next (w.next + 7) := by rw [n7, m6]
  have href : ∀ i : Fin 8, k.ref i = w.next + i.1 := by
    intro i
    fin_cases i
    · rfl
    · exact m1
    · exact m2
    · exact m3
    · exact m4
    · exact m5
    · exact m6
    · exact m7
  have hinj : Function.Injective k.ref := by
    intro i j h
    rw [href, href] at h
    exact Fin.ext (Nat.add_left_cancel h)
  have hout : ∀ q, q < w.next → ∀ i, q ≠ k.ref i := by
    intro q hq i
    rw [href]
    exact Nat.ne_of_lt (Nat.lt_of_lt_of_le hq (Nat.le_add_right _ _))
  have h0 : Busy size w8 k.ref w8 := by
    refine ⟨fun _ _ _ => 0, rfl, rfl, rfl, fun hl => hex.cancel hl hc, fun _ _ => rfl, fun i => ?_⟩
    fin_cases i
    · exact (g1.mono (x2.trans (x3.trans (x4.trans (x5.trans (x6.trans (x7.trans x8))))))).2
    · exact (g2.mono (x3.trans (x4.trans (x5.trans (x6.trans (x7.trans x8)))))).2
    · exact (g3.mono (x4.trans (x5.trans (x6.trans (x7.trans x8))))).2
    · exact (g4.mono (x5.trans (x6.trans (x7.trans x8)))).2
    · exact (g5.mono (x6.trans (x7.trans x8))).2
    · exact (g6.mono (x7.trans x8)).2
    · exact (g7.mono x8).2
    · exact g8.2
  have ea := hex.heap a han
  have eb := hex.heap b hbn
  have cell : ∀ r c, r < size → c < size → ∀ w', Busy size w8 k.ref w' →
      (∃ w'', splitCell a b k size r c w' = .panic w'') ∨
      (r + size < (w.heap a).rows ∧ ((w.heap b).kind = .dvec ∨ c + size < (w.heap b).cols) ∧
        ∃ w'', splitCell a b k size r c w' = .ok none w'' ∧ Busy size w8 k.ref w'') := by
    intro r c hr hc w' hw'
    have := splitCell_or (w := w8) hinj (hout a han) (hout b hbn) (by rw [ea]; exact haw) (by rw [eb]; exact hbw)
      hr hc hw'
    rwa [ea, eb] at this
  have hpos : 0 < size := by
    rcases Nat.eq_zero_or_pos size with h | h
    · exact absurd ⟨by omega, Or.inr (by omega)⟩ hlow
    · exact h
  have key : ∃ w', forN size 0 (fun r => forN size 0 (fun c => splitCell a b k size r c)) w8 = .panic w' := by
    refine forN_panic (J := Busy size w8 k.ref) size 0 w8 (fun r _ hr w' hJ => ?_) ?_ h0
    · refine forN_or (J := Busy size w8 k.ref) size 0 w' (fun c _ hc w' hJ => ?_) hJ
      rcases cell r c (by omega) (by omega) w' hJ with h | ⟨-, -, h⟩
      · exact Or.inl h
      · exact Or.inr h
    · refine ⟨size - 1, by omega, by omega, fun w' hJ => ?_⟩
      refine forN_panic (J := Busy size w8 k.ref) size 0 w' (fun c _ hc w' hJ => ?_) ⟨size - 1, by omega, by omega, ?_⟩ hJ
      · rcases cell (size - 1) c (by omega) (by omega) w' hJ with h | ⟨-, -, h⟩
        · exact Or.inl h
        · exact Or.inr h
      · intro w' hJ
        rcases cell (size - 1) (size - 1) (by omega) (by omega) w' hJ with h | ⟨h1, h2, -⟩
        · exact h
        · exact absurd ⟨by omega, h2.imp_right (by omega)⟩ hlow
  obtain ⟨w', e⟩ := key
  exact ⟨w', by simp only [bind_apply, e]⟩

theorem forkV_panic {gas : Nat} {a b : Mat T} (haw : a.WF) (hbw : b.WF)
    (hlow : ¬ (b.rows / 2 + b.rows / 2 ≤ a.rows ∧ (b.kind = .dvec ∨ b.rows / 2 + b.rows / 2 ≤ b.cols))) :
    forkV gas none a b = .panic := by
  obtain ⟨w', e⟩ := split_panic (w := scene gas none [a, b]) (a := 0) (b := 1) haw hbw rfl hlow
    (by decide : 0 < 2) (by decide : 1 < 2) rfl
  unfold forkV
  simp only [bind_apply, e]

end Strassen
end GB
