import Verif.Props.Exact

/-!
# C80: is `Equal` an equivalence?
-/

namespace GB

set_option linter.unusedSectionVars false

open M Meth

section
variable {T : Type} [GoRing T] [GoLawful T] {w : World T}

/-- Objects of any of the five formats, in a state `Equal` can work on, in a program that registers nothing. -/
structure Comparable (w : World T) (s : Ref) : Prop where
  reg : w.reg = initReg
  wf : (w.heap s).WF
  gas : (w.heap s).nvalues ≤ w.gas

/-- The cells of two objects agree at every place where the first is not zero. -/
def Within (a b : Mat T) : Prop :=
  SameShape a b ∧ ∀ i j, i < a.rows → j < a.cols → a.val i j ≠ 0 → a.val i j = b.val i j

/-- Two objects have the same shape and the same cells. -/
def Alike (a b : Mat T) : Prop := SameShape a b ∧ ∀ i j, i < a.rows → j < a.cols → a.val i j = b.val i j

/-- No cell is zero. -/
def Full (a : Mat T) : Prop := ∀ i j, i < a.rows → j < a.cols → a.val i j ≠ 0

theorem Alike.symm {a b : Mat T} (h : Alike a b) : Alike b a :=
  ⟨⟨h.1.1.symm, h.1.2.symm⟩, fun i j hi hj => (h.2 i j (by rw [h.1.1]; exact hi) (by rw [h.1.2]; exact hj)).symm⟩

theorem Alike.trans {a b c : Mat T} (h : Alike a b) (h' : Alike b c) : Alike a c :=
  ⟨⟨h.1.1.trans h'.1.1, h.1.2.trans h'.1.2⟩, fun i j hi hj =>
    (h.2 i j hi hj).trans (h'.2 i j (by rw [← h.1.1]; exact hi) (by rw [← h.1.2]; exact hj))⟩

theorem Full.of_alike {a b : Mat T} (h : Full a) (h' : Alike a b) : Full b := fun i j hi hj => by
  have hi' : i < a.rows := by rw [h'.1.1]; exact hi
  have hj' : j < a.cols := by rw [h'.1.2]; exact hj
  rw [← h'.2 i j hi' hj']
  exact h i j hi' hj'

/-- What `Equal` answers, for every pair. -/
theorem equal_answer {s m : Ref} (hs : Comparable w s) (hm : Comparable w m) :
    ∃ b, Meth.equal s m w = .ok b w ∧
      ((w.heap s).kind.sparse = (w.heap m).kind.sparse → (b = true ↔ Alike (w.heap s) (w.heap m))) ∧
      ((w.heap s).kind.sparse = true → (w.heap m).kind.sparse = false →
        (b = true ↔ if GoNum.gname T = "float64" then Within (w.heap s) (w.heap m)
          else Alike (w.heap s) (w.heap m) ∧ Full (w.heap s))) ∧
      ((w.heap s).kind.sparse = false → (w.heap m).kind.sparse = true →
        (b = true ↔ if GoNum.gname T = "float64" then Within (w.heap m) (w.heap s)
          else Alike (w.heap s) (w.heap m) ∧ Full (w.heap s))) := by
  by_cases hk : (w.heap s).kind.sparse = (w.heap m).kind.sparse
  · obtain ⟨b, h1, -, h2⟩ := C27_equal_partial hs.reg hs.wf hm.wf hs.gas hm.gas hk
    exact ⟨b, h1, fun _ => h2, fun h3 h4 => absurd (hk.symm.trans h3) (by rw [h4]; decide),
      fun h3 h4 => absurd (hk.symm.trans h3) (by rw [h4]; decide)⟩
  · cases hss : (w.heap s).kind.sparse with
    | true =>
      have hmm : (w.heap m).kind.sparse = false := by
        cases h : (w.heap m).kind.sparse with
        | false => rfl
        | true => rw [hss, h] at hk; exact absurd rfl hk
      obtain ⟨b, h1, -, h2, h3⟩ := C27_mixed_exact hs.reg hs.wf hm.wf hs.gas hm.gas (Or.inl ⟨rfl, rfl⟩) hss hmm
      refine ⟨b, h1, fun h => absurd (h.trans hmm) (by simp), fun _ _ => ?_, fun h => absurd h (by simp)⟩
      split
      · rename_i hn
        exact h2 hn
      · rename_i hn
        rw [h3 hn]
        constructor
        · rintro ⟨g1, g2⟩
          exact ⟨⟨g1, fun i j hi hj => (g2 i j hi hj).1⟩, fun i j hi hj => (g2 i j hi hj).2⟩
        · rintro ⟨⟨g1, g2⟩, g3⟩
          exact ⟨g1, fun i j hi hj => ⟨g2 i j hi hj, g3 i j hi hj⟩⟩
    | false =>
      have hmm : (w.heap m).kind.sparse = true := by
        cases h : (w.heap m).kind.sparse with
        | true => rfl
        | false => rw [hss, h] at hk; exact absurd rfl hk
      obtain ⟨b, h1, -, h2, h3⟩ := C27_mixed_exact hs.reg hs.wf hm.wf hs.gas hm.gas (Or.inr ⟨rfl, rfl⟩) hmm hss
      refine ⟨b, h1, fun h => absurd (h.trans hmm) (by simp), fun h => absurd h (by simp), fun _ _ => ?_⟩
      split
      · rename_i hn
        rw [h2 hn]
        constructor
        · rintro ⟨g1, g2⟩
          exact ⟨⟨g1.1.symm, g1.2.symm⟩, fun i j hi hj hz =>
            (g2 i j (by rw [g1.1]; exact hi) (by rw [g1.2]; exact hj) hz).symm⟩
        · rintro ⟨g1, g2⟩
          exact ⟨⟨g1.1.symm, g1.2.symm⟩, fun i j hi hj hz =>
            (g2 i j (by rw [g1.1]; exact hi) (by rw [g1.2]; exact hj) hz).symm⟩
      · rename_i hn
        rw [h3 hn]
        constructor
        · rintro ⟨g1, g2⟩
          exact ⟨⟨g1, fun i j hi hj => (g2 i j hi hj).1⟩, fun i j hi hj => (g2 i j hi hj).2⟩
        · rintro ⟨⟨g1, g2⟩, g3⟩
          exact ⟨g1, fun i j hi hj => ⟨g2 i j hi hj, g3 i j hi hj⟩⟩

/-- C80. `Equal` is symmetric for objects of any two formats and every element type. -/
theorem C80_symmetric {s m : Ref} (hs : Comparable w s) (hm : Comparable w m) :
    Meth.equal s m w = Meth.equal m s w := by
  obtain ⟨b, h1, h2, h3, h4⟩ := equal_answer hs hm
  obtain ⟨b', g1, g2, g3, g4⟩ := equal_answer hm hs
  rw [h1, g1]
  congr 1
  have key : b = true ↔ b' = true := by
    cases hss : (w.heap s).kind.sparse <;> cases hmm : (w.heap m).kind.sparse
    · rw [h2 (hss.trans hmm.symm), g2 (hmm.trans hss.symm)]
      exact ⟨Alike.symm, Alike.symm⟩
    · rw [h4 hss hmm, g3 hmm hss]
      split
      · rfl
      · exact ⟨fun h => ⟨h.1.symm, h.2.of_alike h.1⟩, fun h => ⟨h.1.symm, h.2.of_alike h.1⟩⟩
    · rw [h3 hss hmm, g4 hmm hss]
      split
      · rfl
      · exact ⟨fun h => ⟨h.1.symm, h.2.of_alike h.1⟩, fun h => ⟨h.1.symm, h.2.of_alike h.1⟩⟩
    · rw [h2 (hss.trans hmm.symm), g2 (hmm.trans hss.symm)]
      exact ⟨Alike.symm, Alike.symm⟩
  cases b <;> cases b' <;> simp_all

/-- C80. With element types other than `float64`, `Equal` never answers yes for objects of different shape or with
a different cell, whatever their formats. -/
theorem C80_sound {s m : Ref} (hn : GoNum.gname T ≠ "float64") (hs : Comparable w s) (hm : Comparable w m)
    (h : Meth.equal s m w = .ok true w) : Alike (w.heap s) (w.heap m) := by
  obtain ⟨b, h1, h2, h3, h4⟩ := equal_answer hs hm
  rw [h1] at h
  have hb : b = true := by simpa using h
  subst hb
  cases hss : (w.heap s).kind.sparse <;> cases hmm : (w.heap m).kind.sparse
  · exact (h2 (hss.trans hmm.symm)).1 rfl
  · have := (h4 hss hmm).1 rfl
    rw [if_neg hn] at this
    exact this.1
  · have := (h3 hss hmm).1 rfl
    rw [if_neg hn] at this
    exact this.1
  · exact (h2 (hss.trans hmm.symm)).1 rfl

/-- C80. With element types other than `float64`, `Equal` is transitive across all formats. -/
theorem C80_transitive_partial {s m t : Ref} (hn : GoNum.gname T ≠ "float64") (hs : Comparable w s) (hm : Comparable w m)
    (ht : Comparable w t) (h : Meth.equal s m w = .ok true w) (h' : Meth.equal m t w = .ok true w) :
    Meth.equal s t w = .ok true w := by
  have ha := C80_sound hn hs hm h
  have hb := C80_sound hn hm ht h'
  obtain ⟨b, h1, h2, h3, h4⟩ := equal_answer hs hm
  obtain ⟨b', g1, g2, g3, g4⟩ := equal_answer hm ht
  obtain ⟨d, k1, k2, k3, k4⟩ := equal_answer hs ht
  rw [h1] at h
  rw [g1] at h'
  have eb : b = true := by simpa using h
  have eb' : b' = true := by simpa using h'
  subst eb
  subst eb'
  rw [k1]
  congr 1
  simp only [hn, if_false] at h3 h4 g3 g4 k3 k4
  have hfull : ((w.heap s).kind.sparse ≠ (w.heap t).kind.sparse) → Full (w.heap s) := by
    intro hne
    cases hss : (w.heap s).kind.sparse <;> cases hmm : (w.heap m).kind.sparse <;>
      cases htt : (w.heap t).kind.sparse <;> rw [hss, htt] at hne
    all_goals first | exact absurd rfl hne | skip
    · exact ((g4 hmm htt).1 trivial).2.of_alike ha.symm
    · exact ((h4 hss hmm).1 trivial).2
    · exact ((h3 hss hmm).1 trivial).2
    · exact ((g3 hmm htt).1 trivial).2.of_alike ha.symm
  cases hss : (w.heap s).kind.sparse <;> cases htt : (w.heap t).kind.sparse
  · exact (k2 (hss.trans htt.symm)).2 (ha.trans hb)
  · exact (k4 hss htt).2 ⟨ha.trans hb, hfull (by rw [hss, htt]; decide)⟩
  · exact (k3 hss htt).2 ⟨ha.trans hb, hfull (by rw [hss, htt]; decide)⟩
  · exact (k2 (hss.trans htt.symm)).2 (ha.trans hb)

theorem Within.of_alike_left {a b c : Mat T} (h : Alike a b) (h' : Within b c) : Within a c :=
  ⟨⟨h.1.1.trans h'.1.1, h.1.2.trans h'.1.2⟩, fun i j hi hj hz => by
    have e := h.2 i j hi hj
    rw [e]
    exact h'.2 i j (by rw [← h.1.1]; exact hi) (by rw [← h.1.2]; exact hj) (by rw [← e]; exact hz)⟩

theorem Within.of_alike_right {a b c : Mat T} (h : Within a b) (h' : Alike b c) : Within a c :=
  ⟨⟨h.1.1.trans h'.1.1, h.1.2.trans h'.1.2⟩, fun i j hi hj hz =>
    (h.2 i j hi hj hz).trans (h'.2 i j (by rw [← h.1.1]; exact hi) (by rw [← h.1.2]; exact hj))⟩

/-- C80, every element type: `Equal` is transitive except for two objects of one storage class compared through one
of the other. Missing: that case is false with `float64` elements (`C80_refuted`). -/
theorem C80_transitive_class_partial {s m t : Ref} (hs : Comparable w s) (hm : Comparable w m) (ht : Comparable w t)
    (hc : (w.heap s).kind.sparse = (w.heap m).kind.sparse ∨ (w.heap m).kind.sparse = (w.heap t).kind.sparse)
    (h : Meth.equal s m w = .ok true w) (h' : Meth.equal m t w = .ok true w) : Meth.equal s t w = .ok true w := by
  by_cases hn : GoNum.gname T = "float64"
  · obtain ⟨b, h1, h2, h3, h4⟩ := equal_answer hs hm
    obtain ⟨b', g1, g2, g3, g4⟩ := equal_answer hm ht
    obtain ⟨d, k1, k2, k3, k4⟩ := equal_answer hs ht
    rw [h1] at h
    rw [g1] at h'
    have eb : b = true := by simpa using h
    have eb' : b' = true := by simpa using h'
    subst eb
    subst eb'
    rw [k1]
    congr 1
    simp only [hn, if_true] at h3 h4 g3 g4 k3 k4
    cases hss : (w.heap s).kind.sparse <;> cases hmm : (w.heap m).kind.sparse <;>
      cases htt : (w.heap t).kind.sparse <;> rw [hss, hmm, htt] at hc
    · exact (k2 (hss.trans htt.symm)).2 (((h2 (hss.trans hmm.symm)).1 rfl).trans ((g2 (hmm.trans htt.symm)).1 rfl))
    · exact (k4 hss htt).2 (((g4 hmm htt).1 trivial).of_alike_right ((h2 (hss.trans hmm.symm)).1 rfl).symm)
    · simp at hc
    · exact (k4 hss htt).2 (((g2 (hmm.trans htt.symm)).1 rfl).symm |> fun x => Within.of_alike_left x ((h4 hss hmm).1 trivial))
    · exact (k3 hss htt).2 (((h3 hss hmm).1 trivial).of_alike_right ((g2 (hmm.trans htt.symm)).1 rfl))
    · simp at hc
    · exact (k3 hss htt).2 (Within.of_alike_left ((h2 (hss.trans hmm.symm)).1 rfl) ((g3 hmm htt).1 trivial))
    · exact (k2 (hss.trans htt.symm)).2 (((h2 (hss.trans hmm.symm)).1 rfl).trans ((g2 (hmm.trans htt.symm)).1 rfl))
  · exact C80_transitive_partial hn hs hm ht h h'

end

namespace EqualRelEx

/-- The dense matrix `[1 x]`. -/
def dn {T : Type} [GoNum T] (x : T) : Mat T := .dense ⟨1, 2, [[1, x]]⟩
/-- `[1 x]` with `x` not zero, in CSR. -/
def sp {T : Type} [GoNum T] (x : T) : Mat T := .csr ⟨1, 2, [1, x], [0, 1], [0, 2]⟩

/-- With `int` elements a CSR, a dense and a CSC matrix without zeros are `Equal` to each other. -/
def wi : World ℤ := World.of 9 [sp 5, dn 5, .csc ⟨1, 2, [1, 5], [0, 0], [0, 1, 2]⟩]

theorem ci : Comparable wi 0 ∧ Comparable wi 1 ∧ Comparable wi 2 :=
  ⟨⟨rfl, (Reach.arrCSR (data := [[1, 5]]) (c := 2) (by unfold Rect; simp) (by kernel_rfl)).wf (by decide), by decide⟩,
    ⟨rfl, ⟨rfl, by simp⟩, by decide⟩,
    ⟨rfl, (Reach.arrCSC (data := [[1, 5]]) (c := 2) (by unfold Rect; simp) (by kernel_rfl)).wf (by decide), by decide⟩⟩

example : Meth.equal 0 2 wi = .ok true wi :=
  C80_transitive_partial (by decide) ci.1 ci.2.1 ci.2.2 (by
    obtain ⟨b, h1, -⟩ := equal_answer ci.1 ci.2.1
    have : (Meth.equal 0 1 wi).val = some true := by kernel_rfl
    rw [h1] at this ⊢
    simpa [Res.val] using this) (by
    obtain ⟨b, h1, -⟩ := equal_answer ci.2.1 ci.2.2
    have : (Meth.equal 1 2 wi).val = some true := by kernel_rfl
    rw [h1] at this ⊢
    simpa [Res.val] using this)

end EqualRelEx

open EqualRelEx in
/-- C80 in full is false: with `float64` elements the dense matrices `[1 5]` and `[1 7]` are both `Equal` to the CSR
matrix `[1 0]` and not to each other. -/
theorem C80_refuted : ∃ (w : World ℚ) (s m t : Ref), Comparable w s ∧ Comparable w m ∧ Comparable w t ∧
    Meth.equal s m w = .ok true w ∧ Meth.equal m t w = .ok true w ∧ Meth.equal s t w = .ok false w := by
  have hc : Comparable (World.of 9 [dn (5 : ℚ), csr10 ℚ, dn 7]) 0 ∧ Comparable (World.of 9 [dn (5 : ℚ), csr10 ℚ, dn 7]) 1 ∧
      Comparable (World.of 9 [dn (5 : ℚ), csr10 ℚ, dn 7]) 2 :=
    ⟨⟨rfl, ⟨rfl, by simp⟩, by decide⟩, ⟨rfl, csr10_reach.1.wf (by decide), by decide⟩, ⟨rfl, ⟨rfl, by simp⟩, by decide⟩⟩
  refine ⟨World.of 9 [dn (5 : ℚ), csr10 ℚ, dn 7], 0, 1, 2, hc.1, hc.2.1, hc.2.2, ?_, ?_, ?_⟩
  · obtain ⟨b, h1, -⟩ := equal_answer hc.1 hc.2.1
    have : (Meth.equal 0 1 (World.of 9 [dn (5 : ℚ), csr10 ℚ, dn 7])).val = some true := by kernel_rfl
    rw [h1] at this ⊢
    simpa [Res.val] using this
  · obtain ⟨b, h1, -⟩ := equal_answer hc.2.1 hc.2.2
    have : (Meth.equal 1 2 (World.of 9 [dn (5 : ℚ), csr10 ℚ, dn 7])).val = some true := by kernel_rfl
    rw [h1] at this ⊢
    simpa [Res.val] using this
  · obtain ⟨b, h1, -⟩ := equal_answer hc.1 hc.2.2
    have : (Meth.equal 0 2 (World.of 9 [dn (5 : ℚ), csr10 ℚ, dn 7])).val = some false := by kernel_rfl
    rw [h1] at this ⊢
    simpa [Res.val] using this

end GB
