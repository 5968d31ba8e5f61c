import Verif.Lemmas.CancelCompare
import Verif.Props.Exact
import Verif.Props.Size

/-!
# C97: the answers of comparisons whose context is cancelled
-/

namespace GB

set_option linter.unusedSectionVars false
set_option linter.unusedSimpArgs false

open M Ops

variable {T : Type} [GoNum T] [GoStore T]

/-- C97 in full, for `Equal`: a cancelled call answers what a call that is not cancelled answers. -/
def EqualRight (T : Type) [GoNum T] [GoStore T] : Prop := ∀ (w : World T) (s m : Ref) (k : Nat),
  (w.heap s).Inv → (w.heap m).Inv → (w.heap s).nvalues ≤ w.gas → (w.heap m).nvalues ≤ w.gas →
  (Ops.equal s m { w with cancel := some k }).val = (Ops.equal s m { w with cancel := none }).val

/-- C97 in full, for `Less`, `Greater` and `Compare`. -/
def RunesRight {α : Type} (f : Ref → Ref → M Rune α) : Prop := ∀ (w : World Rune) (s m : Ref) (k : Nat),
  (w.heap s).Inv → (w.heap m).Inv → (w.heap s).nvalues ≤ w.gas → (w.heap m).nvalues ≤ w.gas →
  0 ≤ (w.heap s).size → 0 ≤ (w.heap m).size →
  (f s m { w with cancel := some k }).val = (f s m { w with cancel := none }).val

/-- **C97**: `Equal` and `NotEqual` under a context that is found cancelled after `k` looks, for operands of any formats,
shapes and states: `Equal` answers yes exactly if a call that is not cancelled does and there were as many looks as there
are elements to visit. A yes is right, a no may be wrong. Nothing changes.

Missing: the answer no, which is wrong for equal operands when the context is cancelled (`C97_refuted_equal`). -/
theorem C97_equal_partial {w : World T} {s m : Ref} (hs : (w.heap s).Inv) (hm : (w.heap m).Inv)
    (hgs : (w.heap s).nvalues ≤ w.gas) (hgm : (w.heap m).nvalues ≤ w.gas) :
    ∃ b, Ops.equal s m { w with cancel := none } = .ok b { w with cancel := none } ∧
      Ops.notEqual s m { w with cancel := none } = .ok (!b) { w with cancel := none } ∧
      ∀ k, ∃ c, Ops.equal s m { w with cancel := some k } =
          .ok (b && decide ((lead w s m).nvalues ≤ k)) { w with cancel := c } ∧
        Ops.notEqual s m { w with cancel := some k } =
          .ok (!(b && decide ((lead w s m).nvalues ≤ k))) { w with cancel := c } := by
  have key : ∀ c, w.heap (addOver { w with cancel := c } s m) = lead w s m := by
    intro c; unfold addOver lead; simp only; split <;> rfl
  obtain ⟨c, e1, e2, -⟩ := equal_cancel (w := { w with cancel := none }) hs hm hgs hgm
  obtain rfl := e2 rfl
  simp only [enough, Bool.and_true] at e1
  refine ⟨_, e1, ?_, fun k => ?_⟩
  · unfold Ops.notEqual; rw [bind_ok e1]; rfl
  · obtain ⟨c, f1, -⟩ := equal_cancel (w := { w with cancel := some k }) hs hm hgs hgm
    simp only [enough, key] at f1
    have f2 : Ops.equal s m { w with cancel := some k } =
      .ok (Same? { w with cancel := none } s m && decide ((lead w s m).nvalues ≤ k)) { w with cancel := c } := f1
    refine ⟨c, f2, ?_⟩
    unfold Ops.notEqual; rw [bind_ok f2]; rfl

/-- **C97**: `String` under a context that is found cancelled after `k` looks: the encoding of the first `k` runes
`Enumerate` delivers; nothing changes. -/
theorem C97_string {w : World Rune} {s : Ref} (hs : (w.heap s).Inv) (hg : (w.heap s).nvalues ≤ w.gas) {k : Nat}
    (hc : w.cancel = some k) :
    Runes.string s w = if (w.heap s).size < 0 then .panic w
      else .ok (((w.heap s).entries.take k).flatMap fun e => e.2.2.bytes) { w with cancel := some (k - (w.heap s).nvalues) } := by
  unfold Runes.string
  rw [bind_ok (ofObj_ok (p := s) (w := w) (a := (w.heap s).size) rfl)]
  by_cases hz : (w.heap s).size < 0
  · rw [if_pos hz, if_pos hz]; rfl
  · rw [if_neg hz, if_neg hz]
    have := Runes.stringLoop_cancel _ w.gas _ [] w k hc hs.delivers (by rw [hs.entries_length]; exact hg)
    rw [hs.entries_length, List.nil_append] at this
    exact this

/-- `String` under a context that is never cancelled, for matrices in any state. -/
theorem string_all {w : World Rune} {s : Ref} (hs : (w.heap s).Inv) (hg : (w.heap s).nvalues ≤ w.gas)
    (hc : w.cancel = none) (hz : 0 ≤ (w.heap s).size) :
    Runes.string s w = .ok ((w.heap s).entries.flatMap fun e => e.2.2.bytes) w := by
  unfold Runes.string
  rw [bind_ok (ofObj_ok (p := s) (w := w) (a := (w.heap s).size) rfl), if_neg (not_lt.2 hz)]
  obtain ⟨x, c, f1, f2⟩ := Runes.stringLoop_ok _ w.gas _ [] w hs.delivers (by rw [hs.entries_length]; exact hg)
  obtain ⟨rfl, rfl⟩ := f2 hc
  refine f1.trans ?_
  rw [← hc]; rfl

/-- **C97**: `Less` and `Greater` compare what the two calls of `String` return: the runes of the left operand the context
lasts for, and of the right one only what it lasts for after that. -/
theorem C97_strings {w : World Rune} {s m : Ref} (hs : (w.heap s).Inv) (hm : (w.heap m).Inv)
    (hgs : (w.heap s).nvalues ≤ w.gas) (hgm : (w.heap m).nvalues ≤ w.gas)
    (hzs : 0 ≤ (w.heap s).size) (hzm : 0 ≤ (w.heap m).size) {k : Nat} (hc : w.cancel = some k) :
    let a := ((w.heap s).entries.take k).flatMap fun e => e.2.2.bytes
    let b := ((w.heap m).entries.take (k - (w.heap s).nvalues)).flatMap fun e => e.2.2.bytes
    ∃ c, Runes.less s m w = .ok (decide (a < b)) { w with cancel := c } ∧
      Runes.greater s m w = .ok (decide (b < a)) { w with cancel := c } := by
  intro a b
  have h1 := C97_string hs hgs hc
  rw [if_neg (not_lt.2 hzs)] at h1
  have h2 := C97_string (w := { w with cancel := some (k - (w.heap s).nvalues) }) (s := m) hm hgm rfl
  rw [if_neg (not_lt.2 hzm)] at h2
  refine ⟨some (k - (w.heap s).nvalues - (w.heap m).nvalues), ?_, ?_⟩
  · unfold Runes.less
    rw [bind_ok h1, bind_ok h2]; rfl
  · unfold Runes.greater
    rw [bind_ok h1, bind_ok h2]; rfl

/-- **C97**: when `Less` answers yes under a context that is cancelled, the answer is right. -/
theorem C97_less_partial {w : World Rune} {s m : Ref} (hs : (w.heap s).Inv) (hm : (w.heap m).Inv)
    (hgs : (w.heap s).nvalues ≤ w.gas) (hgm : (w.heap m).nvalues ≤ w.gas)
    (hzs : 0 ≤ (w.heap s).size) (hzm : 0 ≤ (w.heap m).size) {k : Nat} (hc : w.cancel = some k)
    (hl : (Runes.less s m w).val = some true) :
    Runes.less s m { w with cancel := none } = .ok true { w with cancel := none } := by
  obtain ⟨c, e1, -⟩ := C97_strings hs hm hgs hgm hzs hzm hc
  rw [e1] at hl
  have hlt := of_decide_eq_true (Option.some.inj hl)
  have h1 := string_all (w := { w with cancel := none }) (s := s) hs hgs rfl hzs
  have h2 := string_all (w := { w with cancel := none }) (s := m) hm hgm rfl hzm
  unfold Runes.less
  rw [bind_ok h1, bind_ok h2]
  refine congrArg (fun b => Res.ok b _) (decide_eq_true ?_)
  by_cases hk : k < (w.heap s).nvalues
  · rw [show k - (w.heap s).nvalues = 0 by omega, List.take_zero, List.flatMap_nil] at hlt
    exact absurd hlt (List.not_lt_nil _)
  · rw [List.take_of_length_le (by rw [hs.entries_length]; omega)] at hlt
    have hcut : (w.heap m).entries.flatMap (fun e => e.2.2.bytes) =
        ((w.heap m).entries.take (k - (w.heap s).nvalues)).flatMap (fun e => e.2.2.bytes) ++
        ((w.heap m).entries.drop (k - (w.heap s).nvalues)).flatMap (fun e => e.2.2.bytes) := by
      rw [← List.flatMap_append, List.take_append_drop]
    show (w.heap s).entries.flatMap (fun e => e.2.2.bytes) < (w.heap m).entries.flatMap (fun e => e.2.2.bytes)
    rw [hcut]
    exact List.Lex.append_right _ _ hlt

/-- **C97**: `Compare` under a context that is found cancelled after `k` looks. It answers 0 at once at `k = 0`, 0 for
operands that are equal, and 0 for all others at `k = 1`; otherwise `Less` decides with the looks that are left. -/
theorem C97_compare {w : World Rune} {s m : Ref} (hs : (w.heap s).Inv) (hm : (w.heap m).Inv)
    (hgs : (w.heap s).nvalues ≤ w.gas) (hgm : (w.heap m).nvalues ≤ w.gas)
    (hzs : 0 ≤ (w.heap s).size) (hzm : 0 ≤ (w.heap m).size) {k : Nat} (hc : w.cancel = some k) :
    ∃ e l c, Ops.equal s m { w with cancel := none } = .ok e { w with cancel := none } ∧
      (Runes.less s m { w with cancel := some (k - 2) }).val = some l ∧
      Runes.compare s m w = .ok (if k = 0 ∨ e = true ∨ k = 1 then 0 else if l = true then -1 else 1) { w with cancel := c } := by
  obtain ⟨e, h1, -, -⟩ := C97_equal_partial hs hm hgs hgm
  obtain ⟨l, c, h2⟩ : ∃ l c, Runes.less s m { w with cancel := some (k - 2) } = .ok l { w with cancel := c } := by
    obtain ⟨c, h2, -⟩ := C97_strings (w := { w with cancel := some (k - 2) }) (s := s) (m := m) hs hm hgs hgm hzs hzm rfl
    exact ⟨_, c, h2⟩
  have hq : ∀ c, Meth.equal s m { w with cancel := c } = .ok e { w with cancel := c } := fun c =>
    (Meth.background_ok (w := { w with cancel := c }) h1).trans rfl
  refine ⟨e, l, ?_⟩
  rw [h2]
  unfold Runes.compare
  rcases k with _ | _ | k
  · refine ⟨w.cancel, h1, rfl, ?_⟩
    rw [bind_ok (poll_stop hc)]; rfl
  · have hp := poll_go (w := w) (by rw [hc]; simp)
    rw [show tick w.cancel = some 0 by rw [hc]; rfl] at hp
    refine ⟨some 0, h1, rfl, ?_⟩
    rw [bind_ok hp]
    simp only [Bool.false_eq_true, if_false]
    rw [bind_ok (hq _)]
    cases e
    · simp only [Bool.false_eq_true, if_false]
      rw [bind_ok (poll_stop rfl)]; rfl
    · rfl
  · have hp := poll_go (w := w) (by rw [hc]; simp)
    rw [show tick w.cancel = some (k + 1) by rw [hc]; rfl] at hp
    cases e
    · refine ⟨c, h1, rfl, ?_⟩
      rw [bind_ok hp]
      simp only [Bool.false_eq_true, if_false]
      rw [bind_ok (hq _)]
      simp only [Bool.false_eq_true, if_false]
      have hp2 : poll ({ w with cancel := some (k + 1) } : World Rune) = .ok false { w with cancel := some k } := rfl
      rw [bind_ok hp2]
      simp only [Bool.false_eq_true, if_false]
      have h3 : Runes.less s m { w with cancel := some k } = _ := h2
      rw [bind_ok h3]
      cases l <;> simp
    · refine ⟨some (k + 1), h1, rfl, ?_⟩
      rw [bind_ok hp]
      simp only [Bool.false_eq_true, if_false]
      rw [bind_ok (hq _)]
      simp

/-- **C97**: of the answers of `Compare` under a context that is cancelled, -1 is right, and +1 is given to operands only that
are not equal.

Missing: 0 for different operands and +1 for operands whose order is the other one (`C97_refuted_compare`). -/
theorem C97_compare_partial {w : World Rune} {s m : Ref} (hs : (w.heap s).Inv) (hm : (w.heap m).Inv)
    (hgs : (w.heap s).nvalues ≤ w.gas) (hgm : (w.heap m).nvalues ≤ w.gas)
    (hzs : 0 ≤ (w.heap s).size) (hzm : 0 ≤ (w.heap m).size) {k : Nat} (hc : w.cancel = some k) :
    ((Runes.compare s m w).val = some (-1) → Runes.compare s m { w with cancel := none } = .ok (-1) { w with cancel := none }) ∧
    ((Runes.compare s m w).val = some 1 → Ops.equal s m { w with cancel := none } = .ok false { w with cancel := none }) := by
  obtain ⟨e, l, c, h1, h2, h3⟩ := C97_compare hs hm hgs hgm hzs hzm hc
  rw [h3]
  by_cases hz : k = 0 ∨ e = true ∨ k = 1
  · rw [if_pos hz]
    exact ⟨fun h => (by cases h), fun h => (by cases h)⟩
  · rw [if_neg hz]
    have he : e = false := by cases e <;> simp_all
    subst he
    refine ⟨fun h => ?_, fun _ => h1⟩
    cases l
    · cases h
    · have hl := C97_less_partial (w := { w with cancel := some (k - 2) }) hs hm hgs hgm hzs hzm rfl h2
      have hl : Runes.less s m { w with cancel := none } = .ok true { w with cancel := none } := hl
      have hq : Meth.equal s m { w with cancel := none } = .ok false { w with cancel := none } :=
        (Meth.background_ok (w := { w with cancel := none }) h1).trans rfl
      have hp : poll ({ w with cancel := none } : World Rune) = .ok false { w with cancel := none } := rfl
      unfold Runes.compare
      rw [bind_ok hp]
      simp only [Bool.false_eq_true, if_false]
      rw [bind_ok hq]
      simp only [Bool.false_eq_true, if_false]
      rw [bind_ok hp]
      simp only [Bool.false_eq_true, if_false]
      rw [bind_ok hl]
      rfl

/-! ## Witnesses -/

namespace CancelCompareEx

/-- The words `ab`, `ac` and `ab` once more. -/
def ab : Mat Rune := .dense ⟨1, 2, [[rune 0x61, rune 0x62]]⟩
def ac : Mat Rune := .dense ⟨1, 2, [[rune 0x61, rune 0x63]]⟩
def words : World Rune := World.of 9 [ab, ac, ab]

theorem reach : Reach ab ∧ Reach ac := by
  constructor
  · exact Reach.arrDense (data := [[rune 0x61, rune 0x62]]) (c := 2) (by unfold Rect; simp) (by kernel_rfl)
  · exact Reach.arrDense (data := [[rune 0x61, rune 0x63]]) (c := 2) (by unfold Rect; simp) (by kernel_rfl)

theorem inv : ab.Inv ∧ ac.Inv := ⟨reach.1.inv, reach.2.inv⟩

theorem size : 0 ≤ ab.size ∧ 0 ≤ ac.size := by decide +kernel

/-- Three looks: all of `ab` is seen and one rune of `ac`, which is found not to be greater; four looks: all of both. -/
example : (Runes.less 0 1 { words with cancel := some 3 }).val = some false ∧
    (Runes.less 0 1 { words with cancel := some 4 }).val = some true := by constructor <;> kernel_rfl

example : Runes.less 0 1 { words with cancel := none } = .ok true { words with cancel := none } :=
  C97_less_partial (w := { words with cancel := some 4 }) (k := 4) inv.1 inv.2 (by decide) (by decide) size.1 size.2 rfl
    (by kernel_rfl)

example : Runes.compare 0 1 { words with cancel := none } = .ok (-1) { words with cancel := none } :=
  (C97_compare_partial (w := { words with cancel := some 6 }) (s := 0) (m := 1) (k := 6) inv.1 inv.2 (by decide) (by decide) size.1 size.2 rfl).1
    (by kernel_rfl)

/-- Two looks are enough for `Equal` to see two cells, one is not. -/
example : (Ops.equal 0 2 { words with cancel := some 2 }).val = some true ∧
    (Ops.equal 0 2 { words with cancel := some 1 }).val = some false := by constructor <;> kernel_rfl

end CancelCompareEx

open CancelCompareEx in
/-- **C97** is false of `Equal` and `NotEqual`: under a context that is cancelled already two equal matrices are not equal. -/
theorem C97_refuted_equal : ¬ EqualRight Rune ∧ (Ops.equal 0 2 { words with cancel := some 0 }).val = some false ∧
    (Ops.notEqual 0 2 { words with cancel := some 0 }).val = some true ∧
    (Ops.equal 0 2 { words with cancel := none }).val = some true := by
  have h1 : (Ops.equal 0 2 { words with cancel := some 0 }).val = some false := by kernel_rfl
  have h2 : (Ops.equal 0 2 { words with cancel := none }).val = some true := by kernel_rfl
  refine ⟨fun h => ?_, h1, by kernel_rfl, h2⟩
  have := h words 0 2 0 inv.1 inv.1 (by decide) (by decide)
  rw [h1, h2] at this
  cases this

open CancelCompareEx in
/-- **C97** is false of `Less` and of `Greater`: `ab` is less than `ac`, but with two looks the second string is empty, so
that it is not less, and greater. -/
theorem C97_refuted_less : ¬ RunesRight Runes.less ∧ ¬ RunesRight Runes.greater ∧
    (Runes.less 0 1 { words with cancel := some 2 }).val = some false ∧
    (Runes.greater 0 1 { words with cancel := some 2 }).val = some true ∧
    (Runes.less 0 1 { words with cancel := none }).val = some true ∧
    (Runes.greater 0 1 { words with cancel := none }).val = some false := by
  have h1 : (Runes.less 0 1 { words with cancel := some 2 }).val = some false := by kernel_rfl
  have h2 : (Runes.greater 0 1 { words with cancel := some 2 }).val = some true := by kernel_rfl
  have h3 : (Runes.less 0 1 { words with cancel := none }).val = some true := by kernel_rfl
  have h4 : (Runes.greater 0 1 { words with cancel := none }).val = some false := by kernel_rfl
  refine ⟨fun h => ?_, fun h => ?_, h1, h2, h3, h4⟩
  · have := h words 0 1 2 inv.1 inv.2 (by decide) (by decide) size.1 size.2
    rw [h1, h3] at this; cases this
  · have := h words 0 1 2 inv.1 inv.2 (by decide) (by decide) size.1 size.2
    rw [h2, h4] at this; cases this

open CancelCompareEx in
/-- **C97** is false of `Compare`: under a context that is cancelled already, or at its second look, it answers 0 for
different matrices, and later +1 for two matrices of which the first is the lesser. -/
theorem C97_refuted_compare : ¬ RunesRight Runes.compare ∧
    (Runes.compare 0 1 { words with cancel := some 0 }).val = some 0 ∧
    (Runes.compare 0 1 { words with cancel := some 1 }).val = some 0 ∧
    (Runes.compare 0 1 { words with cancel := some 4 }).val = some 1 ∧
    (Runes.compare 0 1 { words with cancel := none }).val = some (-1) := by
  have h1 : (Runes.compare 0 1 { words with cancel := some 0 }).val = some 0 := by kernel_rfl
  have h2 : (Runes.compare 0 1 { words with cancel := none }).val = some (-1) := by kernel_rfl
  refine ⟨fun h => ?_, h1, by kernel_rfl, by kernel_rfl, h2⟩
  have := h words 0 1 0 inv.1 inv.2 (by decide) (by decide) size.1 size.2
  rw [h1, h2] at this
  cases this

end GB
