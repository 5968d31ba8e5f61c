import Verif.Model.Rune
import Verif.Lemmas.Size
import Verif.Props.EWise
import Mathlib.Data.List.Lex
import Mathlib.Order.Lex

/-!
# UTF-8 preserves the order of code points; `String`, `Less`, `Compare`
-/

namespace GB

set_option linter.unusedSectionVars false
set_option linter.unusedSimpArgs false

open M

/-- The two byte strings first differ at a position inside both, where the first is smaller. -/
def Before (a b : List Nat) : Prop := ∃ p x y s t, x < y ∧ a = p ++ x :: s ∧ b = p ++ y :: t

theorem Before.append {a b : List Nat} (h : Before a b) (s t : List Nat) : a ++ s < b ++ t := by
  obtain ⟨p, x, y, s', t', hxy, rfl, rfl⟩ := h
  induction p with
  | nil => simpa using List.Lex.rel hxy
  | cons z p ih => simpa using ih

theorem utf8_before {a b : Nat} (h : a < b) (hb : b < 0x110000) : Before (utf8 a) (utf8 b) := by
  unfold utf8
  split_ifs <;> first
    | omega
    | exact ⟨[], _, _, _, _, by omega, rfl, rfl⟩
    | skip
  · by_cases h1 : a / 64 < b / 64
    · exact ⟨[], _, _, _, _, by omega, rfl, rfl⟩
    · have e1 : a / 64 = b / 64 := by omega
      rw [e1]
      exact ⟨[_], 128 + a % 64, 128 + b % 64, _, _, by omega, rfl, rfl⟩
  · by_cases h1 : a / 4096 < b / 4096
    · exact ⟨[], _, _, _, _, by omega, rfl, rfl⟩
    · have e1 : a / 4096 = b / 4096 := by omega
      rw [e1]
      by_cases h2 : a / 64 % 64 < b / 64 % 64
      · exact ⟨[_], 128 + a / 64 % 64, 128 + b / 64 % 64, _, _, by omega, rfl, rfl⟩
      · have e2 : a / 64 % 64 = b / 64 % 64 := by omega
        rw [e2]
        exact ⟨[_, _], 128 + a % 64, 128 + b % 64, _, _, by omega, rfl, rfl⟩
  · by_cases h1 : a / 262144 < b / 262144
    · exact ⟨[], _, _, _, _, by omega, rfl, rfl⟩
    · have e1 : a / 262144 = b / 262144 := by omega
      rw [e1]
      by_cases h2 : a / 4096 % 64 < b / 4096 % 64
      · exact ⟨[_], 128 + a / 4096 % 64, 128 + b / 4096 % 64, _, _, by omega, rfl, rfl⟩
      · have e2 : a / 4096 % 64 = b / 4096 % 64 := by omega
        rw [e2]
        by_cases h3 : a / 64 % 64 < b / 64 % 64
        · exact ⟨[_, _], 128 + a / 64 % 64, 128 + b / 64 % 64, _, _, by omega, rfl, rfl⟩
        · have e3 : a / 64 % 64 = b / 64 % 64 := by omega
          rw [e3]
          exact ⟨[_, _, _], 128 + a % 64, 128 + b % 64, _, _, by omega, rfl, rfl⟩

theorem utf8_ne_nil (n : Nat) : ∃ x t, utf8 n = x :: t := by
  unfold utf8; split_ifs <;> exact ⟨_, _, rfl⟩

theorem Rune.valid_iff {r : Rune} : r.valid = true ↔
    0 ≤ r.code ∧ r.code < 0x110000 ∧ ¬ (0xD800 ≤ r.code ∧ r.code < 0xE000) := by
  simp [Rune.valid, and_assoc]
  intros
  omega

theorem Rune.bytes_ne_nil (a : Rune) : ∃ x t, a.bytes = x :: t := by
  unfold Rune.bytes; split <;> exact utf8_ne_nil _

theorem Rune.code_inj {a b : Rune} (h : a.code = b.code) : a = b := BitVec.toInt_inj.1 h

/-- The code point that `WriteRune` writes: U+FFFD in place of an invalid one. -/
def Rune.shown (r : Rune) : Int := if r.valid then r.code else 0xFFFD

theorem Rune.shown_valid {r : Rune} (h : r.valid = true) : r.shown = r.code := if_pos h

theorem Rune.bytes_shown (r : Rune) : r.bytes = utf8 r.shown.toNat := by
  unfold Rune.bytes Rune.shown
  split <;> rfl

theorem Rune.shown_range (r : Rune) : 0 ≤ r.shown ∧ r.shown < 0x110000 := by
  unfold Rune.shown
  split
  · rename_i h
    have := Rune.valid_iff.1 h
    omega
  · omega

theorem Rune.shown_before {a b : Rune} (h : a.shown < b.shown) : Before a.bytes b.bytes := by
  rw [a.bytes_shown, b.bytes_shown]
  have := a.shown_range
  have := b.shown_range
  exact utf8_before (by omega) (by omega)

/-- UTF-8 keeps the lexicographic order of what is written, one direction. -/
theorem bytes_lt_shown {xs ys : List Rune} (h : xs.map Rune.shown < ys.map Rune.shown) :
    xs.flatMap Rune.bytes < ys.flatMap Rune.bytes := by
  induction xs generalizing ys with
  | nil =>
    cases ys with
    | nil => exact absurd h (by simp)
    | cons y ys =>
      obtain ⟨b, t, hb⟩ := y.bytes_ne_nil
      simp [hb]
  | cons x xs ih =>
    cases ys with
    | nil => exact absurd h (by simp)
    | cons y ys =>
      simp only [List.map_cons, List.cons_lt_cons_iff] at h
      simp only [List.flatMap_cons]
      rcases h with h | ⟨h1, h2⟩
      · exact (Rune.shown_before h).append _ _
      · have he : x.bytes = y.bytes := by rw [x.bytes_shown, y.bytes_shown, h1]
        rw [he]
        have := ih h2
        generalize y.bytes = p
        induction p with
        | nil => simpa using this
        | cons z p ih => simpa using ih

theorem bytes_of_shown {xs ys : List Rune} (h : xs.map Rune.shown = ys.map Rune.shown) :
    xs.flatMap Rune.bytes = ys.flatMap Rune.bytes := by
  have e : ∀ zs : List Rune, zs.flatMap Rune.bytes = (zs.map Rune.shown).flatMap (fun n => utf8 n.toNat) := by
    intro zs
    rw [List.flatMap_map]
    congr 1
    funext r
    exact r.bytes_shown
  rw [e, e, h]

/-- The strings are ordered as the code points written. -/
theorem bytes_lt_shown_iff {xs ys : List Rune} :
    xs.flatMap Rune.bytes < ys.flatMap Rune.bytes ↔ xs.map Rune.shown < ys.map Rune.shown := by
  constructor
  · intro h
    rcases lt_trichotomy (xs.map Rune.shown) (ys.map Rune.shown) with h' | h' | h'
    · exact h'
    · rw [bytes_of_shown h'] at h
      exact absurd h (lt_irrefl _)
    · exact absurd (lt_trans h (bytes_lt_shown h')) (lt_irrefl _)
  · exact bytes_lt_shown

theorem map_shown {xs : List Rune} (hx : ∀ r ∈ xs, r.valid = true) : xs.map Rune.shown = xs.map Rune.code :=
  List.map_congr_left (fun r hr => Rune.shown_valid (hx r hr))

/-- UTF-8 keeps the lexicographic order of the code points. -/
theorem bytes_lt_iff {xs ys : List Rune} (hx : ∀ r ∈ xs, r.valid = true) (hy : ∀ r ∈ ys, r.valid = true) :
    xs.flatMap Rune.bytes < ys.flatMap Rune.bytes ↔ xs.map Rune.code < ys.map Rune.code := by
  rw [bytes_lt_shown_iff, map_shown hx, map_shown hy]

/-! ## The cells in the order of iteration -/

/-- The values of the cells, row by row. -/
def Mat.flat (m : Mat Rune) : List Rune := (cells m.rows m.cols).map (fun p => m.val p.1 p.2)

theorem range_mul (r c : Nat) : (List.range (r * c)).map (fun k => (k / c, k % c)) = cells r c := by
  induction r with
  | zero => simp [cells]
  | succ r ih =>
    rw [Nat.succ_mul, List.range_add, List.map_append, ih]
    unfold cells
    rw [List.range_succ, List.flatMap_append]
    congr 1
    simp only [List.map_map, List.flatMap_cons, List.flatMap_nil, List.append_nil]
    apply List.map_congr_left
    intro j hj
    have hj : j < c := by simpa using hj
    have hc : 0 < c := by omega
    simp only [Function.comp]
    rw [Nat.mul_comm r c, Nat.mul_add_div hc, Nat.div_eq_of_lt hj, Nat.mul_add_mod, Nat.mod_eq_of_lt hj,
      Nat.add_zero]

/-- What a dense matrix or vector delivers, in order. -/
theorem Mat.dense_entries {m : Mat Rune} (h : m.WF) (hk : m.kind.sparse = false) :
    ∃ es, Mat.MapAt m m.iter es ∧ es.map (fun e => e.2.2) = m.flat ∧ es.length = m.nvalues := by
  cases m with
  | csr s => simp [Mat.kind, Kind.sparse] at hk
  | csc s => simp [Mat.kind, Kind.sparse] at hk
  | svec s => simp [Mat.kind, Kind.sparse] at hk
  | dense s =>
    have hw : s.WF := h
    refine ⟨s.entries, ⟨hw, 0, Dense.iter_init s, by omega, by simp⟩, ?_, by simp [Dense.entries, Mat.nvalues]⟩
    unfold Mat.flat
    simp only [Mat.rows, Mat.cols]
    rw [← range_mul, Dense.entries, List.map_map, List.map_map]
    apply List.map_congr_left
    intro k hk
    have := Dense.pos_lt (List.mem_range.1 hk)
    simp only [Function.comp]
    rw [Mat.val_dense hw this.1 this.2]
  | dvec s =>
    have hw : s.WF := h
    refine ⟨s.entries, ⟨hw, 0, DVec.iter_init s, by omega, by simp⟩, ?_, by simp [DVec.entries, Mat.nvalues]⟩
    unfold Mat.flat
    simp only [Mat.rows, Mat.cols]
    rw [← range_mul, DVec.entries, List.map_map, List.map_map, Nat.mul_one]
    apply List.map_congr_left
    intro k hk
    simp only [Function.comp, Nat.div_one, Nat.mod_one]
    rw [Mat.val_dvec hw (List.mem_range.1 hk)]

instance (a b : Mat Rune) : Decidable (SameShape a b) := inferInstanceAs (Decidable (_ ∧ _))

namespace Runes

/-- The loop of `String`: everything that is left is appended, unless the context is cancelled. -/
theorem stringLoop_ok {p : Ref} : ∀ (es : List (Nat × Nat × Rune)) (g : Nat) (it : Mat.Iter) (b : List Nat) (w : World Rune),
    Yields Mat.Iter.hasNext (w.heap p).step it es → es.length ≤ g →
    ∃ x c, stringLoop p g it b w = .ok x { w with cancel := c } ∧
      (w.cancel = none → c = none ∧ x = b ++ es.flatMap (fun e => e.2.2.bytes)) := by
  intro es
  induction es with
  | nil =>
    intro g it b w hy _
    have hn : it.hasNext = false := hy
    refine ⟨b, w.cancel, ?_, fun h => ⟨h, by simp⟩⟩
    cases g <;> · unfold stringLoop; simp [hn]
  | cons e es ih =>
    intro g it b w hy hg
    obtain ⟨hn, it', h1, h2⟩ := hy
    cases g with
    | zero => simp at hg
    | succ g =>
      by_cases hc : w.cancel = some 0
      · refine ⟨b, w.cancel, ?_, fun h => by rw [h] at hc; cases hc⟩
        unfold stringLoop
        rw [if_pos hn, bind_ok (poll_stop hc)]
        rfl
      · obtain ⟨x, c, e1, e2⟩ := ih g it' (b ++ e.2.2.bytes) { w with cancel := tick w.cancel } h2 (by simpa using hg)
        refine ⟨x, c, ?_, ?_⟩
        · unfold stringLoop
          rw [if_pos hn, bind_ok (poll_go hc)]
          have : ofObj p (fun m => m.step it) { w with cancel := tick w.cancel } =
              .ok (it', e) { w with cancel := tick w.cancel } := ofObj_ok h1
          simp only [Bool.false_eq_true, if_false]
          rw [bind_ok this]
          exact e1
        · intro hw
          have := e2 (by simp [hw, tick])
          simpa using this

/-- `String` of a dense matrix. -/
theorem string_ok {w : World Rune} {s : Ref} (h : (w.heap s).WF) (hk : (w.heap s).kind.sparse = false)
    (hg : (w.heap s).nvalues ≤ w.gas) (hz : 0 ≤ (w.heap s).size) :
    ∃ x c, string s w = .ok x { w with cancel := c } ∧
      (w.cancel = none → c = none ∧ x = (w.heap s).flat.flatMap Rune.bytes) := by
  obtain ⟨es, e1, e2, e3⟩ := Mat.dense_entries h hk
  obtain ⟨x, c, f1, f2⟩ := stringLoop_ok es w.gas (w.heap s).iter [] w e1.yields (by omega)
  refine ⟨x, c, ?_, fun hc => ⟨(f2 hc).1, ?_⟩⟩
  · unfold string
    rw [bind_ok (ofObj_ok (p := s) (w := w) (a := (w.heap s).size) rfl), if_neg (not_lt.2 hz)]
    exact f1
  rw [(f2 hc).2, ← e2, List.flatMap_map]
  simp

theorem less_ok {w : World Rune} {s m : Ref} (hs : (w.heap s).WF) (hm : (w.heap m).WF)
    (hks : (w.heap s).kind.sparse = false) (hkm : (w.heap m).kind.sparse = false)
    (hgs : (w.heap s).nvalues ≤ w.gas) (hgm : (w.heap m).nvalues ≤ w.gas)
    (hzs : 0 ≤ (w.heap s).size) (hzm : 0 ≤ (w.heap m).size) :
    ∃ x c, less s m w = .ok x { w with cancel := c } ∧
      (w.cancel = none → c = none ∧
        x = decide ((w.heap s).flat.flatMap Rune.bytes < (w.heap m).flat.flatMap Rune.bytes)) := by
  obtain ⟨x, c, e1, e2⟩ := string_ok hs hks hgs hzs
  obtain ⟨y, d, f1, f2⟩ := string_ok (w := { w with cancel := c }) (s := m) hm hkm hgm hzm
  refine ⟨decide (x < y), d, ?_, ?_⟩
  · unfold less
    rw [bind_ok e1, bind_ok f1]
    rfl
  · intro hc
    obtain ⟨rfl, rfl⟩ := e2 hc
    obtain ⟨rfl, rfl⟩ := f2 rfl
    exact ⟨rfl, rfl⟩

theorem greater_ok {w : World Rune} {s m : Ref} (hs : (w.heap s).WF) (hm : (w.heap m).WF)
    (hks : (w.heap s).kind.sparse = false) (hkm : (w.heap m).kind.sparse = false)
    (hgs : (w.heap s).nvalues ≤ w.gas) (hgm : (w.heap m).nvalues ≤ w.gas)
    (hzs : 0 ≤ (w.heap s).size) (hzm : 0 ≤ (w.heap m).size) :
    ∃ x c, greater s m w = .ok x { w with cancel := c } ∧
      (w.cancel = none → c = none ∧
        x = decide ((w.heap m).flat.flatMap Rune.bytes < (w.heap s).flat.flatMap Rune.bytes)) := by
  obtain ⟨x, c, e1, e2⟩ := string_ok hs hks hgs hzs
  obtain ⟨y, d, f1, f2⟩ := string_ok (w := { w with cancel := c }) (s := m) hm hkm hgm hzm
  refine ⟨decide (y < x), d, ?_, ?_⟩
  · unfold greater
    rw [bind_ok e1, bind_ok f1]
    rfl
  · intro hc
    obtain ⟨rfl, rfl⟩ := e2 hc
    obtain ⟨rfl, rfl⟩ := f2 rfl
    exact ⟨rfl, rfl⟩

theorem mem_flat {m : Mat Rune} {r : Rune} (h : r ∈ m.flat) : ∃ i j, i < m.rows ∧ j < m.cols ∧ r = m.val i j := by
  unfold Mat.flat at h
  obtain ⟨p, hp, rfl⟩ := List.mem_map.1 h
  have := mem_cells.1 hp
  exact ⟨p.1, p.2, this.1, this.2, rfl⟩

theorem flat_eq_iff {a b : Mat Rune} (hsh : SameShape a b) :
    a.flat = b.flat ↔ ∀ i j, i < a.rows → j < a.cols → a.val i j = b.val i j := by
  unfold Mat.flat
  rw [hsh.1, hsh.2]
  rw [List.map_inj_left]
  constructor
  · intro h i j hi hj; exact h (i, j) (mem_cells.2 ⟨hi, hj⟩)
  · intro h p hp; exact h p.1 p.2 (mem_cells.1 hp).1 (mem_cells.1 hp).2

/-- `Compare` of dense matrices: total; nothing but the context changes; with an uncancelled context the
result is the three-way test `==`, then `<` of the strings. -/
theorem compare_ok {w : World Rune} {s m : Ref} (hreg : w.reg = initReg) (hs : (w.heap s).WF) (hm : (w.heap m).WF)
    (hks : (w.heap s).kind.sparse = false) (hkm : (w.heap m).kind.sparse = false)
    (hgs : (w.heap s).nvalues ≤ w.gas) (hgm : (w.heap m).nvalues ≤ w.gas)
    (hzs : 0 ≤ (w.heap s).size) (hzm : 0 ≤ (w.heap m).size) :
    ∃ x c, compare s m w = .ok x { w with cancel := c } ∧
      (w.cancel = none → c = none ∧
        x = if SameShape (w.heap s) (w.heap m) ∧ (w.heap s).flat = (w.heap m).flat then 0
          else if (w.heap s).flat.flatMap Rune.bytes < (w.heap m).flat.flatMap Rune.bytes then -1 else 1) := by
  unfold compare
  by_cases hc : w.cancel = some 0
  · refine ⟨0, w.cancel, ?_, fun h => by rw [h] at hc; cases hc⟩
    rw [bind_ok (poll_stop hc)]; rfl
  rw [bind_ok (poll_go hc)]
  simp only [Bool.false_eq_true, if_false]
  set w1 : World Rune := { w with cancel := tick w.cancel } with hw1
  obtain ⟨b, e1, -, e2⟩ := C27_equal_partial (w := w1) (s := s) (m := m) hreg hs hm hgs hgm (by rw [hw1]; simp only; rw [hks, hkm])
  have e2' : b = true ↔ SameShape (w.heap s) (w.heap m) ∧ (w.heap s).flat = (w.heap m).flat := by
    rw [e2]
    constructor
    · rintro ⟨h1, h2⟩; exact ⟨h1, (flat_eq_iff h1).2 h2⟩
    · rintro ⟨h1, h2⟩; exact ⟨h1, (flat_eq_iff h1).1 h2⟩
  rw [bind_ok e1]
  by_cases hb : b = true
  · refine ⟨0, tick w.cancel, by rw [if_pos hb]; rfl, fun h => ⟨by rw [h]; rfl, ?_⟩⟩
    rw [if_pos (e2'.1 hb)]
  · rw [if_neg hb]
    have hne : ¬ (SameShape (w.heap s) (w.heap m) ∧ (w.heap s).flat = (w.heap m).flat) := fun h => hb (e2'.2 h)
    by_cases hc1 : w1.cancel = some 0
    · refine ⟨0, w1.cancel, ?_, fun h => ?_⟩
      · rw [bind_ok (poll_stop hc1)]; rfl
      · rw [hw1, h] at hc1; cases hc1
    · rw [bind_ok (poll_go hc1)]
      simp only [Bool.false_eq_true, if_false]
      obtain ⟨x, c, f1, f2⟩ := less_ok (w := { w1 with cancel := tick w1.cancel }) (s := s) (m := m) hs hm hks hkm hgs hgm hzs hzm
      rw [bind_ok f1]
      refine ⟨if x = true then -1 else 1, c, ?_, ?_⟩
      · by_cases hx : x = true
        · rw [if_pos hx, if_pos hx]; rfl
        · rw [if_neg hx, if_neg hx]; rfl
      · intro h
        obtain ⟨g1, g2⟩ := f2 (by rw [hw1, h]; rfl)
        refine ⟨g1, ?_⟩
        rw [if_neg hne, g2]
        simp only [decide_eq_true_eq]
        rfl

end Runes
end GB
