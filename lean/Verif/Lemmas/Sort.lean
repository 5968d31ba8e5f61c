import Verif.Props.Rune
import Mathlib.Logic.Equiv.Basic
import Mathlib.Data.List.Perm.Basic

/-!
# The exchange sort of sort/bubble.go
-/

namespace GB

set_option linter.unusedSectionVars false
set_option linter.unusedSimpArgs false

open M

namespace Runes

/-- Copying a vector into the cells `pos 0, pos 1, …` of another object. -/
theorem eachLoop_ok {p result : Ref} {vec : Mat Rune} {pos : Nat → Nat × Nat} (hne : p ≠ result) :
    ∀ (es : List (Nat × Nat × Rune)) (g : Nat) (it : Mat.Iter) (w : World Rune),
    Yields Mat.Iter.hasNext vec.step it es → es.length ≤ g → w.heap p = vec → (w.heap result).WF →
    (w.heap result).kind ≠ .svec →
    (∀ e ∈ es, (pos e.1).1 < (w.heap result).rows ∧ (pos e.1).2 < (w.heap result).cols) →
    es.Pairwise (fun a b => pos a.1 ≠ pos b.1) →
    ∃ m', eachLoop p (fun c v => M.set result (pos c).1 (pos c).2 v) g it w =
        .ok () { w with heap := Function.update w.heap result m' } ∧ m'.WF ∧ Mat.Same m' (w.heap result) ∧
      (∀ e ∈ es, m'.val (pos e.1).1 (pos e.1).2 = e.2.2) ∧
      ∀ i j, i < (w.heap result).rows → j < (w.heap result).cols → (∀ e ∈ es, pos e.1 ≠ (i, j)) →
        m'.val i j = (w.heap result).val i j := by
  intro es
  induction es with
  | nil =>
    intro g it w hy _ _ hw _ _ _
    have hn : it.hasNext = false := hy
    refine ⟨w.heap result, ?_, hw, Mat.Same.refl _, by simp, fun _ _ _ _ _ => rfl⟩
    have : ({ w with heap := Function.update w.heap result (w.heap result) } : World Rune) = w := by simp
    rw [this]
    cases g <;> · unfold eachLoop; simp [hn]
  | cons e es ih =>
    intro g it w hy hg hp hw hk hr hpw
    obtain ⟨hn, it', h1, h2⟩ := hy
    cases g with
    | zero => simp at hg
    | succ g =>
      obtain ⟨r1, r2⟩ := hr e (by simp)
      obtain ⟨m1, s1, s2⟩ := Mat.set_ok hw hk r1 r2 e.2.2
      set w1 : World Rune := { w with heap := Function.update w.heap result m1 } with hw1
      have hset : M.set result (pos e.1).1 (pos e.1).2 e.2.2 w = .ok () w1 := by
        unfold M.set withObj
        dsimp only
        rw [s1]; rfl
      have hh : w1.heap result = m1 := by rw [hw1]; simp
      have hpe : w1.heap p = vec := by rw [hw1]; simp only [Function.update_of_ne hne]; exact hp
      rw [List.pairwise_cons] at hpw
      obtain ⟨m', f1, f2, f3, f4, f5⟩ := ih g it' w1 h2 (by simpa using hg) hpe (by rw [hh]; exact s2.wf)
        (by rw [hh, s2.same.1]; exact hk)
        (by
          intro e' he'
          rw [hh, s2.same.2.1, s2.same.2.2]
          exact hr e' (by simp [he'])) hpw.2
      rw [hh] at f3 f5
      refine ⟨m', ?_, f2, f3.trans s2.same, ?_, ?_⟩
      · unfold eachLoop
        rw [if_pos hn]
        have : ofObj p (fun m => m.step it) w = .ok (it', e) w := ofObj_ok (by rw [hp]; exact h1)
        rw [bind_ok this]
        simp only
        rw [bind_ok hset, f1, hw1]
        simp
      · intro e' he'
        rcases List.mem_cons.1 he' with rfl | he'
        · rw [f5 _ _ (by rw [s2.same.2.1]; exact r1) (by rw [s2.same.2.2]; exact r2)
            (fun e2 he2 h => hpw.1 e2 he2 h.symm), s2.hit, Mat.keep_lawful]
        · exact f4 e' he'
      · intro i j hi hj hmiss
        rw [f5 i j (by rw [s2.same.2.1]; exact hi) (by rw [s2.same.2.2]; exact hj)
          (fun e2 he2 => hmiss e2 (by simp [he2]))]
        refine s2.miss i j hi hj ?_
        rintro ⟨rfl, rfl⟩
        exact hmiss e (by simp) rfl

/-- The same from a fresh iterator over a dense vector. -/
theorem each_ok {p result : Ref} {v : DVec Rune} {pos : Nat → Nat × Nat} {w : World Rune} (hne : p ≠ result)
    (hp : w.heap p = .dvec v) (hv : v.WF) (hg : v.l ≤ w.gas) (hw : (w.heap result).WF)
    (hk : (w.heap result).kind ≠ .svec)
    (hr : ∀ c, c < v.l → (pos c).1 < (w.heap result).rows ∧ (pos c).2 < (w.heap result).cols)
    (hinj : ∀ c c', pos c = pos c' → c = c') :
    ∃ m', each p (fun c v => M.set result (pos c).1 (pos c).2 v) w =
        .ok () { w with heap := Function.update w.heap result m' } ∧ m'.WF ∧ Mat.Same m' (w.heap result) ∧
      (∀ c, c < v.l → m'.val (pos c).1 (pos c).2 = v.cell c) ∧
      ∀ i j, i < (w.heap result).rows → j < (w.heap result).cols → (∀ c, c < v.l → pos c ≠ (i, j)) →
        m'.val i j = (w.heap result).val i j := by
  have hM : Mat.MapAt (Mat.dvec v) (Mat.dvec v).iter v.entries := ⟨hv, 0, DVec.iter_init v, by omega, by simp⟩
  have hmem : ∀ e, e ∈ v.entries → ∃ c, c < v.l ∧ e = (c, 0, v.cell c) := by
    intro e he
    obtain ⟨c, hc, rfl⟩ := List.mem_map.1 he
    exact ⟨c, List.mem_range.1 hc, rfl⟩
  obtain ⟨m', f1, f2, f3, f4, f5⟩ := eachLoop_ok (vec := Mat.dvec v) (pos := pos) hne v.entries w.gas (Mat.dvec v).iter w hM.yields
    (by simpa [DVec.entries] using hg) hp hw hk
    (by intro e he; obtain ⟨c, hc, rfl⟩ := hmem e he; exact hr c hc)
    (by
      unfold DVec.entries
      rw [List.pairwise_map]
      exact (List.nodup_range (n := v.l)).imp (fun {a b} hab h => hab (hinj a b h)))
  refine ⟨m', ?_, f2, f3, ?_, ?_⟩
  · show eachLoop p _ w.gas (w.heap p).iter w = _
    rw [hp]; exact f1
  · intro c hc
    exact f4 (c, 0, v.cell c) (List.mem_map.2 ⟨c, List.mem_range.2 hc, rfl⟩)
  · intro i j hi hj h
    refine f5 i j hi hj ?_
    intro e he
    obtain ⟨c, hc, rfl⟩ := hmem e he
    exact h c hc

/-- What rows and columns have in common: `cnt` lines of `len` cells; cell `c` of line `k` is `pos k c`. -/
structure Lanes (line : Mat Rune → Int → Out (Vec Rune)) (pos : Nat → Nat → Nat × Nat) (cnt len : Mat Rune → Nat) : Prop where
  line_ok : ∀ m, m.WF → m.kind = .dense → ∀ k : Nat, k < cnt m →
    line m k = .ok (.dvec { l := len m, values := (List.range (len m)).map (fun c => m.val (pos k c).1 (pos k c).2) })
  range : ∀ m k c, k < cnt m → c < len m → (pos k c).1 < m.rows ∧ (pos k c).2 < m.cols
  cover : ∀ m i j, i < m.rows → j < m.cols → ∃ k c, k < cnt m ∧ c < len m ∧ pos k c = (i, j)
  inj : ∀ k c k' c', pos k c = pos k' c' → k = k' ∧ c = c'
  same : ∀ m m', Mat.Same m' m → cnt m' = cnt m ∧ len m' = len m

theorem lanes_rows : Lanes Mat.rowsAt (fun k c => (k, c)) Mat.rows Mat.cols where
  line_ok := by
    intro m hw hk k hkm
    cases m <;> simp [Mat.kind] at hk
    rename_i s
    have hw : s.WF := hw
    have hkm : k < s.r := hkm
    simp only [Mat.rowsAt, Dense.rowsAt_ok hw hkm, Out.ok_bind, Mat.cols]
    congr 3
    apply List.map_congr_left
    intro c hc
    rw [Mat.val_dense hw hkm (List.mem_range.1 hc)]
  range := fun m k c h1 h2 => ⟨h1, h2⟩
  cover := fun m i j h1 h2 => ⟨i, j, h1, h2, rfl⟩
  inj := by intro k c k' c' h; simpa using h
  same := fun m m' h => ⟨h.2.1, h.2.2⟩

theorem lanes_cols : Lanes Mat.columnsAt (fun k c => (c, k)) Mat.cols Mat.rows where
  line_ok := by
    intro m hw hk k hkm
    cases m <;> simp [Mat.kind] at hk
    rename_i s
    have hw : s.WF := hw
    have hkm : k < s.c := hkm
    simp only [Mat.columnsAt, Dense.columnsAt_ok hw hkm, Out.ok_bind, Mat.rows]
    congr 3
    apply List.map_congr_left
    intro c hc
    rw [Mat.val_dense hw (List.mem_range.1 hc) hkm]
  range := fun m k c h1 h2 => ⟨h2, h1⟩
  cover := fun m i j h1 h2 => ⟨j, i, h2, h1, rfl⟩
  inj := by intro k c k' c' h; simp at h; exact ⟨h.2, h.1⟩
  same := fun m m' h => ⟨h.2.2, h.2.1⟩

/-- Line `k`. -/
def lane (pos : Nat → Nat → Nat × Nat) (len : Mat Rune → Nat) (m : Mat Rune) (k : Nat) : List Rune :=
  (List.range (len m)).map (fun c => m.val (pos k c).1 (pos k c).2)

theorem flat_dvec {v : DVec Rune} (hv : v.WF) : (Mat.dvec v).flat = v.values := by
  unfold Mat.flat
  rw [← range_mul]
  simp only [Mat.rows, Mat.cols, Nat.mul_one, List.map_map]
  have hl : v.values.length = v.l := hv
  apply List.ext_getElem
  · simp [hl]
  · intro i h1 h2
    have hi : i < v.l := by simpa using h1
    simp only [List.getElem_map, List.getElem_range, Function.comp, Nat.div_one, Nat.mod_one]
    rw [Mat.val_dvec hv hi]
    unfold DVec.cell
    simp [List.getD, h2]

/-- The lines after an exchange of `j` and `i`. -/
theorem lane_swap {m m1 m2 : Mat Rune} {line : Mat Rune → Int → Out (Vec Rune)} {pos : Nat → Nat → Nat × Nat}
    {cnt len : Mat Rune → Nat} (L : Lanes line pos cnt len) {j i : Nat} (hij : i ≠ j) (hi : i < cnt m) (hj : j < cnt m)
    (s1 : Mat.Same m1 m) (s2 : Mat.Same m2 m1)
    (a1 : ∀ c, c < len m → m1.val (pos j c).1 (pos j c).2 = m.val (pos i c).1 (pos i c).2)
    (b1 : ∀ x y, x < m.rows → y < m.cols → (∀ c, c < len m → pos j c ≠ (x, y)) → m1.val x y = m.val x y)
    (a2 : ∀ c, c < len m → m2.val (pos i c).1 (pos i c).2 = m.val (pos j c).1 (pos j c).2)
    (b2 : ∀ x y, x < m.rows → y < m.cols → (∀ c, c < len m → pos i c ≠ (x, y)) → m2.val x y = m1.val x y) :
    ∀ k, k < cnt m → lane pos len m2 k = lane pos len m (Equiv.swap i j k) := by
  intro k hk
  unfold lane
  rw [(L.same _ _ s2).2, (L.same _ _ s1).2]
  apply List.map_congr_left
  intro c hc
  have hc : c < len m := List.mem_range.1 hc
  obtain ⟨r1, r2⟩ := L.range m k c hk hc
  by_cases hki : k = i
  · subst hki
    rw [Equiv.swap_apply_left]
    exact a2 c hc
  · rw [b2 _ _ r1 r2 (fun c' hc' h => hki ((L.inj i c' k c h).1.symm))]
    by_cases hkj : k = j
    · subst hkj
      rw [Equiv.swap_apply_right]
      exact a1 c hc
    · rw [b1 _ _ r1 r2 (fun c' hc' h => hkj ((L.inj j c' k c h).1.symm)), Equiv.swap_apply_of_ne_of_ne hki hkj]

/-- The body of the inner loop: nothing, or the exchange of two lines; with an uncancelled context the
lines are exchanged when they differ and the string of line `j` is not below that of line `i`. -/
theorem exchange_ok {line : Mat Rune → Int → Out (Vec Rune)} {pos : Nat → Nat → Nat × Nat}
    {cnt len : Mat Rune → Nat} (L : Lanes line pos cnt len) {w : World Rune} {result : Ref} {j i : Nat}
    (hreg : w.reg = initReg) (hw : (w.heap result).WF) (hk : (w.heap result).kind = .dense) (hn : result < w.next)
    (hij : i ≠ j) (hi : i < cnt (w.heap result)) (hj : j < cnt (w.heap result)) (hg : len (w.heap result) ≤ w.gas) :
    ∃ w', exchange result line (fun k c v => M.set result (pos k c).1 (pos k c).2 v) j i w = .ok () w' ∧
      (w'.heap result).WF ∧ Mat.Same (w'.heap result) (w.heap result) ∧
      (∀ q, q < w.next → q ≠ result → w'.heap q = w.heap q) ∧ w.next ≤ w'.next ∧ w'.reg = w.reg ∧ w'.gas = w.gas ∧
      (w.cancel = none → w'.cancel = none) ∧ ∃ sw : Bool,
      (∀ k, k < cnt (w.heap result) → lane pos len (w'.heap result) k =
        lane pos len (w.heap result) (if sw then Equiv.swap i j k else k)) ∧
      (w.cancel = none → (sw = true ↔ lane pos len (w.heap result) j ≠ lane pos len (w.heap result) i ∧
        ¬ (lane pos len (w.heap result) j).flatMap Rune.bytes < (lane pos len (w.heap result) i).flatMap Rune.bytes)) := by
  set m := w.heap result with hm
  set vj : DVec Rune := { l := len m, values := lane pos len m j } with hvj
  set vi : DVec Rune := { l := len m, values := lane pos len m i } with hvi
  have wj : vj.WF := by simp [DVec.WF, hvj, lane]
  have wi : vi.WF := by simp [DVec.WF, hvi, lane]
  set w1 : World Rune := { w with heap := Function.update w.heap w.next (.dvec vj), next := w.next + 1 } with hw1
  set w2 : World Rune := { w1 with heap := Function.update w1.heap w1.next (.dvec vi), next := w1.next + 1 } with hw2
  have lt1 : w.next < w.next + 1 := Nat.lt_succ_self _
  have nr : result ≠ w.next := Nat.ne_of_lt hn
  have nr1 : result ≠ w1.next := Nat.ne_of_lt (Nat.lt_trans hn lt1)
  have r1 : w1.heap result = m := by rw [hw1]; simp only [Function.update_of_ne nr]; rfl
  have r2 : w2.heap result = m := (Function.update_of_ne nr1 _ _).trans r1
  have ej : w2.heap w.next = .dvec vj := by
    refine (Function.update_of_ne (Nat.ne_of_lt lt1) _ _).trans ?_
    rw [hw1]; simp
  have ei : w2.heap w1.next = .dvec vi := by rw [hw2]; simp
  have eo : ∀ q, q < w.next → w2.heap q = w.heap q := fun q hq =>
    (Function.update_of_ne (Nat.ne_of_lt (Nat.lt_trans hq lt1)) _ _).trans (Function.update_of_ne (Nat.ne_of_lt hq) _ _)
  have c1 : ofObj result (fun m => line m j) w = .ok (.dvec vj) w := ofObj_ok (L.line_ok m hw hk j hj)
  have c2 : ofObj result (fun m => line m i) w1 = .ok (.dvec vi) w1 := ofObj_ok (by rw [r1]; exact L.line_ok m hw hk i hi)
  obtain ⟨x, c, e1, e2⟩ := compare_ok (w := w2) (s := w.next) (m := w1.next) hreg (by rw [ej]; exact wj) (by rw [ei]; exact wi)
    (by rw [ej]; rfl) (by rw [ei]; rfl) (by rw [ej]; exact hg) (by rw [ei]; exact hg)
    (by rw [ej]; exact Int.natCast_nonneg _) (by rw [ei]; exact Int.natCast_nonneg _)
  rw [ej, ei, flat_dvec wj, flat_dvec wi] at e2
  set w3 : World Rune := { w2 with cancel := c } with hw3
  have r3 : w3.heap result = m := r2
  have hpre : exchange result line (fun k c v => M.set result (pos k c).1 (pos k c).2 v) j i w =
      (if x > 0 then (do
        each w1.next (fun c v => M.set result (pos j c).1 (pos j c).2 v)
        each w.next (fun c v => M.set result (pos i c).1 (pos i c).2 v)) else pure () : M Rune Unit) w3 := by
    unfold exchange
    rw [bind_ok c1]
    rw [bind_ok (show alloc (Vec.toMat (.dvec vj)) w = .ok w.next w1 from rfl)]
    rw [bind_ok c2]
    rw [bind_ok (show alloc (Vec.toMat (.dvec vi)) w1 = .ok w1.next w2 from rfl)]
    rw [bind_ok e1]
  rw [hpre]
  have hsh : SameShape (Mat.dvec vj) (Mat.dvec vi) := ⟨rfl, rfl⟩
  by_cases hx : x > 0
  · rw [if_pos hx]
    obtain ⟨m1, f1, f2, f3, f4, f5⟩ := each_ok (w := w3) (p := w1.next) (result := result) (v := vi) (pos := pos j)
      (Ne.symm nr1) ei wi hg (by rw [r3]; exact hw) (by rw [r3, hk]; simp)
      (by rw [r3]; exact fun c hc => L.range m j c hj hc) (fun c c' h => (L.inj _ _ _ _ h).2)
    rw [r3] at f3 f5
    set w4 : World Rune := { w3 with heap := Function.update w3.heap result m1 } with hw4
    have r4 : w4.heap result = m1 := by rw [hw4]; simp
    have ej4 : w4.heap w.next = .dvec vj := by
      rw [hw4]; simp only [Function.update_of_ne (Ne.symm nr)]; exact ej
    obtain ⟨m2, g1, g2, g3, g4, g5⟩ := each_ok (w := w4) (p := w.next) (result := result) (v := vj) (pos := pos i)
      (Ne.symm nr) ej4 wj hg (by rw [r4]; exact f2) (by rw [r4, f3.1, hk]; simp)
      (by rw [r4, f3.2.1, f3.2.2]; exact fun c hc => L.range m i c hi hc) (fun c c' h => (L.inj _ _ _ _ h).2)
    rw [r4] at g3 g5
    refine ⟨{ w4 with heap := Function.update w4.heap result m2 }, ?_, ?_, ?_, ?_, ?_, rfl, rfl, ?_, true, ?_, ?_⟩
    · rw [bind_ok f1]; exact g1
    · simpa using g2
    · simpa using g3.trans f3
    · intro q hq hqr
      simp only [Function.update_of_ne hqr]
      rw [hw4]; simp only [Function.update_of_ne hqr]
      exact eo q hq
    · exact Nat.le_of_lt (Nat.lt_trans lt1 (Nat.lt_succ_self _))
    · intro hc; exact (e2 hc).1
    · simp only [Function.update_self, if_true]
      have cj : ∀ c, c < len m → vj.cell c = m.val (pos j c).1 (pos j c).2 := by
        intro c hc; simp [DVec.cell, hvj, lane, List.getD, hc]
      have ci : ∀ c, c < len m → vi.cell c = m.val (pos i c).1 (pos i c).2 := by
        intro c hc; simp [DVec.cell, hvi, lane, List.getD, hc]
      refine lane_swap L hij hi hj f3 g3 (fun c hc => by rw [f4 c hc, ci c hc]) f5
        (fun c hc => by rw [g4 c hc, cj c hc]) ?_
      intro x y hx hy h
      exact g5 x y (by rw [f3.2.1]; exact hx) (by rw [f3.2.2]; exact hy) h
    · intro hc
      simp only [true_iff]
      have h2 := (e2 hc).2
      constructor
      · intro heq
        rw [if_pos ⟨hsh, heq⟩] at h2
        omega
      · intro hlt
        by_cases heq : vj.values = vi.values
        · rw [if_pos ⟨hsh, heq⟩] at h2; omega
        · rw [if_neg (fun h => heq h.2), if_pos hlt] at h2; omega
  · rw [if_neg hx]
    refine ⟨w3, rfl, by rw [r3]; exact hw, by rw [r3]; exact Mat.Same.refl _, fun q hq _ => eo q hq, ?_, rfl, rfl, ?_, false, ?_, ?_⟩
    · exact Nat.le_of_lt (Nat.lt_trans lt1 (Nat.lt_succ_self _))
    · intro hc; exact (e2 hc).1
    · intro k hk; rw [r3]; rfl
    · intro hc
      simp only [Bool.false_eq_true, false_iff]
      rintro ⟨h1, h2⟩
      have h3 := (e2 hc).2
      rw [if_neg (fun h => h1 h.2), if_neg h2] at h3
      omega


theorem map_swap_perm {α : Type} (n i j : Nat) (hi : i < n) (hj : j < n) (f : Nat → α) :
    ((List.range n).map (fun k => f (Equiv.swap i j k))).Perm ((List.range n).map f) := by
  have h : ((List.range n).map (Equiv.swap i j)).Perm (List.range n) := by
    refine (List.perm_ext_iff_of_nodup ?_ List.nodup_range).2 ?_
    · exact List.nodup_range.map (Equiv.swap i j).injective
    · intro k
      simp only [List.mem_map, List.mem_range]
      have hlt : ∀ x, x < n → Equiv.swap i j x < n := by
        intro x hx
        rw [Equiv.swap_apply_def]
        split_ifs <;> assumption
      constructor
      · rintro ⟨x, hx, rfl⟩; exact hlt x hx
      · intro hk; exact ⟨Equiv.swap i j k, hlt k hk, Equiv.swap_apply_self _ _ _⟩
  have := h.map f
  rwa [List.map_map] at this

/-- What holds throughout the sort: the lines are a permutation of the original ones, nothing else of
the caller's changed. -/
structure Base (pos : Nat → Nat → Nat × Nat) (cnt len : Mat Rune → Nat) (w0 w : World Rune) (A : Mat Rune)
    (result : Ref) : Prop where
  wf : (w.heap result).WF
  same : Mat.Same (w.heap result) A
  kind : A.kind = .dense
  old : ∀ q, q < w0.next → w.heap q = w0.heap q
  fresh : w0.next ≤ result
  lt : result < w.next
  reg : w.reg = initReg
  gas : len A ≤ w.gas
  gas0 : w.gas = w0.gas
  cancel : w0.cancel = none → w.cancel = none
  perm : ((List.range (cnt A)).map (lane pos len (w.heap result))).Perm ((List.range (cnt A)).map (lane pos len A))

/-- The order of two lines, as they are written. -/
def Le (a b : List Rune) : Prop := a.map Rune.shown ≤ b.map Rune.shown

theorem step {line : Mat Rune → Int → Out (Vec Rune)} {pos : Nat → Nat → Nat × Nat}
    {cnt len : Mat Rune → Nat} (L : Lanes line pos cnt len) {w0 w : World Rune} {A : Mat Rune} {result : Ref} {j i : Nat}
    (hB : Base pos cnt len w0 w A result) (hji : j < i) (hi : i < cnt A) :
    ∃ w', exchange result line (fun k c v => M.set result (pos k c).1 (pos k c).2 v) j i w = .ok () w' ∧
      Base pos cnt len w0 w' A result ∧
      (w0.cancel = none → 
        (∀ p q, p < j → p < q → q < cnt A → Le (lane pos len (w.heap result) p) (lane pos len (w.heap result) q)) →
        (∀ q, j < q → q < i → Le (lane pos len (w.heap result) j) (lane pos len (w.heap result) q)) →
        (∀ p q, p < j → p < q → q < cnt A → Le (lane pos len (w'.heap result) p) (lane pos len (w'.heap result) q)) ∧
        (∀ q, j < q → q < i + 1 → Le (lane pos len (w'.heap result) j) (lane pos len (w'.heap result) q))) := by
  obtain ⟨hcnt, hlen⟩ := L.same _ _ hB.same
  obtain ⟨w', e1, e2, e3, e4, e5, e6, e7, e8, sw, e9, e10⟩ := exchange_ok L (j := j) (i := i) hB.reg hB.wf
    (by rw [hB.same.1]; exact hB.kind) hB.lt (by omega) (by rw [hcnt]; exact hi) (by rw [hcnt]; omega)
    (by rw [hlen]; exact hB.gas)
  rw [hcnt] at e9
  have hperm : ((List.range (cnt A)).map (lane pos len (w'.heap result))).Perm
      ((List.range (cnt A)).map (lane pos len (w.heap result))) := by
    have : (List.range (cnt A)).map (lane pos len (w'.heap result)) =
        (List.range (cnt A)).map (fun k => lane pos len (w.heap result) (if sw then Equiv.swap i j k else k)) :=
      List.map_congr_left (fun k hk => e9 k (List.mem_range.1 hk))
    rw [this]
    cases sw with
    | true => exact map_swap_perm _ i j hi (by omega) _
    | false => exact List.Perm.refl _
  refine ⟨w', e1, ⟨e2, e3.trans hB.same, hB.kind, ?_, hB.fresh, Nat.lt_of_lt_of_le hB.lt e5, by rw [e6]; exact hB.reg,
    by rw [e7]; exact hB.gas, by rw [e7]; exact hB.gas0, fun h => e8 (hB.cancel h), hperm.trans hB.perm⟩, ?_⟩
  · intro q hq
    have hqr : q < result := Nat.lt_of_lt_of_le hq hB.fresh
    rw [e4 q (Nat.lt_trans hqr hB.lt) (Nat.ne_of_lt hqr), hB.old q hq]
  · intro hc hS hI
    have hsw := e10 (hB.cancel hc)
    rw [bytes_lt_shown_iff] at hsw
    cases sw with
    | false =>
      have hle : Le (lane pos len (w.heap result) j) (lane pos len (w.heap result) i) := by
        by_cases heq : lane pos len (w.heap result) j = lane pos len (w.heap result) i
        · unfold Le; rw [heq]
        · have : ¬ ¬ (lane pos len (w.heap result) j).map Rune.shown < (lane pos len (w.heap result) i).map Rune.shown :=
            fun h => absurd (hsw.2 ⟨heq, h⟩) (by simp)
          exact (not_not.1 this).le
      have e9' : ∀ k, k < cnt A → lane pos len (w'.heap result) k = lane pos len (w.heap result) k := e9
      constructor
      · intro p q h1 h2 h3
        rw [e9' p (by omega), e9' q h3]; exact hS p q h1 h2 h3
      · intro q h1 h2
        rw [e9' j (by omega), e9' q (by omega)]
        by_cases hq : q = i
        · subst hq; exact hle
        · exact hI q h1 (by omega)
    | true =>
      have hle : Le (lane pos len (w.heap result) i) (lane pos len (w.heap result) j) := not_lt.1 ((hsw.1 rfl).2)
      have e9' : ∀ k, k < cnt A → lane pos len (w'.heap result) k = lane pos len (w.heap result) (Equiv.swap i j k) := e9
      constructor
      · intro p q h1 h2 h3
        rw [e9' p (by omega), e9' q h3, Equiv.swap_apply_of_ne_of_ne (a := i) (b := j) (x := p) (by omega) (by omega)]
        apply hS p _ h1
        · rw [Equiv.swap_apply_def]; split_ifs <;> omega
        · rw [Equiv.swap_apply_def]; split_ifs <;> omega
      · intro q h1 h2
        rw [e9' j (by omega), e9' q (by omega), Equiv.swap_apply_right]
        by_cases hq : q = i
        · subst hq; rw [Equiv.swap_apply_left]; exact hle
        · rw [Equiv.swap_apply_of_ne_of_ne hq (by omega)]
          exact le_trans hle (hI q h1 (by omega))

/-- The two loops. -/
theorem sortLines_ok {line : Mat Rune → Int → Out (Vec Rune)} {pos : Nat → Nat → Nat × Nat}
    {cnt len : Mat Rune → Nat} (L : Lanes line pos cnt len) {w0 w : World Rune} {A : Mat Rune} {result : Ref}
    (hB : Base pos cnt len w0 w A result) :
    ∃ w', sortLines (cnt A) (exchange result line (fun k c v => M.set result (pos k c).1 (pos k c).2 v)) w = .ok () w' ∧
      Base pos cnt len w0 w' A result ∧
      (w0.cancel = none → ∀ p q, p < q → q < cnt A →
        Le (lane pos len (w'.heap result) p) (lane pos len (w'.heap result) q)) := by
  set n := cnt A with hn
  let J : Nat → World Rune → Prop := fun j w => Base pos cnt len w0 w A result ∧
    (w0.cancel = none → ∀ p q, p < j → p < q → q < n → Le (lane pos len (w.heap result) p) (lane pos len (w.heap result) q))
  have outer : ∀ j, 0 ≤ j → j < 0 + (n - 1) → ∀ w, J j w → ∃ (x : Option Unit) (w' : World Rune),
      (do
        let _ ← forN (β := Unit) (n - (j + 1)) (j + 1) (fun i => do
          exchange result line (fun k c v => M.set result (pos k c).1 (pos k c).2 v) j i
          pure none)
        pure none : M Rune (Option Unit)) w = .ok x w' ∧ (x = none → J (j + 1) w') ∧ ∀ b, x = some b → False := by
    intro j _ hj w hJ
    let K : Nat → World Rune → Prop := fun i w => J j w ∧
      (w0.cancel = none → ∀ q, j < q → q < i → Le (lane pos len (w.heap result) j) (lane pos len (w.heap result) q))
    have inner : ∀ i, j + 1 ≤ i → i < j + 1 + (n - (j + 1)) → ∀ w, K i w → ∃ (x : Option Unit) (w' : World Rune),
        (do
          exchange result line (fun k c v => M.set result (pos k c).1 (pos k c).2 v) j i
          pure none : M Rune (Option Unit)) w = .ok x w' ∧ (x = none → K (i + 1) w') ∧ ∀ b, x = some b → False := by
      rintro i h1 h2 w ⟨⟨hB, hS⟩, hI⟩
      obtain ⟨w', e1, e2, e3⟩ := step L hB (j := j) (i := i) (by omega) (by omega)
      refine ⟨none, w', by rw [bind_ok e1]; rfl, fun _ => ⟨⟨e2, fun hc => (e3 hc (hS hc) (hI hc)).1⟩,
        fun hc => (e3 hc (hS hc) (hI hc)).2⟩, by simp⟩
    obtain ⟨x, w', e1, e2⟩ := forN_rule (J := K) (Q := fun _ _ => False) (n - (j + 1)) (j + 1) w inner
      ⟨hJ, fun _ q h1 h2 => absurd h2 (by omega)⟩
    refine ⟨none, w', by rw [bind_ok e1]; rfl, fun _ => ?_, by simp⟩
    rcases e2 with ⟨-, h⟩ | ⟨b, -, h⟩
    · refine ⟨h.1.1, fun hc p q h1 h2 h3 => ?_⟩
      rcases Nat.lt_or_ge p j with hp | hp
      · exact h.1.2 hc p q hp h2 h3
      · obtain rfl : p = j := by omega
        exact h.2 hc q h2 (by omega)
    · exact h.elim
  obtain ⟨x, w', e1, e2⟩ := forN_rule (J := J) (Q := fun _ _ => False) (n - 1) 0 w outer
    ⟨hB, fun _ p q h => absurd h (by omega)⟩
  refine ⟨w', ?_, ?_⟩
  · unfold sortLines; rw [bind_ok e1]; rfl
  · rcases e2 with ⟨-, h⟩ | ⟨b, -, h⟩
    · exact ⟨h.1, fun hc p q h1 h2 => h.2 hc p q (by omega) h1 h2⟩
    · exact h.elim

end Runes
end GB
