import Verif.SpecTable
import Verif.Lemmas.Clear
import Verif.Props.Arith
import Verif.Props.Symm

/-!
# Calls on a `MutexMatrix` and calls on a table
-/

namespace GB
namespace Mutex

set_option linter.unusedSectionVars false

variable {T : Type} [GoNum T]

variable [GoStore T]

theorem Table.call_dims (q : Method T) (t : Table T) :
    (call q t).2.rows = t.rows ∧ (call q t).2.cols = t.cols ∧ (call q t).2.compressed = t.compressed := by
  cases q <;> dsimp only [call] <;> (try split) <;> exact ⟨rfl, rfl, rfl⟩

omit [GoStore T] in
theorem element_panic {m : Mat T} (hk : m.kind = .csr ∨ m.kind = .csc ∨ m.kind = .dense) {i j : Int}
    (hv : ¬ m.Valid i j) : m.element i j = .panic := by
  have hn : ¬ (inRange i m.rows = true ∧ inRange j m.cols = true) := by
    rw [inRange_iff, inRange_iff]
    rintro ⟨⟨a, b⟩, c, d⟩
    exact hv ⟨a, b, c, d⟩
  cases m <;> simp [Mat.kind] at hk
  · simp [Mat.element, CSR.element, CSR.updateWith_panic _ _ _ _ hn]
  · simp [Mat.element, CSC.element, CSC.updateWith_panic _ _ _ _ hn]
  · simp [Mat.element, Dense.element, Dense.at_panic _ _ _ hn]

omit [GoStore T] in
theorem VecHolds.congr {v : Vec T} {n : Nat} {g g' : Nat → T} (h : VecHolds v n g) (e : ∀ i, i < n → g i = g' i) :
    VecHolds v n g' := by
  obtain ⟨h1, h2⟩ := h
  refine ⟨h1, ?_⟩
  cases v with
  | dvec d => exact fun i hi => by rw [← e i hi]; exact h2 i hi
  | svec s =>
    have : ((List.range n).filter (fun i => !isZero (g' i))).map (fun i => (i, 0, g' i)) =
        ((List.range n).filter (fun i => !isZero (g i))).map (fun i => (i, 0, g i)) := by
      rw [List.filter_congr (q := fun i => !isZero (g i)) fun i hi => by rw [e i (List.mem_range.1 hi)]]
      exact List.map_congr_left fun i hi => by rw [e i (List.mem_range.1 (List.mem_filter.1 hi).1)]
    show Yields _ _ _ _
    rw [this]
    exact h2

/-- One call on the matrix and on the table. -/
theorem alone_table {gas : Nat} {q : Method T} {m : Mat T} {t : Table T} (hq : q.Plain) (hl : q.mode ≠ .free) (hm : Reach m)
    (h : Reads m t) (hg : t.rows * t.cols ≤ gas) :
    Says (q.alone gas m).1 (Table.call q t).1 ∧ Reads (q.alone gas m).2 (Table.call q t).2 := by
  have hk := h.kind
  have hk' : m.kind ≠ .svec := by rcases hk with hk | hk | hk <;> simp [hk]
  have hw := hm.wf hk'
  have hval : ∀ i j : Nat, i < t.rows → j < t.cols → m.val i j = t.cell i j := by
    intro i j hi hj
    have h1 := h.cells i j hi hj
    rw [Mat.at_ok hw (by rw [h.rows]; exact hi) (by rw [h.cols]; exact hj)] at h1
    simpa using h1
  have hV : ∀ i j, m.Valid i j ↔ t.Valid i j := fun i j => by unfold Mat.Valid Table.Valid; rw [h.rows, h.cols]
  have hkeep : ∀ v : T, m.keep v = if t.compressed && GoNum.geq v 0 then 0 else v := by
    intro v
    have hc := h.compressed
    rcases hk with hk | hk | hk
    · rw [hc.2 (by rw [hk]; simp)]; simp only [Mat.keep, hk, norm, Bool.true_and]; rfl
    · rw [hc.2 (by rw [hk]; simp)]; simp only [Mat.keep, hk, norm, Bool.true_and]; rfl
    · have : t.compressed = false := by
        cases hb : t.compressed with
        | false => rfl
        | true => exact absurd hk (hc.1 hb)
      simp [Mat.keep, hk, this]
  have hwrite : ∀ (i j : Nat) (v : T) (m' : Mat T), Mat.Wrote m m' i j (m.keep v) → Reads m' (t.store i j v) := by
    intro i j v m' hW
    refine ⟨by rw [hW.same.1]; exact hk, by rw [hW.same.2.1]; exact h.rows, by rw [hW.same.2.2]; exact h.cols,
      by rw [hW.same.1]; exact h.compressed, fun a b ha hb => ?_⟩
    have ha' : a < m.rows := by rw [h.rows]; exact ha
    have hb' : b < m.cols := by rw [h.cols]; exact hb
    rw [Mat.at_ok hW.wf (by rw [hW.same.2.1]; exact ha') (by rw [hW.same.2.2]; exact hb')]
    congr 2
    show _ = if a = i ∧ b = j then _ else _
    by_cases hab : a = i ∧ b = j
    · rw [if_pos hab, hab.1, hab.2, hW.hit, hkeep]
    · rw [if_neg hab, hW.miss a b ha' hb' hab, hval a b ha hb]
  have rng : ∀ {i j : Int}, t.Valid i j → ∃ a b : Nat, i = a ∧ j = b ∧ a < t.rows ∧ b < t.cols := by
    rintro i j ⟨a, b, c, d⟩
    obtain ⟨i, rfl⟩ := Int.eq_ofNat_of_zero_le a
    obtain ⟨j, rfl⟩ := Int.eq_ofNat_of_zero_le c
    exact ⟨i, j, rfl, rfl, by exact_mod_cast b, by exact_mod_cast d⟩
  cases q <;> simp only [Method.Plain] at hq <;> simp only [Method.mode, ne_eq, reduceCtorEq, not_true_eq_false, not_false_eq_true] at hl
  case at' i j =>
    by_cases hv : t.Valid i j
    · obtain ⟨a, b, rfl, rfl, ha, hb⟩ := rng hv
      simp only [Method.alone, Table.call, if_pos hv, h.cells a b ha hb]
      exact ⟨rfl, h⟩
    · simp only [Method.alone, Table.call, if_neg hv, (C06_out_of_range_panics m hk (mt (hV i j).1 hv) 0 id).1]
      exact ⟨trivial, h⟩
  case element i j =>
    by_cases hv : t.Valid i j
    · obtain ⟨a, b, rfl, rfl, ha, hb⟩ := rng hv
      simp only [Method.alone, Table.call, if_pos hv,
        Mat.element_ok hw (show a < m.rows by rw [h.rows]; exact ha) (show b < m.cols by rw [h.cols]; exact hb)]
      exact ⟨by simp [effect, Says, hval a b ha hb], h⟩
    · simp only [Method.alone, Table.call, if_neg hv, element_panic hk (mt (hV i j).1 hv)]
      exact ⟨trivial, h⟩
  case set i j v =>
    by_cases hv : t.Valid i j
    · obtain ⟨a, b, rfl, rfl, ha, hb⟩ := rng hv
      obtain ⟨m', h1, h2⟩ := Mat.set_ok hw hk' (show a < m.rows by rw [h.rows]; exact ha)
        (show b < m.cols by rw [h.cols]; exact hb) v
      simp only [Method.alone, Table.call, if_pos hv, h1]
      exact ⟨trivial, hwrite a b v m' h2⟩
    · simp only [Method.alone, Table.call, if_neg hv, (C06_out_of_range_panics m hk (mt (hV i j).1 hv) v id).2.1]
      exact ⟨trivial, h⟩
  case update i j f =>
    by_cases hv : t.Valid i j
    · obtain ⟨a, b, rfl, rfl, ha, hb⟩ := rng hv
      obtain ⟨m', h1, h2⟩ := Mat.update_ok hw hk' (show a < m.rows by rw [h.rows]; exact ha)
        (show b < m.cols by rw [h.cols]; exact hb) f
      simp only [Method.alone, Table.call, if_pos hv, h1]
      refine ⟨trivial, ?_⟩
      have := hwrite a b (f (m.val a b)) m' h2
      rwa [hval a b ha hb] at this
    · simp only [Method.alone, Table.call, if_neg hv, (C06_out_of_range_panics m hk (mt (hV i j).1 hv) 0 f).2.2]
      exact ⟨trivial, h⟩
  case rowsAtToArray i =>
    obtain ⟨val, v1, -, -, v4⟩ := C10_rows_and_columns hm hk
    by_cases hv : 0 ≤ i ∧ i < (t.rows : Int)
    · obtain ⟨a, rfl⟩ := Int.eq_ofNat_of_zero_le hv.1
      have ha : a < t.rows := by exact_mod_cast hv.2
      simp only [Method.alone, Table.call, if_pos hv, v4 a (by rw [h.rows]; exact ha)]
      refine ⟨?_, h⟩
      show _ = _
      rw [h.cols]
      refine List.map_congr_left fun j hj => ?_
      have hj := List.mem_range.1 hj
      have := v1 a j (by rw [h.rows]; exact ha) (by rw [h.cols]; exact hj)
      rw [h.cells a j ha hj] at this
      simp at this
      exact this.symm
    · simp only [Method.alone, Table.call, if_neg hv, ((C10_out_of_range m i).1 (by rw [h.rows]; exact hv)).2]
      exact ⟨trivial, h⟩
  case rowsAt i =>
    obtain ⟨val, v1, v2, -, -⟩ := C10_rows_and_columns hm hk
    by_cases hv : 0 ≤ i ∧ i < (t.rows : Int)
    · obtain ⟨a, rfl⟩ := Int.eq_ofNat_of_zero_le hv.1
      have ha : a < t.rows := by exact_mod_cast hv.2
      obtain ⟨v, e, hh⟩ := v2 a (by rw [h.rows]; exact ha)
      simp only [Method.alone, Table.call, if_pos hv, e]
      refine ⟨?_, h⟩
      rw [h.cols] at hh
      refine VecHolds.congr hh fun j hj => ?_
      have := v1 a j (by rw [h.rows]; exact ha) (by rw [h.cols]; exact hj)
      rw [h.cells a j ha hj] at this
      simp at this
      exact this.symm
    · simp only [Method.alone, Table.call, if_neg hv, ((C10_out_of_range m i).1 (by rw [h.rows]; exact hv)).1]
      exact ⟨trivial, h⟩
  case columnsAt j =>
    obtain ⟨val, v1, -, v3, -⟩ := C10_rows_and_columns hm hk
    by_cases hv : 0 ≤ j ∧ j < (t.cols : Int)
    · obtain ⟨b, rfl⟩ := Int.eq_ofNat_of_zero_le hv.1
      have hb : b < t.cols := by exact_mod_cast hv.2
      obtain ⟨v, e, hh⟩ := v3 b (by rw [h.cols]; exact hb)
      simp only [Method.alone, Table.call, if_pos hv, e]
      refine ⟨?_, h⟩
      rw [h.rows] at hh
      refine VecHolds.congr hh fun i hi => ?_
      have := v1 i b (by rw [h.rows]; exact hi) (by rw [h.cols]; exact hb)
      rw [h.cells i b hi hb] at this
      simp at this
      exact this.symm
    · simp only [Method.alone, Table.call, if_neg hv, (C10_out_of_range m j).2 (by rw [h.cols]; exact hv)]
      exact ⟨trivial, h⟩
  case copy =>
    simp only [Method.alone, Table.call, Mat.copy_ok hw]
    exact ⟨⟨h.rows, h.cols, h.cells⟩, h⟩
  case transpose =>
    obtain ⟨p, w', e, -, -, hp, -, -, -, a1, a2, a3, a4, a5⟩ := C15_transpose (w := World.of gas [m]) (s := 0) hw Nat.zero_lt_one
      (Nat.le_trans (Mat.nvalues_le hw) (by show m.rows * m.cols ≤ gas; rw [h.rows, h.cols]; exact hg))
    simp only [Method.alone, Table.call, e]
    have e0 : w'.heap 0 = m := hp 0 Nat.zero_lt_one
    refine ⟨⟨a3.trans h.cols, a4.trans h.rows, fun j i hj hi => ?_⟩, ?_⟩
    · rw [Mat.at_ok a1 (by rw [a3]; show j < m.cols; rw [h.cols]; exact hj) (by rw [a4]; show i < m.rows; rw [h.rows]; exact hi),
        a5 j i (by show j < m.cols; rw [h.cols]; exact hj) (by show i < m.rows; rw [h.rows]; exact hi)]
      congr 2
      exact hval i j hi hj
    · show Reads (w'.heap 0) t
      rw [e0]; exact h

theorem serial_table {n : Nat} {gas : Nat} : ∀ (l : List (Fin n × Method T)) {m : Mat T} {t : Table T},
    (∀ x ∈ l, x.2.Plain ∧ x.2.mode ≠ .free) → Reach m → Reads m t → t.rows * t.cols ≤ gas →
    Reads (serial (Method.alone gas) m l).1 (serial Table.call t l).1 ∧
    List.Forall₂ (fun x y => x.1 = y.1 ∧ x.2.1 = y.2.1 ∧ Says x.2.2 y.2.2) (serial (Method.alone gas) m l).2
      (serial Table.call t l).2
  | [], _, _, _, _, h, _ => ⟨h, .nil⟩
  | (i, q) :: l, m, t, hl, hm, h, hg => by
    obtain ⟨hp, hf⟩ := hl (i, q) (by simp)
    obtain ⟨h1, h2⟩ := alone_table hp hf hm h hg
    have hd := Table.call_dims q t
    have hS : q.Sound := by cases q <;> simp only [Method.Plain] at hp <;> trivial
    have hr : Reach (q.alone gas m).2 := by
      by_cases hw : q.mode = .write
      · exact alone_reach gas hw hm
      · have : (q.alone gas m).2 = m := (atomic_quiet gas hw hS hm).1
        rw [this]; exact hm
    have hg' : (Table.call q t).2.rows * (Table.call q t).2.cols ≤ gas := by rw [hd.1, hd.2.1]; exact hg
    obtain ⟨h3, h4⟩ := serial_table (gas := gas) l (fun x hx => hl x (by simp [hx])) hr h2 hg'
    exact ⟨h3, .cons ⟨rfl, rfl, h1⟩ h4⟩

theorem Forall₂.ofThread {n : Nat} {μ R R' : Type} {P : R → R' → Prop} (i : Fin n) {l : List (Fin n × μ × R)}
    {l' : List (Fin n × μ × R')} (h : List.Forall₂ (fun x y => x.1 = y.1 ∧ x.2.1 = y.2.1 ∧ P x.2.2 y.2.2) l l') :
    List.Forall₂ (fun x y => x.1 = y.1 ∧ P x.2 y.2) (Mutex.ofThread i l) (Mutex.ofThread i l') := by
  unfold Mutex.ofThread
  induction h with
  | nil => exact .nil
  | @cons x y l l' h _ ih =>
    by_cases hx : x.1 = i
    · rw [List.filter_cons_of_pos (by simpa using hx), List.filter_cons_of_pos (by simpa using h.1 ▸ hx)]
      exact .cons h.2 ih
    · rw [List.filter_cons_of_neg (by simpa using hx), List.filter_cons_of_neg (by simpa using h.1 ▸ hx)]
      exact ih

theorem Steps.order_prefix {n : Nat} {μ S R : Type} {mode : μ → Mode} {body : μ → Prog S R} {c c' : Conf n μ S R}
    (h : Steps mode body c c') : c.order <+: c'.order := by
  induction h with
  | refl => exact List.prefix_refl _
  | tail _ hs ih =>
    refine ih.trans ?_
    cases hs with
    | leave i he => rename_i m _ _ _; cases hm : mode m <;> exact List.prefix_refl _
    | _ => first | exact List.prefix_refl _ | exact List.prefix_append _ _

theorem clear_run (gas : Nat) (s : Mat T) : (Method.fine gas .clear).run s = Method.alone gas .clear s := by
  cases s with
  | dense s => exact clearProgD_run s
  | _ => rfl

/-- What one goroutine has done: `past` returned, the rest is under way or to do. -/
structure Alone (f0 : Method T → Mat T → Out (Val T) × Mat T) (s0 : Mat T) (calls : List (Method T))
    (c : Conf 1 (Method T) (Mat T) (Out (Val T))) (past : List (Fin 1 × Method T)) : Prop where
  reach : Reach (serial f0 s0 past).1
  res : (c.thr 0).res = (serial f0 s0 past).2.map (·.2)
  here : match (c.thr 0).phase with
    | .idle => c.mat = (serial f0 s0 past).1 ∧ past.map (·.2) ++ (c.thr 0).todo = calls
    | .waiting m => c.mat = (serial f0 s0 past).1 ∧ past.map (·.2) ++ m :: (c.thr 0).todo = calls
    | .inside m p => p.run c.mat = f0 m (serial f0 s0 past).1 ∧ past.map (·.2) ++ m :: (c.thr 0).todo = calls

theorem Alone.step {gas : Nat} {body : Method T → Prog (Mat T) (Out (Val T))}
    (hrun : ∀ m : Method T, m.Single → ∀ s, Reach s → (body m).run s = m.alone gas s) {s0 : Mat T}
    {calls : List (Method T)} (hA : ∀ m ∈ calls, m.Single) {c c' : Conf 1 (Method T) (Mat T) (Out (Val T))}
    (hs : Step Method.mode body c c') {past : List (Fin 1 × Method T)} (h : Alone (Method.alone gas) s0 calls c past) :
    ∃ past', Alone (Method.alone gas) s0 calls c' past' := by
  obtain ⟨h1, h2, h3⟩ := h
  cases hs with
  | @announce i m rest res he _ _ =>
    obtain rfl : i = 0 := Subsingleton.elim _ _
    rw [he] at h2 h3
    exact ⟨past, h1, by simpa [Conf.put] using h2, by simpa [Conf.put] using h3⟩
  | @lock i m rest res he _ =>
    obtain rfl : i = 0 := Subsingleton.elim _ _
    rw [he] at h2 h3
    refine ⟨past, h1, by simpa [Conf.put] using h2, ?_⟩
    simp only [Conf.put, Function.update_self]
    refine ⟨?_, h3.2⟩
    rw [h3.1]
    exact hrun m (hA m (by rw [← h3.2]; simp)) _ h1
  | @rlock i m rest res he _ _ =>
    obtain rfl : i = 0 := Subsingleton.elim _ _
    rw [he] at h2 h3
    refine ⟨past, h1, by simpa [Conf.put] using h2, ?_⟩
    simp only [Conf.put, Function.update_self]
    refine ⟨?_, h3.2⟩
    rw [h3.1]
    exact hrun m (hA m (by rw [← h3.2]; simp)) _ h1
  | @enter i m rest res he _ =>
    obtain rfl : i = 0 := Subsingleton.elim _ _
    rw [he] at h2 h3
    refine ⟨past, h1, by simpa [Conf.put] using h2, ?_⟩
    simp only [Conf.put, Function.update_self]
    refine ⟨?_, h3.2⟩
    rw [h3.1]
    exact hrun m (hA m (by rw [← h3.2]; simp)) _ h1
  | @act i m rest res f k he =>
    obtain rfl : i = 0 := Subsingleton.elim _ _
    rw [he] at h2 h3
    refine ⟨past, h1, by simpa [Conf.put] using h2, ?_⟩
    simp only [Conf.put, Function.update_self]
    exact ⟨h3.1, h3.2⟩
  | @leave i m rest res r he =>
    obtain rfl : i = 0 := Subsingleton.elim _ _
    rw [he] at h2 h3
    obtain ⟨h3, h4⟩ := h3
    have hS : m.Single := hA m (by rw [← h4]; simp)
    have e : (r, c.mat) = m.alone gas (serial (Method.alone gas) s0 past).1 := h3
    refine ⟨past ++ [(0, m)], ?_, ?_, ?_⟩
    · rw [serial_append]
      show Reach (m.alone gas _).2
      rcases hS with hS | rfl
      · by_cases hw : m.mode = .write
        · exact alone_reach gas hw h1
        · have : (m.alone gas (serial (Method.alone gas) s0 past).1).2 = (serial (Method.alone gas) s0 past).1 :=
            (atomic_quiet gas hw hS h1).1
          rw [this]; exact h1
      · exact .call .clear h1 rfl
    · rw [serial_append]
      simp only [Conf.put, Function.update_self, List.map_append, List.map_cons, List.map_nil]
      rw [← h2, ← e]
    · rw [serial_append]
      simp only [Conf.put, Function.update_self, ← e]
      refine ⟨?_, by simpa using h4⟩
      cases hm : m.mode <;> simp [Conf.release]

end Mutex
end GB
