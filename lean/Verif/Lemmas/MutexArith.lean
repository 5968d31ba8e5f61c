import Verif.Lemmas.MutexTable
import Verif.Props.AddSub
import Verif.Props.Multiply
import Verif.Props.EWise

/-!
# Arithmetic on a `MutexMatrix` and on a table
-/

namespace GB

set_option linter.unusedSectionVars false

open M

/-- `A.Multiply(B)` with other dimensions panics; what existed is unchanged. -/
theorem Meth.multiply_panic {T : Type} [GoRing T] [GoLawful T] {w : World T} {s m : Ref} (hsn : s < w.next) (hmn : m < w.next)
    (h : (w.heap m).rows ≠ (w.heap s).cols) :
    ∃ w', Meth.multiply s m w = .panic w' ∧ ∀ q, q < w.next → w'.heap q = w.heap q := by
  have hp : Ops.matrixMatrixMultiply s m .nil w.next (fresh w (mulOut (w.heap s) (w.heap m))) =
      .panic (fresh w (mulOut (w.heap s) (w.heap m))) :=
    C20_multiply_mismatch (by rw [fresh_ne _ _ hsn, fresh_ne _ _ hmn]; exact fun h' => h h'.1)
  refine ⟨{ fresh w (mulOut (w.heap s) (w.heap m)) with cancel := w.cancel }, ?_, fun q hq => fresh_ne _ _ hq⟩
  unfold Meth.multiply background
  rw [bind_ok (x := fun w : World T => alloc (mulOut (w.heap s) (w.heap m)) w) (a := w.next)
    (w' := fresh w (mulOut (w.heap s) (w.heap m))) rfl, bind_panic hp]

namespace Mutex

variable {T : Type} [GoRing T] [GoLawful T]

theorem Table.ofArg_eq {m : Mat T} (hm : m.WF) {i j : Nat} (hi : i < m.rows) (hj : j < m.cols) :
    Table.ofArg m i j = m.val i j := by
  unfold Table.ofArg; rw [Mat.at_ok hm hi hj]

theorem Table.reckon_dims (q : Method T) (t : Table T) :
    (reckon q t).2.rows = t.rows ∧ (reckon q t).2.cols = t.cols ∧ (reckon q t).2.compressed = t.compressed := by
  cases q <;> first | exact call_dims _ t | exact ⟨rfl, rfl, rfl⟩

theorem Method.Exact.sound {gas : Nat} {z : Bool} {q : Method T} (h : q.Exact gas z) : q.Sound := by
  cases q <;> simp only [Method.Exact, Method.Plain] at h <;> first | trivial | exact h.1

theorem Table.fits_iff {t : Table T} {m : Mat T} : t.fits m = true ↔ t.rows = m.rows ∧ t.cols = m.cols := by
  simp [Table.fits]

/-- A matrix that `Returns` describes, as an answer. -/
theorem says_table {w : World T} {k : Kind} {r c : Nat} {new new' : Nat → Nat → T} {res : Res T Ref}
    (h : Returns w k r c new res) (e : ∀ i j, i < r → j < c → new i j = new' i j) {s : Mat T} (h0 : 0 < w.next)
    (hs : w.heap 0 = s) : Says (matVal res) (.table r c new') ∧ res.world.heap 0 = s := by
  obtain ⟨p, w', rfl, -, -, hp, -, -, -, a1, -, a3, a4, a5⟩ := h
  refine ⟨⟨a3, a4, fun i j hi hj => ?_⟩, (hp 0 h0).trans hs⟩
  rw [Mat.at_ok a1 (by rw [a3]; exact hi) (by rw [a4]; exact hj), a5 i j hi hj, e i j hi hj]

theorem alone_reckon {gas : Nat} {q : Method T} {m : Mat T} {t : Table T} (hq : q.Exact gas t.compressed)
    (hl : q.mode ≠ .free) (hm : Reach m) (h : Reads m t) (hg : t.rows * t.cols ≤ gas) :
    Says (q.alone gas m).1 (Table.reckon q t).1 ∧ Reads (q.alone gas m).2 (Table.reckon q t).2 := by
  have hk := h.kind
  have hk' : m.kind ≠ .svec := by rcases hk with hk | hk | hk <;> simp [hk]
  have hkd : m.kind ≠ .dvec := by rcases hk with hk | hk | hk <;> simp [hk]
  have hw := hm.wf hk'
  have hz : t.compressed = false → m.kind = .dense := fun hz => by
    by_contra hn; rw [h.compressed.2 hn] at hz; cases hz
  have hz' : t.compressed = true → m.kind = .csr ∨ m.kind = .csc := fun hz => by
    have := h.compressed.1 hz
    rcases hk with hk | hk | hk
    · exact .inl hk
    · exact .inr hk
    · exact absurd hk this
  have hval : ∀ i j : Nat, i < t.rows → j < t.cols → m.val i j = t.cell i j := by
    intro i j hi hj
    have h1 := h.cells i j hi hj
    rw [Mat.at_ok hw (by rw [h.rows]; exact hi) (by rw [h.cols]; exact hj)] at h1
    simpa using h1
  have hn : m.nvalues ≤ gas := Nat.le_trans (Mat.nvalues_le hw) (by rw [h.rows, h.cols]; exact hg)
  have key : ∀ {w : World T} {k : Kind} {r c : Nat} {new new' : Nat → Nat → T} {res : Res T Ref},
      Returns w k r c new res → (∀ i j, i < r → j < c → new i j = new' i j) → 0 < w.next → w.heap 0 = m →
      Says (matVal res) (.table r c new') ∧ Reads (res.world.heap 0) t := fun hR e h0 hs => by
    obtain ⟨a, b⟩ := says_table hR e h0 hs
    exact ⟨a, by rw [b]; exact h⟩
  have bad : ∀ {w : World T} {res : Res T Ref}, (∃ w', res = .panic w' ∧ ∀ q, q < w.next → w'.heap q = w.heap q) →
      0 < w.next → w.heap 0 = m → Says (matVal res) .panic ∧ Reads (res.world.heap 0) t := by
    rintro w res ⟨w', rfl, hp⟩ h0 hs
    refine ⟨trivial, ?_⟩
    show Reads (w'.heap 0) t
    rw [hp 0 h0, hs]; exact h
  have nsv : ∀ {x : Mat T}, (x.kind = .csr ∨ x.kind = .csc ∨ x.kind = .dense) → x.kind ≠ .svec := by
    rintro x (hx | hx | hx) <;> simp [hx]
  have cmp : ∀ x : Mat T, Reach x ∧ x.rows * x.cols ≤ gas ∧ (t.compressed = true ∧ (x.kind = .csr ∨ x.kind = .csc) ∨
      t.compressed = false ∧ x.kind = .dense) →
      Meth.equal 0 1 (World.of gas [m, x]) = .ok (t.same x) (World.of gas [m, x]) ∧
      Meth.notEqual 0 1 (World.of gas [m, x]) = .ok (!t.same x) (World.of gas [m, x]) := by
    rintro x ⟨hx, hgx, hzx⟩
    have hxk : x.kind ≠ .svec := by
      rcases hzx with ⟨-, hx | hx⟩ | ⟨-, hx⟩ <;> simp [hx]
    have hxw := hx.wf hxk
    have hsp : m.kind.sparse = x.kind.sparse := by
      rcases hzx with ⟨e, hx⟩ | ⟨e, hx⟩
      · rcases hz' e with e | e <;> rcases hx with hx | hx <;> rw [e, hx] <;> rfl
      · rw [hz e, hx]
    obtain ⟨b, e1, e2, e3⟩ := C27_equal_partial (w := World.of gas [m, x]) (s := 0) (m := 1) rfl hw hxw hn
      (Nat.le_trans (Mat.nvalues_le hxw) hgx) hsp
    have : b = t.same x := by
      rw [Bool.eq_iff_iff, e3]
      show (m.rows = x.rows ∧ m.cols = x.cols) ∧ (∀ i j, i < m.rows → j < m.cols → m.val i j = x.val i j) ↔ _
      simp only [Table.same, Bool.and_eq_true, Table.fits_iff, List.all_eq_true, List.mem_range, GoLawful.eq_iff]
      rw [h.rows, h.cols]
      refine and_congr_right fun hs => ⟨fun H i hi j hj => ?_, fun H i j hi hj => ?_⟩
      · rw [← hval i j hi hj, Table.ofArg_eq hxw (hs.1 ▸ hi) (hs.2 ▸ hj)]; exact H i j hi hj
      · rw [hval i j hi hj, ← Table.ofArg_eq hxw (hs.1 ▸ hi) (hs.2 ▸ hj)]; exact H i hi j hj
    rw [← this]; exact ⟨e1, e2⟩
  cases q
  case scalar a =>
    have := C17_scalar_partial (w := World.of gas [m]) (s := 0) a hw hn (by
      by_cases hc : t.compressed = true
      · exact .inr (.inr fun i j _ _ => hq hc _)
      · exact .inl (hz (by simpa using hc)))
    change Returns _ m.kind m.rows m.cols _ _ at this
    rw [h.rows, h.cols] at this
    exact key this (fun i j hi hj => by rw [← hval i j hi hj]; rfl) Nat.zero_lt_one rfl
  case negative =>
    have := C16_negative (w := World.of gas [m]) (s := 0) hw hn
    change Returns _ m.kind m.rows m.cols _ _ at this
    rw [h.rows, h.cols] at this
    exact key this (fun i j hi hj => by rw [← hval i j hi hj]; rfl) Nat.zero_lt_one rfl
  case add x =>
    obtain ⟨hx, hxk, hgx, hzx⟩ := hq
    have hxw := hx.wf (nsv hxk)
    simp only [Method.alone, Table.reckon]
    by_cases hf : t.fits x = true
    · rw [if_pos hf]
      have hf := Table.fits_iff.1 hf
      have := C18_add_unregistered_partial (w := World.of gas [m, x]) (s := 0) (m := 1) Nat.zero_lt_two Nat.one_lt_two hw hxw
        hk' ⟨h.rows.trans hf.1, h.cols.trans hf.2⟩ hn (Nat.le_trans (Mat.nvalues_le hxw) hgx) rfl (by
          by_cases hc : t.compressed = true
          · exact .inl (hzx hc)
          · exact .inr (.inl (hz (by simpa using hc))))
      change Returns _ m.kind m.rows m.cols (fun i j => m.val i j + x.val i j) _ at this
      rw [h.rows, h.cols] at this
      exact key this (fun i j hi hj => by rw [hval i j hi hj, Table.ofArg_eq hxw (hf.1 ▸ hi) (hf.2 ▸ hj)]) Nat.zero_lt_two rfl
    · rw [if_neg hf]
      exact bad (C18_add_mismatch (w := World.of gas [m, x]) (s := 0) (m := 1) hw Nat.one_lt_two Nat.zero_lt_two
        (fun h' => hf (Table.fits_iff.2 ⟨h.rows.symm.trans h'.1, h.cols.symm.trans h'.2⟩))) Nat.zero_lt_two rfl
  case subtract x =>
    obtain ⟨hx, hxk, hzx⟩ := hq
    have hxw := hx.wf (nsv hxk)
    simp only [Method.alone, Table.reckon]
    by_cases hf : t.fits x = true
    · rw [if_pos hf]
      have hf := Table.fits_iff.1 hf
      have := C19_subtract_dense_partial (w := World.of gas [m, x]) (s := 0) (m := 1) Nat.zero_lt_two Nat.one_lt_two hw hxw
        (nsv hxk) (.inl (hz hzx)) ⟨h.rows.trans hf.1, h.cols.trans hf.2⟩ hn
      change Returns _ x.kind m.rows m.cols (fun i j => m.val i j - x.val i j) _ at this
      rw [h.rows, h.cols] at this
      exact key this (fun i j hi hj => by rw [hval i j hi hj, Table.ofArg_eq hxw (hf.1 ▸ hi) (hf.2 ▸ hj)]) Nat.zero_lt_two rfl
    · rw [if_neg hf]
      exact bad (C19_subtract_mismatch (w := World.of gas [m, x]) (s := 0) (m := 1) hw hxw Nat.one_lt_two Nat.zero_lt_two
        (fun h' => hf (Table.fits_iff.2 ⟨h.rows.symm.trans h'.1, h.cols.symm.trans h'.2⟩))) Nat.zero_lt_two rfl
  case multiply x =>
    obtain ⟨hx, hxk, hzx⟩ := hq
    have hxw := hx.wf (by simp [hxk])
    simp only [Method.alone, Table.reckon]
    by_cases hf : (x.rows == t.cols) = true
    · rw [if_pos hf]
      have hf : x.rows = t.cols := by simpa using hf
      have := C20_method_partial (w := World.of gas [m, x]) (s := 0) (m := 1) Nat.zero_lt_two Nat.one_lt_two hw hxw
        ⟨hk', hkd⟩ (hf.trans h.cols.symm) (Mat.fit_dense (m := m) (by simp [hz hzx])).1 (Mat.fit_dense (m := x) (by simp [hxk])).2
      change Returns _ m.kind m.rows x.cols (fun i j => ∑ l ∈ Finset.range m.cols, m.val i l * x.val l j) _ at this
      rw [h.rows, h.cols] at this
      refine key this (fun i j hi hj => ?_) Nat.zero_lt_two rfl
      rw [Finset.sum_range, ← List.sum_ofFn]
      show _ = List.sum _
      congr 1
      refine List.ext_getElem (by simp) fun l h1 h2 => ?_
      have hl : l < t.cols := by simpa using h1
      simp [hval i l hi hl, Table.ofArg_eq hxw (hf ▸ hl) hj]
    · rw [if_neg hf]
      exact bad (Meth.multiply_panic (w := World.of gas [m, x]) (s := 0) (m := 1) Nat.zero_lt_two Nat.one_lt_two
        (fun h' => hf (by simpa using (show x.rows = m.cols from h').trans h.cols))) Nat.zero_lt_two rfl
  case equal x =>
    obtain ⟨e, -⟩ := cmp x hq
    simp only [Method.alone, Table.reckon, e]
    exact ⟨rfl, h⟩
  case notEqual x =>
    obtain ⟨-, e⟩ := cmp x hq
    simp only [Method.alone, Table.reckon, e]
    exact ⟨rfl, h⟩
  all_goals exact alone_table hq hl hm h hg

theorem serial_reckon {n : Nat} {gas : Nat} : ∀ (l : List (Fin n × Method T)) {m : Mat T} {t : Table T},
    (∀ x ∈ l, x.2.Exact gas t.compressed ∧ x.2.mode ≠ .free) → Reach m → Reads m t → t.rows * t.cols ≤ gas →
    Reads (serial (Method.alone gas) m l).1 (serial Table.reckon t l).1 ∧
    List.Forall₂ (fun x y => x.1 = y.1 ∧ x.2.1 = y.2.1 ∧ Says x.2.2 y.2.2) (serial (Method.alone gas) m l).2
      (serial Table.reckon t l).2
  | [], _, _, _, _, h, _ => ⟨h, .nil⟩
  | (i, q) :: l, m, t, hl, hm, h, hg => by
    obtain ⟨hp, hf⟩ := hl (i, q) (by simp)
    obtain ⟨h1, h2⟩ := alone_reckon hp hf hm h hg
    have hd := Table.reckon_dims q t
    have hS : q.Sound := hp.sound
    have hr : Reach (q.alone gas m).2 := by
      by_cases hw : q.mode = .write
      · exact alone_reach gas hw hm
      · have : (q.alone gas m).2 = m := (atomic_quiet gas hw hS hm).1
        rw [this]; exact hm
    have hg' : (Table.reckon q t).2.rows * (Table.reckon q t).2.cols ≤ gas := by rw [hd.1, hd.2.1]; exact hg
    obtain ⟨h3, h4⟩ := serial_reckon (gas := gas) l (fun x hx => by rw [hd.2.2]; exact hl x (by simp [hx])) hr h2 hg'
    exact ⟨h3, .cons ⟨rfl, rfl, h1⟩ h4⟩

end Mutex
end GB
