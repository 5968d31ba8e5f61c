import Verif.Lemmas.MapBy
import Verif.Lemmas.RowEnd

/-!
# `Map` over a compressed matrix with functions that use the matrix and answer zero at the ends of lines
-/

namespace GB

set_option linter.unusedSectionVars false

variable {T : Type} [GoNum T]

namespace CSR

/-- Both hold entries at the same columns of the same lines. -/
def Pat (rows rows2 : List (List (Nat × T))) : Prop := rows2.map (List.map Prod.fst) = rows.map (List.map Prod.fst)

theorem Pat.length {rows rows2 : List (List (Nat × T))} (h : Pat rows rows2) : rows2.length = rows.length := by
  simpa using congrArg List.length h

theorem flat_length (rows : List (List (Nat × T))) : rows.flatten.length = ((rows.map (List.map Prod.fst)).map List.length).sum := by
  simp [List.length_flatten, Function.comp_def]

theorem Pat.take {rows rows2 : List (List (Nat × T))} (h : Pat rows rows2) (k : Nat) : Pat (rows.take k) (rows2.take k) := by
  unfold Pat at h ⊢
  rw [List.map_take, List.map_take, h]

theorem Pat.drop {rows rows2 : List (List (Nat × T))} (h : Pat rows rows2) (k : Nat) : Pat (rows.drop k) (rows2.drop k) := by
  unfold Pat at h ⊢
  rw [List.map_drop, List.map_drop, h]

theorem Pat.flat {rows rows2 : List (List (Nat × T))} (h : Pat rows rows2) : rows2.flatten.length = rows.flatten.length := by
  rw [flat_length, flat_length, h]

theorem Pat.offs {rows rows2 : List (List (Nat × T))} (h : Pat rows rows2) (k : Nat) : offs rows2 k = offs rows k := (h.take k).flat

theorem Pat.places {rows rows2 : List (List (Nat × T))} (h : Pat rows rows2) (i : Nat) :
    placesOf (entriesFrom i rows2) = placesOf (entriesFrom i rows) := by
  unfold Pat at h
  induction rows generalizing rows2 i with
  | nil =>
    cases rows2 with
    | nil => rfl
    | cons a l => simp at h
  | cons r rows ih =>
    cases rows2 with
    | nil => simp at h
    | cons r2 rows2 =>
      simp only [List.map_cons, List.cons.injEq] at h
      have e : ∀ q : List (Nat × T), List.map (fun e : Nat × Nat × T => (e.1, e.2.1)) (q.map fun e => (i, e.1, e.2)) =
          (q.map Prod.fst).map (fun j => (i, j)) := by intro q; simp
      have := ih h.2 (i + 1)
      simp only [placesOf, entriesFrom, List.map_append, e, h.1] at this ⊢
      rw [this]

theorem pat_of_cells [GoStore T] {s t : CSR T} {rows rows2 : List (List (Nat × T))} (h : Rep s rows) (h2 : Rep t rows2)
    (hr : t.r = s.r) (hc : t.c = s.c) (hz : ∀ i j, i < s.r → j < s.c → isZero (cellOf rows2 i j) = isZero (cellOf rows i j)) : Pat rows rows2 := by
  unfold Pat
  have key : ∀ {s : CSR T} {rows : List (List (Nat × T))} (h : Rep s rows) {i : Nat} (hi : i < rows.length) (j : Nat),
      j ∈ rows[i].map Prod.fst ↔ isZero (cellOf rows i j) = false := by
    intro s rows h i hi j
    rw [h.cell_eq (by rw [← h.len]; exact hi)]
    constructor
    · intro hm
      obtain ⟨e, he, rfl⟩ := List.mem_map.1 hm
      rw [rowGet_of_mem (h.sorted _ (List.getElem_mem hi)) he]
      exact h.nz _ (List.getElem_mem hi) e he
    · intro hz
      have hne : rowGet rows[i] j ≠ 0 := by
        intro h0; rw [h0, isZero_zero] at hz; cases hz
      exact List.mem_map.2 ⟨_, mem_of_rowGet hne, rfl⟩
  refine List.ext_getElem (by simp [h.len, h2.len, hr]) fun i hi hi' => ?_
  simp only [List.getElem_map]
  have hi2 : i < rows2.length := by simpa using hi
  have hi1 : i < rows.length := by simpa using hi'
  have so : ∀ {s : CSR T} {rows : List (List (Nat × T))} (h : Rep s rows) {i : Nat} (hi : i < rows.length),
      (rows[i].map Prod.fst).Pairwise (· < ·) := fun h _ hi => List.pairwise_map.2 (h.sorted _ (List.getElem_mem hi))
  refine List.Perm.eq_of_pairwise (le := (· < ·)) (fun a b _ _ h1 h2 => absurd h1 (by omega)) (so h2 hi2) (so h hi1) ?_
  refine (List.perm_ext_iff_of_nodup ((so h2 hi2).imp (fun h => Nat.ne_of_lt h)) ((so h hi1).imp (fun h => Nat.ne_of_lt h))).2 ?_
  intro j
  by_cases hj : j < s.c
  · rw [key h hi1, key h2 hi2, hz i j (by rw [← h.len]; exact hi1) hj]
  · constructor
    · intro hm
      obtain ⟨e, he, rfl⟩ := List.mem_map.1 hm
      exact absurd (h2.bound _ (List.getElem_mem hi2) e he) (by rw [hc]; exact hj)
    · intro hm
      obtain ⟨e, he, rfl⟩ := List.mem_map.1 hm
      exact absurd (h.bound _ (List.getElem_mem hi1) e he) hj

/-- One turn: the function finds `s` and leaves `t`, which stores the same cells. -/
theorem Rep.left_turn [GoStore T] {s : CSR T} {rows : List (List (Nat × T))} (h : Rep s rows) {it : Iter} {i : Nat}
    {todo : List (Nat × T)} {e : Nat × Nat × T} {rest : List (Nat × Nat × T)} (h2 : Left rows it i todo)
    (h3 : left rows i todo = e :: rest) :
    ∃ it', s.step it = .ok (it', e) ∧ e.1 < s.r ∧ e.2.1 < s.c ∧ cellOf rows e.1 e.2.1 = e.2.2 ∧ isZero e.2.2 = false ∧
      ∀ t rows2, Rep t rows2 → t.r = s.r → t.c = s.c → Pat rows rows2 → ∀ x,
        (isZero x = false ∨ ∀ y, e.2.1 < y → y < s.c → isZero (cellOf rows e.1 y) = true) →
        ∃ u rows3 todo3, t.put it' x = .ok u ∧ Rep u rows3 ∧ u.r = t.r ∧ u.c = t.c ∧ Left rows3 it' (e.1 + 1) todo3 ∧
          placesOf (left rows3 (e.1 + 1) todo3) = placesOf rest ∧ cellOf rows3 e.1 e.2.1 = norm x ∧
          ∀ a b, a < t.r → ¬ (a = e.1 ∧ b = e.2.1) → cellOf rows3 a b = cellOf rows2 a b := by
  obtain ⟨it1, done, todo1, g1, g2, g3, g4, g5, g6, -, -⟩ := h.step_left h2 h3
  have hes : e.1 < s.r := by
    have := g2.le; rw [h.len] at this; omega
  have hrow : e.1 < rows.length := by rw [h.len]; exact hes
  have hre : rows[e.1] = done ++ e.2 :: todo1 := by
    rw [List.getElem?_eq_getElem hrow] at g4; exact Option.some.inj g4
  have hem : e.2 ∈ rows[e.1] := by rw [hre]; simp
  have hec : e.2.1 < s.c := h.bound _ (List.getElem_mem hrow) e.2 hem
  refine ⟨it1, g1, hes, hec, ?_, h.nz _ (List.getElem_mem hrow) e.2 hem, ?_⟩
  · rw [h.cell_eq hes]
    exact rowGet_of_mem (h.sorted _ (List.getElem_mem hrow)) hem
  intro t rows2 ht hr hc hp x hx
  have hrow2 : e.1 < rows2.length := by rw [hp.length]; exact hrow
  have hl : rows2[e.1].map Prod.fst = (done ++ e.2 :: todo1).map Prod.fst := by
    rw [← hre]
    have := congrArg (fun l => l[e.1]?) hp
    simpa [hrow, hrow2] using this
  rw [List.map_append, List.map_cons] at hl
  obtain ⟨done2, r2, hd1, hd2, hd3⟩ := List.map_eq_append_iff.1 hl
  obtain ⟨e2, todo2, hd4, hd5, hd6⟩ := List.map_eq_cons_iff.1 hd3
  subst hd4
  have hld : done2.length = done.length := by simpa using congrArg List.length hd2
  have hlt : todo2.length = todo1.length := by simpa using congrArg List.length hd6
  have g4' : rows2[e.1]? = some (done2 ++ (e2.1, e2.2) :: todo2) := by
    rw [List.getElem?_eq_getElem hrow2, hd1]
  have g2' : Left rows2 it1 (e.1 + 1) todo2 := by
    refine ⟨g2.r, hrow2, ?_, by rw [hlt]; exact g2.pe, Or.inr ⟨done2 ++ [e2], by omega, ?_, ?_⟩, ?_⟩
    · rw [(hp.drop _).flat, hlt]; exact g2.size
    · simpa using g4'
    · rw [g6, g5]
      simp [hp.offs, hld]
      omega
    · intro y hy
      cases todo2 with
      | nil => cases hy
      | cons z l =>
        cases todo1 with
        | nil => simp at hlt
        | cons z1 l1 =>
          simp only [List.head?_cons, Option.some.injEq] at hy
          subst hy
          simp only [List.map_cons, List.cons.injEq] at hd6
          rw [hd6.1]
          exact g2.col z1 rfl
  have hlast : isZero x = false ∨ todo2 = [] := by
    rcases hx with hx | hx
    · exact Or.inl hx
    · right
      cases todo2 with
      | nil => rfl
      | cons z l =>
        cases todo1 with
        | nil => simp at hlt
        | cons z1 l1 =>
          have hz1 : z1 ∈ rows[e.1] := by rw [hre]; simp
          have hso := h.sorted _ (List.getElem_mem hrow)
          have hlt1 : e.2.1 < z1.1 := by
            unfold RowSorted at hso
            rw [hre] at hso
            exact (List.pairwise_cons.1 (List.pairwise_append.1 hso).2.1).1 z1 (by simp)
          have := hx z1.1 hlt1 (h.bound _ (List.getElem_mem hrow) z1 hz1)
          rw [h.cell_eq hes, rowGet_of_mem hso hz1, h.nz _ (List.getElem_mem hrow) z1 hz1] at this
          cases this
  have he2 : e2.1 = e.2.1 := hd5
  rw [he2] at g4'
  obtain ⟨u, k1, k2, k3, k4, k5, k6⟩ := ht.put_split (it := it1) (v := x) g4' (by rw [g5, hp.offs, hld])
    (fun _ => by rw [g2.r]; simp)
  obtain ⟨q1, q2⟩ := g2'.set (v := x) g4' (by rw [g6, g5, hp.offs, hld]) hlast
  refine ⟨u, _, _, k1, k2, k3, k4, q1, ?_, k5, k6⟩
  rw [q2, ← g3]
  have hpl := (hp.drop (e.1 + 1)).places (e.1 + 1)
  have e' : ∀ q : List (Nat × T), List.map (fun e : Nat × Nat × T => (e.1, e.2.1)) (q.map fun y => (e.1 + 1 - 1, y.1, y.2)) =
      (q.map Prod.fst).map (fun j => (e.1 + 1 - 1, j)) := by intro q; simp
  simp only [placesOf] at hpl
  simp only [placesOf, left, List.map_append, e', hd6, hpl]

end CSR

namespace Mat

variable [GoStore T]

/-- One turn of `Map`: the function finds `m` and leaves `t`, which stores the same cells. -/
theorem LeftAt.turn {m : Mat T} {it : Iter} {e : Nat × Nat × T} {rest : List (Nat × Nat × T)} (h : LeftAt m it (e :: rest)) :
    it.hasNext = true ∧ ∃ it', m.step it = .ok (it', e) ∧ m.WF ∧ e.1 < m.rows ∧ e.2.1 < m.cols ∧ m.val e.1 e.2.1 = e.2.2 ∧
      isZero e.2.2 = false ∧ ∀ t : Mat T, t.WF → Same t m →
        (∀ a b, a < m.rows → b < m.cols → isZero (t.val a b) = isZero (m.val a b)) → ∀ x, (isZero x = false ∨
          (m.kind = .csr ∧ ∀ b, e.2.1 < b → b < m.cols → isZero (m.val e.1 b) = true) ∨
          (m.kind = .csc ∧ ∀ a, e.1 < a → a < m.rows → isZero (m.val a e.2.1) = true)) →
        ∃ u rest', t.put it' x = .ok u ∧ LeftAt u it' rest' ∧ placesOf rest' = placesOf rest ∧
          Wrote t u e.1 e.2.1 (norm x) := by
  refine ⟨h.cons.1, ?_⟩
  cases m <;> cases it <;> simp only [LeftAt] at h
  · rename_i s it
    obtain ⟨rows, i, todo, h, h2, h3⟩ := h
    obtain ⟨it1, g1, g2, g3, g4, g5, g6⟩ := h.left_turn h2 h3
    refine ⟨.csr it1, by simp [step, g1], ⟨rows, h⟩, g2, g3, by rw [val_csr h g2 g3, g4], g5, ?_⟩
    intro t ht hs hz x hx
    cases t <;> simp only [Same, kind, reduceCtorEq, false_and] at hs
    rename_i t
    obtain ⟨-, hr, hc⟩ := hs
    have hr : t.r = s.r := hr
    have hc : t.c = s.c := hc
    obtain ⟨rows2, ht⟩ := ht
    have hp : CSR.Pat rows rows2 := CSR.pat_of_cells h ht hr hc (fun a b ha hb => by
      have := hz a b ha hb
      rwa [val_csr h ha hb, val_csr ht (by rw [hr]; exact ha) (by rw [hc]; exact hb)] at this)
    obtain ⟨u, rows3, todo3, k1, k2, k3, k4, k5, k6, k7, k8⟩ := g6 t rows2 ht hr hc hp x (by
      rcases hx with hx | hx | hx
      · exact Or.inl hx
      · refine Or.inr fun y h1 h2 => ?_
        have := hx.2 y h1 h2
        rwa [val_csr h g2 h2] at this
      · exact absurd hx.1 (by simp [kind]))
    refine ⟨.csr u, _, by simp [put, k1], ⟨rows3, _, todo3, k2, k5, rfl⟩, k6, ⟨rows3, k2⟩, ⟨rfl, k3, k4⟩, ?_, ?_⟩
    · rw [val_csr k2 (by rw [k3, hr]; exact g2) (by rw [k4, hc]; exact g3)]; exact k7
    · intro a b ha hb hne
      rw [val_csr k2 (by rw [k3]; exact ha) (by rw [k4]; exact hb), val_csr ht ha hb]
      exact k8 a b ha hne
  · rename_i s it
    obtain ⟨rows, i, todo, h, h2, h3⟩ := h
    obtain ⟨e', rest', h4, rfl, rfl⟩ := List.map_eq_cons_iff.1 h3
    obtain ⟨it1, g1, g2, g3, g4, g5, g6⟩ := CSR.Rep.left_turn h h2 h4
    have hmi : CSC.mirIt (CSC.unmirIt it1) = it1 := rfl
    have hR : CSC.Rep s rows := h
    have g2 : e'.1 < s.c := g2
    have g3 : e'.2.1 < s.r := g3
    refine ⟨.csc (CSC.unmirIt it1), by simp only [step, CSC.step_eq, g1]; rfl, ⟨rows, h⟩, g3, g2, ?_, g5, ?_⟩
    · show (csc s).val e'.2.1 e'.1 = _
      rw [val_csc hR g3 g2, g4]; rfl
    intro t ht hs hz x hx
    cases t <;> simp only [Same, kind, reduceCtorEq, false_and] at hs
    rename_i t
    obtain ⟨-, hr, hc⟩ := hs
    have hr : t.r = s.r := hr
    have hc : t.c = s.c := hc
    obtain ⟨rows2, ht⟩ := ht
    have hT : CSC.Rep t rows2 := ht
    have hp : CSR.Pat rows rows2 := CSR.pat_of_cells (s := CSC.mir s) (t := CSC.mir t) h ht hc hr (fun a b ha hb => by
      have ha : a < s.c := ha
      have hb : b < s.r := hb
      have := hz b a hb ha
      rwa [val_csc hR hb ha, val_csc hT (by rw [hr]; exact hb) (by rw [hc]; exact ha)] at this)
    obtain ⟨u, rows3, todo3, k1, k2, k3, k4, k5, k6, k7, k8⟩ := g6 (CSC.mir t) rows2 ht hc hr hp x (by
      rcases hx with hx | hx | hx
      · exact Or.inl hx
      · exact absurd hx.1 (by simp [kind])
      · refine Or.inr fun y h1 h2 => ?_
        have h2 : y < s.r := h2
        have := hx.2 y h1 h2
        have hv : (csc s).val y e'.1 = _ := val_csc hR h2 g2
        have this : isZero ((csc s).val y e'.1) = true := this
        rwa [hv] at this)
    have k2' : CSC.Rep (CSC.unmir u) rows3 := k2
    have hr1 : (CSC.unmir u).r = t.r := k4
    have hc1 : (CSC.unmir u).c = t.c := k3
    refine ⟨csc (CSC.unmir u), _, by simp only [put, CSC.put_eq, hmi, k1]; rfl, ⟨rows3, _, todo3, k2, k5, rfl⟩, ?_,
      ⟨rows3, k2'⟩, ⟨rfl, k4, k3⟩, ?_, ?_⟩
    · have sw : ∀ l : List (Nat × Nat × T), placesOf (l.map CSC.swapE) = (placesOf l).map Prod.swap := by
        intro l; simp [placesOf, CSC.swapE, Function.comp_def]
      rw [sw, sw, k6]
    · show (csc (CSC.unmir u)).val e'.2.1 e'.1 = _
      rw [val_csc k2' (by rw [hr1, hr]; exact g3) (by rw [hc1, hc]; exact g2)]; exact k7
    · intro a b ha hb hne
      rw [val_csc k2' (by rw [hr1]; exact ha) (by rw [hc1]; exact hb), val_csc hT ha hb]
      exact k8 b a hb (fun hab => hne ⟨hab.2, hab.1⟩)

theorem LeftAt.kind {m : Mat T} {it : Iter} {rest : List (Nat × Nat × T)} (h : LeftAt m it rest) :
    m.kind = .csr ∨ m.kind = .csc := by
  cases m <;> cases it <;> simp only [LeftAt] at h <;> simp [Mat.kind]

theorem stored_compressed {m : Mat T} (hk : m.kind = .csr ∨ m.kind = .csc) (h : m.WF) {i j : Nat} (hi : i < m.rows)
    (hj : j < m.cols) : m.Stored i j ↔ isZero (m.val i j) = false := by
  rw [stored_iff h hi hj]
  rcases hk with hk | hk <;> simp [hk]

theorem mapAll_ends {P : Mat T → Prop} (hwf : ∀ m, P m → m.WF)
    (hset : ∀ (m u : Mat T) (i j : Nat) (x : T), P m → u.WF → Same u m → m.set i j x = .ok u → P u) {f : CellFn T} {m0 : Mat T}
    (hf : f.OrderlyEnds P m0) : ∀ (n : Nat) (m : Mat T) (it : Iter) (rest : List (Nat × Nat × T)), LeftAt m it rest → P m →
      Same m m0 → (∀ a b : Nat, a < m0.rows → b < m0.cols → m.Stored a b → m0.Stored a b) → rest.length ≤ n →
      mapAll f n m it = eachSet f (placesOf rest) m
  | n, m, it, [], h, _, _, _, _ => by
    unfold mapAll
    rw [h.nil]; rfl
  | 0, m, it, e :: rest, _, _, _, _, hn => by simp at hn
  | n + 1, m, it, e :: rest, h, hP, hs, hpat, hn => by
    have hk := h.kind
    obtain ⟨h1, it1, h2, hm, h4, h5, h6, h7, turn⟩ := h.turn
    have hat := at_ok hm h4 h5
    rw [mapAll, if_pos h1]
    simp only [mapOnce, h2, placesOf, List.map_cons, eachSet, hat]
    rw [h6]
    cases hfe : f e.1 e.2.1 e.2.2 m with
    | mk o t =>
      cases o with
      | panic => rfl
      | hang => rfl
      | ok x =>
        obtain ⟨k1, k2, k3, k4, k5, k6⟩ := hf e.1 e.2.1 m e.2.2 hP hs.1 hs.2.1 hs.2.2 hpat (by rw [← hs.2.1]; exact h4)
          (by rw [← hs.2.2]; exact h5) (by rw [hat, h6]) ((stored_compressed hk hm h4 h5).2 (by rw [h6]; exact h7)) x t hfe
        have ht := hwf t k1
        have hkt : t.kind = .csr ∨ t.kind = .csc := by rw [k2]; exact hk
        have hz : ∀ a b, a < m.rows → b < m.cols → isZero (t.val a b) = isZero (m.val a b) := by
          intro a b ha hb
          have := k5 a b ha hb
          rw [stored_compressed hk hm ha hb, stored_compressed hkt ht (by rw [k3]; exact ha) (by rw [k4]; exact hb)] at this
          cases h1 : isZero (m.val a b) <;> cases h2 : isZero (t.val a b) <;> simp [h1, h2] at this ⊢
        obtain ⟨u, rest', p1, p2, p3, p4⟩ := turn t ht ⟨k2, k3, k4⟩ hz x (by
          refine k6.imp_right ?_
          rintro (⟨c1, c2⟩ | ⟨c1, c2⟩)
          · refine Or.inl ⟨c1, fun b h1 h2 => ?_⟩
            have := c2 b h1 h2
            rw [stored_compressed hk hm h4 h2] at this
            simpa using this
          · refine Or.inr ⟨c1, fun a h1 h2 => ?_⟩
            have := c2 a h1 h2
            rw [stored_compressed hk hm h2 h5] at this
            simpa using this)
        have hr4 : e.1 < t.rows := by rw [k3]; exact h4
        have hc4 : e.2.1 < t.cols := by rw [k4]; exact h5
        obtain ⟨u', s1, s2⟩ := set_ok ht (by rcases hkt with h | h <;> rw [h] <;> simp) hr4 hc4 x
        have hkeep : t.keep x = norm x := by
          unfold keep
          rcases hkt with h | h <;> rw [h]
        rw [hkeep] at s2
        obtain rfl := s2.unique p4
        simp only [p1, s1]
        rw [mapAll_ends hwf hset hf n u' it1 rest' p2 (hset t u' _ _ x k1 p4.wf p4.same s1)
          (p4.same.trans (Same.trans ⟨k2, k3, k4⟩ hs)) ?_ ?_]
        · rw [p3]; rfl
        · intro a b ha hb hst
          have ha' : a < m.rows := by rw [hs.2.1]; exact ha
          have hb' : b < m.cols := by rw [hs.2.2]; exact hb
          refine hpat a b ha hb ((stored_compressed hk hm ha' hb').2 ?_)
          rw [stored_compressed p2.kind p4.wf (by rw [p4.same.2.1, k3]; exact ha') (by rw [p4.same.2.2, k4]; exact hb')] at hst
          by_cases he : a = e.1 ∧ b = e.2.1
          · obtain ⟨rfl, rfl⟩ := he
            rw [h6]; exact h7
          · rw [p4.miss a b (by rw [k3]; exact ha') (by rw [k4]; exact hb') he, hz a b ha' hb'] at hst
            exact hst
        · have := congrArg List.length p3
          simp [placesOf] at this hn
          omega

end Mat
end GB
