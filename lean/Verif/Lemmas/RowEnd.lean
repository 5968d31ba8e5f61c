import Verif.Lemmas.MapZero
import Verif.Lemmas.Ops3
import Verif.Lemmas.Ordered

/-!
# Compressed formats: loops that overwrite the object they enumerate, and remove entries

`scatter_alias` (Lemmas/Scatter.lean) allows in-place loops that store no zeros. In the compressed
formats a zero may also be stored at the last entry of a line (row of a CSR matrix, column of a CSC
matrix): the iterator looks the next line up anew.
-/

namespace GB

set_option linter.unusedSectionVars false

variable {T : Type} [GoNum T] [GoStore T]

open M

namespace Mat

/-- The iterator `it` over a compressed matrix has still to deliver `rest`. Unlike `MapAt` this says
nothing about the entries already passed. -/
def LeftAt : Mat T → Iter → List (Nat × Nat × T) → Prop
  | csr s, .csr it, rest => ∃ rows i todo, s.Rep rows ∧ CSR.Left rows it i todo ∧ CSR.left rows i todo = rest
  | csc s, .csc it, rest => ∃ rows i todo, CSR.Rep (CSC.mir s) rows ∧ CSR.Left rows (CSC.mirIt it) i todo ∧
      (CSR.left rows i todo).map CSC.swapE = rest
  | _, _, _ => False

/-- No entry of `rest` is in the line of `e`. -/
def LastIn (k : Kind) (e : Nat × Nat × T) (rest : List (Nat × Nat × T)) : Prop :=
  (k = .csr ∧ ∀ x ∈ rest, x.1 ≠ e.1) ∨ (k = .csc ∧ ∀ x ∈ rest, x.2.1 ≠ e.2.1)

theorem LeftAt.nil {m : Mat T} {it : Iter} (h : LeftAt m it []) : it.hasNext = false := by
  cases m <;> cases it <;> simp only [LeftAt] at h
  · obtain ⟨rows, i, todo, -, h2, h3⟩ := h
    simp only [Iter.hasNext, h2.hasNext, h3]; rfl
  · rename_i s it
    obtain ⟨rows, i, todo, -, h2, h3⟩ := h
    have := h2.hasNext
    rw [List.map_eq_nil_iff.1 h3] at this
    exact this

theorem LeftAt.cons {m : Mat T} {it : Iter} {e : Nat × Nat × T} {rest : List (Nat × Nat × T)}
    (h : LeftAt m it (e :: rest)) : it.hasNext = true ∧
    ∃ it', m.step it = .ok (it', e) ∧ LeftAt m it' rest ∧
      ∀ v, isZero v = false ∨ LastIn m.kind e rest →
        ∃ m', m.put it' v = .ok m' ∧ Wrote m m' e.1 e.2.1 (norm v) ∧ LeftAt m' it' rest := by
  cases m <;> cases it <;> simp only [LeftAt] at h
  · rename_i s it
    obtain ⟨rows, i, todo, h, h2, h3⟩ := h
    obtain ⟨it1, done, todo1, g1, g2, g3, g4, g5, g6, -, -⟩ := h.step_left h2 h3
    refine ⟨?_, .csr it1, by simp [step, g1], ⟨rows, _, _, h, g2, g3⟩, ?_⟩
    · simp only [Iter.hasNext, h2.hasNext, h3]; rfl
    intro v hv
    obtain ⟨s1, k1, k2, k3, k4, k5, k6⟩ := h.put_split (it := it1) (v := v) g4 g5 (fun _ => by rw [g2.r]; simp)
    have hes : e.1 < s.r := by
      have := g2.le; rw [h.len] at this; omega
    have hrow : e.1 < rows.length := by rw [h.len]; exact hes
    have hec : e.2.1 < s.c := by
      rw [List.getElem?_eq_getElem hrow] at g4
      exact h.bound _ (List.getElem_mem hrow) e.2 (by rw [Option.some.inj g4]; simp)
    have hlast : isZero v = false ∨ todo1 = [] := by
      rcases hv with hv | hv | hv
      · exact Or.inl hv
      · right
        cases todo1 with
        | nil => rfl
        | cons y l =>
          refine absurd rfl (hv.2 (e.1, y.1, y.2) ?_)
          rw [← g3]; simp [CSR.left]
      · exact absurd hv.1 (by simp [kind])
    obtain ⟨q1, q2⟩ := g2.set (v := v) g4 (by rw [g6, g5]) hlast
    have hw' : Wrote (csr s) (csr s1) e.1 e.2.1 (norm v) := by
      refine ⟨⟨_, k2⟩, ⟨rfl, k3, k4⟩, ?_, ?_⟩
      · rw [val_csr k2 (by rw [k3]; exact hes) (by rw [k4]; exact hec)]; exact k5
      · intro a b ha hb hne
        rw [val_csr k2 (by rw [k3]; exact ha) (by rw [k4]; exact hb), val_csr h ha hb]
        exact k6 a b ha hne
    exact ⟨csr s1, by simp [put, k1], hw', ⟨_, _, _, k2, q1, q2.trans g3⟩⟩
  · rename_i s it
    obtain ⟨rows, i, todo, h, h2, h3⟩ := h
    obtain ⟨e', rest', h4, rfl, rfl⟩ := List.map_eq_cons_iff.1 h3
    obtain ⟨it1, done, todo1, g1, g2, g3, g4, g5, g6, -, -⟩ := h.step_left h2 h4
    have hmi : CSC.mirIt (CSC.unmirIt it1) = it1 := rfl
    refine ⟨?_, .csc (CSC.unmirIt it1), ?_, ⟨rows, _, _, h, by rw [hmi]; exact g2, by rw [g3]⟩, ?_⟩
    · have := h2.hasNext
      rw [h4] at this
      exact this
    · simp only [step, CSC.step_eq, g1]; rfl
    intro v hv
    obtain ⟨s1, k1, k2, k3, k4, k5, k6⟩ := h.put_split (it := it1) (v := v) g4 g5 (fun _ => by rw [g2.r]; simp)
    have hes : e'.1 < s.c := by
      have := g2.le; rw [h.len] at this; exact this
    have hrow : e'.1 < rows.length := by rw [h.len]; exact hes
    have hec : e'.2.1 < s.r := by
      rw [List.getElem?_eq_getElem hrow] at g4
      exact h.bound _ (List.getElem_mem hrow) e'.2 (by rw [Option.some.inj g4]; simp)
    have hlast : isZero v = false ∨ todo1 = [] := by
      rcases hv with hv | hv | hv
      · exact Or.inl hv
      · exact absurd hv.1 (by simp [kind])
      · right
        cases todo1 with
        | nil => rfl
        | cons y l =>
          refine absurd rfl (hv.2 (CSC.swapE (e'.1, y.1, y.2)) (List.mem_map_of_mem ?_))
          rw [← g3]; simp [CSR.left]
    obtain ⟨q1, q2⟩ := g2.set (v := v) g4 (by rw [g6, g5]) hlast
    have k2' : CSC.Rep (CSC.unmir s1) (rows.set e'.1 (done ++ midOf e'.2.1 v ++ todo1)) := k2
    have hr1 : (CSC.unmir s1).r = s.r := k4
    have hc1 : (CSC.unmir s1).c = s.c := k3
    have hw' : Wrote (csc s) (csc (CSC.unmir s1)) e'.2.1 e'.1 (norm v) := by
      refine ⟨⟨_, k2'⟩, ⟨rfl, k4, k3⟩, ?_, ?_⟩
      · rw [val_csc k2' (by rw [hr1]; exact hec) (by rw [hc1]; exact hes)]; exact k5
      · intro a b ha hb hne
        rw [val_csc k2' (by rw [hr1]; exact ha) (by rw [hc1]; exact hb), val_csc (show CSC.Rep s rows from h) ha hb]
        exact k6 b a hb (fun hab => hne ⟨hab.2, hab.1⟩)
    refine ⟨csc (CSC.unmir s1), ?_, hw', ⟨_, _, _, k2, q1, by rw [q2, g3]⟩⟩
    simp only [put, CSC.put_eq, hmi, k1]; rfl

theorem leftAt_init {m : Mat T} (h : m.WF) (hk : m.kind = .csr ∨ m.kind = .csc) {es : List (Nat × Nat × T)}
    (he : MapAt m m.iter es) : LeftAt m m.iter es := by
  cases m with
  | csr s =>
    obtain ⟨rows, h⟩ := h
    have hm : MapAt (csr s) (csr s).iter (CSR.entriesFrom 0 rows) := ⟨rows, 0, h, h.iter_init, by omega, by simp⟩
    rw [he.yields.unique hm.yields]
    exact ⟨rows, 0, [], h, h.left_init.1, h.left_init.2⟩
  | csc s =>
    obtain ⟨rows, h⟩ := h
    have hm : MapAt (csc s) (csc s).iter (CSC.entries rows) := ⟨rows, 0, h, h.iter_init, by omega, by simp⟩
    rw [he.yields.unique hm.yields]
    exact ⟨rows, 0, [], h, (CSR.Rep.left_init h).1, by rw [(CSR.Rep.left_init h).2]; rfl⟩
  | dense s => simp [kind] at hk
  | dvec s => simp [kind] at hk
  | svec s => simp [kind] at hk

end Mat

/-- The output is the compressed matrix iterated over: zeros may be stored at the ends of its lines. -/
theorem scatter_ends {w : World T} {out : Ref} {es : List (Nat × Nat × T)}
    {body : Nat → Nat → T → M T (Option Unit)}
    {act : Nat × Nat × T → Option T}
    (hY : Mat.LeftAt (w.heap out) (w.heap out).iter es) (hwf : (w.heap out).WF) (hg : es.length ≤ w.gas)
    (hin : ∀ e ∈ es, (coord e).1 < (w.heap out).rows ∧ (coord e).2 < (w.heap out).cols)
    (hd : es.Pairwise (fun a b => coord a ≠ coord b))
    (hst : ∀ done e rest, es = done ++ e :: rest → ∀ v, act e = some v → ∃ v0, v = norm v0 ∧
      (isZero v0 = false ∨ Mat.LastIn (w.heap out).kind e rest))
    (hbody : ∀ e ∈ es, ∀ m' c, m'.WF → Mat.Same m' (w.heap out) →
      m'.val (coord e).1 (coord e).2 = (w.heap out).val (coord e).1 (coord e).2 →
      ∃ m'', body e.1 e.2.1 e.2.2 (w.upd out m' c) = .ok none (w.upd out m'' c) ∧
        ((act e = none ∧ m'' = m') ∨ ∃ v, act e = some v ∧ Mat.Wrote m' m'' (coord e).1 (coord e).2 v)) :
    Scattered w out coord act es (forEach out (some ()) body w) := by
  rw [forEach_eq]
  let J : Mat.Iter → List (Nat × Nat × T) → World T → Prop := fun it rest w' =>
    ∃ m' c done, w' = w.upd out m' c ∧ es = done ++ rest ∧ Scat (w.heap out) coord act done m' ∧
      (w.cancel = none → c = none) ∧ Mat.LeftAt m' it rest
  obtain ⟨x, w', h1, h2⟩ := loopIter_rule (p := out) (b0 := ()) (body := body) (J := J)
    (Q := fun _ _ => False)
    (by rintro it w' ⟨m', c, done, -, -, -, -, hy⟩; exact hy.nil)
    (by
      rintro it rest w' ⟨m', c, done, rfl, h2, h3, h4, h5⟩
      exact ⟨m', tick c, done, rfl, h2, h3, fun h => by rw [h4 h]; rfl, h5⟩)
    (by
      rintro it e rest w' ⟨m', c, done, rfl, h2, h3, h4, h5⟩
      obtain ⟨h5, it', h6, h7, h10⟩ := h5.cons
      have he : e ∈ es := by rw [h2]; simp
      have hdone : ∀ a ∈ done, coord a ≠ coord e := by
        intro a ha
        rw [h2, List.pairwise_append] at hd
        exact hd.2.2 a ha e (by simp)
      obtain ⟨m'', h8, h9⟩ := hbody e he m' c h3.wf h3.same
        (h3.miss _ _ (hin e he).1 (hin e he).2 hdone)
      refine ⟨h5, it', by rw [World.upd_out]; exact h6, none, _, h8, fun _ => ?_,
        fun b hb => by simp at hb⟩
      refine ⟨m'', c, done ++ [e], rfl, by simp [h2],
        h3.step (hin e he).1 (hin e he).2 hdone (fun a ha => hin a (by rw [h2]; simp [ha])) h9, h4, ?_⟩
      rcases h9 with ⟨-, rfl⟩ | ⟨v, ha, hw⟩
      · exact h7
      · obtain ⟨v0, rfl, hv0⟩ := hst done e rest h2 v ha
        obtain ⟨m3, -, g2, g3⟩ := h10 v0 (by rw [h3.same.1]; exact hv0)
        rw [hw.unique g2]; exact g3)
    w.gas (w.heap out).iter es w hg
    ⟨w.heap out, w.cancel, [], (w.upd_self out).symm, rfl, Scat.init hwf coord act, id, hY⟩
  rcases h2 with ⟨rfl, it', m', c, done, e1, e2, e3, e4, -⟩ | ⟨b, -, hf⟩ |
    ⟨rfl, hc, it', e, rest', m', c, done, e1, e2, e3, e4, -⟩
  · exact ⟨none, m', c, done, [], by rw [h1, e1], e2, e3, Or.inl ⟨rfl, rfl⟩, e4⟩
  · exact hf.elim
  · refine ⟨some (), m', c, done, e :: rest', by rw [h1, e1], e2, e3, Or.inr ⟨rfl, ?_⟩, e4⟩
    rw [e1] at hc; exact hc

/-- The same for a `Map` loop. -/
theorem scatter_map_ends {w : World T} {out : Ref} {es : List (Nat × Nat × T)} {oc : Bool}
    {f : Nat → Nat → T → M T T} {g : Nat × Nat × T → T}
    (hY : Mat.LeftAt (w.heap out) (w.heap out).iter es) (hwf : (w.heap out).WF) (hg : es.length ≤ w.gas)
    (hin : ∀ e ∈ es, (coord e).1 < (w.heap out).rows ∧ (coord e).2 < (w.heap out).cols)
    (hd : es.Pairwise (fun a b => coord a ≠ coord b))
    (hst : ∀ done e rest, es = done ++ e :: rest → isZero (g e) = false ∨ Mat.LastIn (w.heap out).kind e rest)
    (hoc : oc = false → w.cancel = none)
    (hf : ∀ e ∈ es, ∀ m' c, m'.WF → Mat.Same m' (w.heap out) →
      m'.val (coord e).1 (coord e).2 = (w.heap out).val (coord e).1 (coord e).2 →
      f e.1 e.2.1 e.2.2 (w.upd out m' c) = .ok (g e) (w.upd out m' c)) :
    ∃ x m' c done rest, forMap out oc f w = .ok x (w.upd out m' c) ∧ es = done ++ rest ∧
      Scat (w.heap out) coord (fun e => some (norm (g e))) done m' ∧
      ((x = false ∧ rest = []) ∨ (x = true ∧ c = some 0)) ∧ (w.cancel = none → c = none) := by
  rw [forMap_eq]
  let J : Mat.Iter → List (Nat × Nat × T) → World T → Prop := fun it rest w' =>
    ∃ m' c done, w' = w.upd out m' c ∧ es = done ++ rest ∧
      Scat (w.heap out) coord (fun e => some (norm (g e))) done m' ∧
      (w.cancel = none → c = none) ∧ Mat.LeftAt m' it rest
  obtain ⟨x, w', h1, h2⟩ := loopMap_rule (p := out) (oc := oc) (f := f) (J := J)
    (by rintro it w' ⟨m', c, done, -, -, -, -, hy⟩; exact hy.nil)
    (by
      rintro it rest w' ⟨m', c, done, rfl, h2, h3, h4, h5⟩
      exact ⟨m', tick c, done, rfl, h2, h3, fun h => by rw [h4 h]; rfl, h5⟩)
    (by
      rintro ho it rest w' ⟨m', c, done, rfl, h2, h3, h4, h5⟩
      simp [h4 (hoc ho)])
    (by
      rintro it e rest w' ⟨m', c, done, rfl, h2, h3, h4, h5⟩
      obtain ⟨h5, it', h6, h7, h10⟩ := h5.cons
      have he : e ∈ es := by rw [h2]; simp
      have hdone : ∀ a ∈ done, coord a ≠ coord e := by
        intro a ha
        rw [h2, List.pairwise_append] at hd
        exact hd.2.2 a ha e (by simp)
      have h8 := hf e he m' c h3.wf h3.same (h3.miss _ _ (hin e he).1 (hin e he).2 hdone)
      obtain ⟨m3, g1, g3, g2⟩ := h10 (g e) (by rw [h3.same.1]; exact hst done e rest h2)
      refine ⟨h5, it', by rw [World.upd_out]; exact h6, g e, _, h8, m3, by rw [World.upd_out]; exact g1, ?_⟩
      rw [World.upd_heap]
      exact ⟨m3, c, done ++ [e], rfl, by simp [h2],
        h3.step (hin e he).1 (hin e he).2 hdone (fun a ha => hin a (by rw [h2]; simp [ha]))
          (Or.inr ⟨_, rfl, g3⟩), h4, g2⟩)
    w.gas (w.heap out).iter es w hg
    ⟨w.heap out, w.cancel, [], (w.upd_self out).symm, rfl, Scat.init hwf coord _, id, hY⟩
  rcases h2 with ⟨rfl, it', m', c, done, e1, e2, e3, e4, -⟩ |
    ⟨rfl, hc, it', e, rest', m', c, done, e1, e2, e3, e4, -⟩
  · exact ⟨false, m', c, done, [], by rw [h1, e1], e2, e3, Or.inl ⟨rfl, rfl⟩, e4⟩
  · refine ⟨true, m', c, done, e :: rest', by rw [h1, e1], e2, e3, Or.inr ⟨rfl, ?_⟩, e4⟩
    rw [e1] at hc; exact hc

/-- `(i, j)` is the last non-zero cell of its line. -/
def Mat.LineEnd (m : Mat T) (i j : Nat) : Prop :=
  (m.kind = .csr ∧ ∀ j', j < j' → j' < m.cols → m.val i j' = 0) ∨
  (m.kind = .csc ∧ ∀ i', i < i' → i' < m.rows → m.val i' j = 0)

/-- In the order of enumeration, what comes after the last cell of a line is in other lines. -/
theorem Mat.LineEnd.lastIn {m : Mat T} (h : m.WF) {done rest : List (Nat × Nat × T)} {e : Nat × Nat × T}
    (he : Mat.MapAt m m.iter (done ++ e :: rest)) (hl : m.LineEnd e.1 e.2.1) : Mat.LastIn m.kind e rest := by
  cases m with
  | csr s =>
    obtain ⟨rows, h⟩ := h
    have hm : MapAt (csr s) (csr s).iter (CSR.entriesFrom 0 rows) := ⟨rows, 0, h, h.iter_init, by omega, by simp⟩
    have hu := he.yields.unique hm.yields
    have hM : RowMajor _ := h.rowMajor
    have hF := h.faithful
    have hnz := h.entries_nz
    rw [← hu] at hM hF hnz
    rcases hl with hl | hl
    swap
    · exact absurd hl.1 (by simp [kind])
    refine Or.inl ⟨rfl, fun x hx hxe => ?_⟩
    have hx' : x ∈ done ++ e :: rest := by simp [hx]
    have hord := (List.pairwise_cons.1 (List.pairwise_append.1 hM).2.1).1 x hx
    have hr := hF.range x hx'
    have hcol : e.2.1 < x.2.1 := by
      rcases hord with ho | ho
      · omega
      · exact ho.2
    have h0 := hl.2 x.2.1 hcol hr.2
    rw [← hxe, val_csr h hr.1 hr.2, hF.value x hx'] at h0
    have := hnz x hx'
    rw [h0, isZero_zero] at this
    simp at this
  | csc s =>
    obtain ⟨rows, h⟩ := h
    have hm : MapAt (csc s) (csc s).iter (CSC.entries rows) := ⟨rows, 0, h, h.iter_init, by omega, by simp⟩
    have hu := he.yields.unique hm.yields
    have hM : (CSC.entries rows).Pairwise (fun a b => a.2.1 < b.2.1 ∨ (a.2.1 = b.2.1 ∧ a.1 < b.1)) := by
      unfold CSC.entries
      rw [List.pairwise_map]
      exact CSR.Rep.rowMajor h
    have hF := h.faithful
    have hnz := h.entries_nz
    rw [← hu] at hM hF hnz
    rcases hl with hl | hl
    · exact absurd hl.1 (by simp [kind])
    refine Or.inr ⟨rfl, fun x hx hxe => ?_⟩
    have hx' : x ∈ done ++ e :: rest := by simp [hx]
    have hord := (List.pairwise_cons.1 (List.pairwise_append.1 hM).2.1).1 x hx
    have hr := hF.range x hx'
    have hcol : e.1 < x.1 := by
      rcases hord with ho | ho
      · omega
      · exact ho.2
    have h0 := hl.2 x.1 hcol hr.1
    rw [← hxe, val_csc h hr.1 hr.2, hF.value x hx'] at h0
    have := hnz x hx'
    rw [h0, isZero_zero] at this
    simp at this
  | dense s => rcases hl with hl | hl <;> exact absurd hl.1 (by simp [kind])
  | dvec s => rcases hl with hl | hl <;> exact absurd hl.1 (by simp [kind])
  | svec s => rcases hl with hl | hl <;> exact absurd hl.1 (by simp [kind])

namespace Ops

open Classical in
/-- `cellwise` for an in-place loop: a zero may be stored at the end of a line. -/
theorem cellwise_ends {w : World T} {out : Ref} {skip : Nat → Nat → Bool} {F : Nat → Nat → T}
    {body : Nat → Nat → T → M T (Option Unit)}
    (hout : (w.heap out).WF) (hgas : (w.heap out).nvalues ≤ w.gas)
    (halias : ∀ i j, i < (w.heap out).rows → j < (w.heap out).cols →
      (w.heap out).Visits i j → skip i j = false →
      Mat.Storable (w.heap out).kind (F i j) ∨ (w.heap out).LineEnd i j)
    (hbody : ∀ i j, i < (w.heap out).rows → j < (w.heap out).cols → ∀ m' c, m'.WF →
      Mat.Same m' (w.heap out) → m'.val i j = (w.heap out).val i j →
      ∃ m'', body i j ((w.heap out).val i j) (w.upd out m' c) = .ok none (w.upd out m'' c) ∧
        if skip i j then m'' = m' else Mat.Wrote m' m'' i j ((w.heap out).keep (F i j))) :
    Writes w out
      (fun i j => if (w.heap out).Visits i j ∧ skip i j = false then (w.heap out).keep (F i j)
        else (w.heap out).val i j)
      ((forEach out (some ()) body >>= fun _ => pure ()) w) := by
  by_cases hk : (w.heap out).kind = .csr ∨ (w.heap out).kind = .csc
  swap
  · refine cellwise hout hout ⟨rfl, rfl⟩ hgas (fun _ i j hi hj hv hs => ?_) hbody
    rcases halias i j hi hj hv hs with h | h
    · exact h
    · rcases h with h | h
      · exact absurd (Or.inl h.1) hk
      · exact absurd (Or.inr h.1) hk
  obtain ⟨es, h1, h2, h3, h4, h5, -⟩ := Mat.visits hout
  let act : Nat × Nat × T → Option T := fun e =>
    if skip e.1 e.2.1 then none else some ((w.heap out).keep (F e.1 e.2.1))
  have hkeep : ∀ v, (w.heap out).keep v = norm v := by
    intro v
    unfold Mat.keep
    rcases hk with hk | hk <;> rw [hk]
  have hb : ∀ e ∈ es, ∀ m' c, m'.WF → Mat.Same m' (w.heap out) →
      m'.val (coord e).1 (coord e).2 = (w.heap out).val (coord e).1 (coord e).2 →
      ∃ m'', body e.1 e.2.1 e.2.2 (w.upd out m' c) = .ok none (w.upd out m'' c) ∧
        ((act e = none ∧ m'' = m') ∨ ∃ v, act e = some v ∧ Mat.Wrote m' m'' (coord e).1 (coord e).2 v) := by
    intro e he m' c g1 g2 g3
    have hr := h2.range e he
    obtain ⟨m'', g4, g5⟩ := hbody e.1 e.2.1 hr.1 hr.2 m' c g1 g2 g3
    rw [h2.value e he] at g4
    refine ⟨m'', g4, ?_⟩
    by_cases hm : skip e.1 e.2.1 = true
    · rw [if_pos hm] at g5
      exact Or.inl ⟨by simp [act, hm], g5⟩
    · rw [if_neg hm] at g5
      exact Or.inr ⟨_, by simp [act, hm], g5⟩
  have hsc : Scattered w out coord act es (forEach out (some ()) body w) := by
    refine scatter_ends (Mat.leftAt_init hout hk h1) hout (by omega) (fun e he => h2.range e he) h5 ?_ hb
    intro done e rest hes v hv
    by_cases hm : skip e.1 e.2.1 = true
    · simp [act, hm] at hv
    · simp only [act, hm, Bool.false_eq_true, if_false, Option.some.injEq, hkeep] at hv
      have he : e ∈ es := by rw [hes]; simp
      have hr := h2.range e he
      refine ⟨F e.1 e.2.1, hv.symm, ?_⟩
      rcases halias e.1 e.2.1 hr.1 hr.2 ((h4 _ _ hr.1 hr.2).1 ⟨e, he, rfl⟩) (by simpa using hm) with h | h
      · left
        unfold Mat.Storable at h
        rcases hk with hk | hk <;> rw [hk] at h <;> exact h
      · right
        rw [hes] at h1
        exact h.lastIn hout h1
  refine hsc.writes ?_ ?_
  · intro e he
    have hv := (h4 e.1 e.2.1 (h2.range e he).1 (h2.range e he).2).1 ⟨e, he, rfl⟩
    by_cases hm : skip e.1 e.2.1 = true
    · simp [act, coord, hm]
    · simp [act, coord, hm, hv]
  · intro i j hi hj hn
    rw [if_neg]
    rintro ⟨hv, -⟩
    obtain ⟨e, he, hc⟩ := (h4 i j hi hj).2 hv
    exact hn e he hc

open Classical in
/-- `mapwise` for a compressed matrix: a zero may be stored at the end of a line. -/
theorem mapwise_ends {w : World T} {out : Ref} {F : Nat → Nat → T} {f : Nat → Nat → T → M T T} {oc : Bool}
    (hout : (w.heap out).WF) (hk : (w.heap out).kind = .csr ∨ (w.heap out).kind = .csc)
    (hgas : (w.heap out).nvalues ≤ w.gas)
    (hoc : oc = false → w.cancel = none)
    (hst : ∀ i j, i < (w.heap out).rows → j < (w.heap out).cols → (w.heap out).val i j ≠ 0 →
      isZero ((w.heap out).val i j) = false → isZero (F i j) = false ∨ (w.heap out).LineEnd i j)
    (hf : ∀ i j, i < (w.heap out).rows → j < (w.heap out).cols → ∀ m' c, m'.WF →
      Mat.Same m' (w.heap out) → m'.val i j = (w.heap out).val i j →
      f i j ((w.heap out).val i j) (w.upd out m' c) = .ok (F i j) (w.upd out m' c)) :
    Writes w out (fun i j => if (w.heap out).val i j ≠ 0 then norm (F i j) else (w.heap out).val i j)
      ((forMap out oc f >>= fun _ => pure ()) w) := by
  obtain ⟨es, h1, h2, h3, h4, h5, h6⟩ := Mat.visits hout
  have hvis : ∀ {i j}, (w.heap out).Visits i j ↔ (w.heap out).val i j ≠ 0 := by
    intro i j
    unfold Mat.Visits
    rcases hk with hk | hk <;> simp [hk]
  obtain ⟨x, m', c, done, rest, g1, g2, g3, g4, g5⟩ := scatter_map_ends (w := w) (out := out) (es := es)
    (f := f) (g := fun e => F e.1 e.2.1) (oc := oc) (Mat.leftAt_init hout hk h1) hout (by omega)
    (fun e he => h2.range e he) h5
    (fun done e rest hes => by
      have he : e ∈ es := by rw [hes]; simp
      have hr := h2.range e he
      have h0 : isZero ((w.heap out).val e.1 e.2.1) = false := by
        have := h6 e he
        rw [h2.value e he]
        unfold Mat.Storable at this
        rcases hk with hk | hk <;> rw [hk] at this <;> exact this
      rcases hst e.1 e.2.1 hr.1 hr.2 (hvis.1 ((h4 _ _ hr.1 hr.2).1 ⟨e, he, rfl⟩)) h0 with h | h
      · exact Or.inl h
      · right
        rw [hes] at h1
        exact h.lastIn hout h1) hoc
    (fun e he m' c k1 k2 k3 => by
      have hr := h2.range e he
      have := hf e.1 e.2.1 hr.1 hr.2 m' c k1 k2 k3
      rwa [h2.value e he] at this)
  have hsc : Scattered w out coord (fun e => some (norm (F e.1 e.2.1))) es
      ((forMap out oc f >>= fun b => pure (if b then some () else none)) w) := by
    refine ⟨if x then some () else none, m', c, done, rest, by rw [bind_ok g1]; rfl, g2, g3, ?_, g5⟩
    rcases g4 with ⟨rfl, h⟩ | ⟨rfl, h⟩
    · exact Or.inl ⟨rfl, h⟩
    · exact Or.inr ⟨rfl, h⟩
  have := hsc.writes (new := fun i j => if (w.heap out).val i j ≠ 0 then norm (F i j) else (w.heap out).val i j)
    (by
      intro e he
      have hr := h2.range e he
      have hv := hvis.1 ((h4 e.1 e.2.1 hr.1 hr.2).1 ⟨e, he, rfl⟩)
      simp [coord, hv])
    (by
      intro i j hi hj hn
      rw [if_neg]
      intro hv
      obtain ⟨e, he, hc⟩ := (h4 i j hi hj).2 (hvis.2 hv)
      exact hn e he hc)
  rw [bind_ok (by rw [bind_ok g1]; rfl)] at this
  rw [bind_ok g1]
  exact this

end Ops

end GB
