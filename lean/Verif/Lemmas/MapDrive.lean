import Verif.Lemmas.MapZero
import Verif.Props.Access

/-!
# The `Map` loop of the formats that drop zeros
-/

namespace GB

set_option linter.unusedSectionVars false

variable {T : Type} [GoNum T]

theorem drive_turn {f : Nat → Nat → T → T} {n : Nat} {m m' : Mat T} {it it' : Mat.Iter} {r c : Nat} {v : T}
    (hn : it.hasNext = true) (hs : m.step it = .ok (it', r, c, v)) (hp : m.put it' (f r c v) = .ok m') :
    Mat.drive f (n + 1) m it = Mat.drive f n m' it' := by
  simp only [Mat.drive, hn, if_true, hs, Out.ok_bind, hp]

theorem drive_done {f : Nat → Nat → T → T} {n : Nat} {m : Mat T} {it : Mat.Iter}
    (hn : it.hasNext = false) : Mat.drive f n m it = .ok m := by
  cases n <;> simp [Mat.drive, hn]

theorem drive_stuck {f : Nat → Nat → T → T} {n : Nat} {m : Mat T} {it : Mat.Iter}
    (hn : it.hasNext = true) (hs : m.step it = .panic) : Mat.drive f (n + 1) m it = .panic := by
  simp only [Mat.drive, hn, if_true, hs]; rfl

/-! ## Compressed matrices -/

theorem drive_csr (f : Nat → Nat → T → T) : ∀ (n : Nat) (s : CSR T) (it : CSR.Iter),
    Mat.drive f n (.csr s) (.csr it) = Mat.csr <$> CSR.drive f n s it := by
  intro n
  induction n with
  | zero =>
    intro s it
    have e : (Mat.Iter.csr it).hasNext = it.hasNext := rfl
    unfold Mat.drive CSR.drive
    rw [e]
    cases it.hasNext <;> rfl
  | succ n ih =>
    intro s it
    have e : (Mat.Iter.csr it).hasNext = it.hasNext := rfl
    unfold Mat.drive CSR.drive
    rw [e]
    cases it.hasNext with
    | false => rfl
    | true =>
      simp only [if_true, Mat.step]
      cases s.step it with
      | ok x =>
        simp only [Out.ok_bind, Mat.put]
        cases s.put x.1 (f x.2.1 x.2.2.1 x.2.2.2) with
        | ok s' => simp only [Out.ok_bind]; exact ih s' x.1
        | panic => rfl
        | hang => rfl
      | panic => rfl
      | hang => rfl

theorem drive_csc (f : Nat → Nat → T → T) : ∀ (n : Nat) (s : CSC T) (it : CSC.Iter),
    Mat.drive f n (.csc s) (.csc it) =
      (fun x => Mat.csc (CSC.unmir x)) <$> CSR.drive (fun a b v => f b a v) n (CSC.mir s) (CSC.mirIt it) := by
  intro n
  induction n with
  | zero =>
    intro s it
    have e : (Mat.Iter.csc it).hasNext = (CSC.mirIt it).hasNext := rfl
    unfold Mat.drive CSR.drive
    rw [e]
    cases (CSC.mirIt it).hasNext <;> rfl
  | succ n ih =>
    intro s it
    have e : (Mat.Iter.csc it).hasNext = (CSC.mirIt it).hasNext := rfl
    unfold Mat.drive CSR.drive
    rw [e]
    cases (CSC.mirIt it).hasNext with
    | false => rfl
    | true =>
      simp only [if_true, Mat.step, CSC.step_eq]
      cases (CSC.mir s).step (CSC.mirIt it) with
      | ok x =>
        simp only [Out.ok_bind, Out.map_ok, Mat.put, CSC.put_eq]
        have e2 : CSC.mirIt (CSC.unmirIt x.1) = x.1 := rfl
        rw [e2]
        cases (CSC.mir s).put x.1 (f x.2.2.1 x.2.1 x.2.2.2) with
        | ok s' => simp only [Out.ok_bind, Out.map_ok]; exact ih (CSC.unmir s') (CSC.unmirIt x.1)
        | panic => rfl
        | hang => rfl
      | panic => rfl
      | hang => rfl

/-! ## Sparse vectors -/

/-- An iterator delivers one list. -/
theorem yields_unique {ι α : Type} {hasNext : ι → Bool} {step : ι → Out (ι × α)} :
    ∀ {it : ι} {as bs : List α}, Yields hasNext step it as → Yields hasNext step it bs → as = bs
  | _, [], [], _, _ => rfl
  | _, [], _ :: _, h1, h2 => by have := h2.1; rw [show hasNext _ = false from h1] at this; simp at this
  | _, _ :: _, [], h1, h2 => by have := h1.1; rw [show hasNext _ = false from h2] at this; simp at this
  | _, a :: as, b :: bs, ⟨_, it1, e1, h1⟩, ⟨_, it2, e2, h2⟩ => by
    rw [e1] at e2
    injection e2 with e2
    injection e2 with e2 e3
    subst e2 e3
    rw [yields_unique h1 h2]

/-- The entries after `Map(f)`: those that became zero are gone. -/
def mapped (f : Nat → Nat → T → T) (es : List (Nat × T)) : List (Nat × T) :=
  (es.map (fun e => (e.1, f e.1 0 e.2))).filter (fun e => !isZero e.2)

theorem svec_drive_ok (f : Nat → Nat → T → T) : ∀ (m k n : Nat) (s : SVec T) (es : List (Nat × T))
    (it : SVec.Iter), s.indices = es.map Prod.fst → s.values = es.map Prod.snd → it.last = k →
    it.size = es.length → k + m = es.length → m ≤ n →
    (∀ q, k ≤ q → q + 1 < es.length → ∀ h : q < es.length, isZero (f es[q].1 0 es[q].2) = false) →
    Mat.drive f n (.svec s) (.svec it) =
      .ok (.svec { s with indices := (es.take k ++ mapped f (es.drop k)).map Prod.fst,
                          values := (es.take k ++ mapped f (es.drop k)).map Prod.snd }) := by
  intro m
  induction m with
  | zero =>
    intro k n s es it hi hv h1 h2 hk _ _
    have hn : it.hasNext = false := by simp [SVec.Iter.hasNext, h1, h2]; omega
    have e : es.take k ++ mapped f (es.drop k) = es := by
      rw [List.drop_eq_nil_of_le (by omega), List.take_of_length_le (by omega)]; simp [mapped]
    rw [e, ← hi, ← hv]
    exact drive_done hn
  | succ m ih =>
    intro k n s es it hi hv h1 h2 hk hmn hf
    have hkl : k < es.length := by omega
    have hn : it.hasNext = true := by simp [SVec.Iter.hasNext, h1, h2]; omega
    obtain ⟨n, rfl⟩ : ∃ q, n = q + 1 := ⟨n - 1, by omega⟩
    have e1 : idx s.indices it.next.old = .ok es[k].1 := by
      rw [idx_ok (by simp [hi, SVec.Iter.next, h1, hkl])]
      simp only [hi, SVec.Iter.next, h1, List.getElem_map]
    have e2 : idx s.values it.next.old = .ok es[k].2 := by
      rw [idx_ok (by simp [hv, SVec.Iter.next, h1, hkl])]
      simp only [hv, SVec.Iter.next, h1, List.getElem_map]
    have hold : it.next.old = k := by simp [SVec.Iter.next, h1]
    have hki : k < s.indices.length := by simp [hi, hkl]
    have hkv : k < s.values.length := by simp [hv, hkl]
    have hdrop : es.drop k = es[k] :: es.drop (k + 1) := List.drop_eq_getElem_cons hkl
    have hn' : (Mat.Iter.svec it).hasNext = true := hn
    have hs : (Mat.svec s).step (.svec it) = .ok (.svec it.next, es[k].1, 0, es[k].2) := by
      simp only [Mat.step, SVec.step, e1, e2, Out.ok_bind]
    by_cases hz : isZero (f es[k].1 0 es[k].2) = true
    · have hlast : k + 1 = es.length := by
        by_contra hc
        rw [hf k (by omega) (by omega) hkl] at hz; simp at hz
      rw [drive_turn hn' hs (show (Mat.svec s).put (.svec it.next) _ = .ok (.svec { s with indices := s.indices.take k ++ s.indices.drop (k + 1), values := s.values.take k ++ s.values.drop (k + 1) }) by
        simp only [Mat.put, SVec.put, hold, hz, Bool.not_true, Bool.false_eq_true, if_false, SVec.remove, unsplice, hki, hkv, if_true, Out.ok_bind])]
      have hm : mapped f (es.drop k) = [] := by
        rw [hdrop, List.drop_eq_nil_of_le (by omega)]; simp [mapped, hz]
      have hn2 : it.next.hasNext = false := by simp [SVec.Iter.hasNext, SVec.Iter.next, h1, h2]; omega
      have ei : s.indices.take k ++ s.indices.drop (k + 1) = (es.take k ++ mapped f (es.drop k)).map Prod.fst := by
        rw [hm, hi, List.drop_eq_nil_of_le (by simp; omega)]; simp
      have ev : s.values.take k ++ s.values.drop (k + 1) = (es.take k ++ mapped f (es.drop k)).map Prod.snd := by
        rw [hm, hv, List.drop_eq_nil_of_le (by simp; omega)]; simp
      rw [ei, ev, drive_done (show (Mat.Iter.svec it.next).hasNext = false from hn2)]
    · have hz' : isZero (f es[k].1 0 es[k].2) = false := by simpa using hz
      rw [drive_turn hn' hs (show (Mat.svec s).put (.svec it.next) _ = .ok (.svec { s with values := s.values.set k (f es[k].1 0 es[k].2) }) by
        simp only [Mat.put, SVec.put, hold, hz', Bool.not_false, if_true, setIdx_ok hkv, Out.ok_bind])]
      have hset : ∀ v, es.set k (es[k].1, v) = es.take k ++ (es[k].1, v) :: es.drop (k + 1) := by
        intro v; rw [List.set_eq_take_append_cons_drop, if_pos hkl]
      rw [ih (k + 1) n { s with values := s.values.set k (f es[k].1 0 es[k].2) }
        (es.set k (es[k].1, f es[k].1 0 es[k].2)) it.next
        (by
          simp only; rw [hi]; apply List.ext_getElem
          · simp
          · intro q h1 h2
            simp only [List.getElem_map, List.getElem_set]
            split
            · rename_i h; subst h; rfl
            · rfl)
        (by simp only; rw [hv, List.map_set])
        (by simp [SVec.Iter.next, h1]) (by simp [SVec.Iter.next, h2]) (by simp; omega) (by omega)
        (by
          intro q hq1 hq2 h
          have hne : k ≠ q := by omega
          simp only [List.length_set] at hq2 h
          simp only [List.getElem_set, hne, if_false]
          exact hf q (by omega) hq2 h)]
      have e : (es.set k (es[k].1, f es[k].1 0 es[k].2)).take (k + 1) ++
          mapped f ((es.set k (es[k].1, f es[k].1 0 es[k].2)).drop (k + 1)) = es.take k ++ mapped f (es.drop k) := by
        rw [List.drop_set_of_lt (by omega), hdrop, hset]
        have : (es.take k).length = k := by simp; omega
        rw [List.take_append, this, List.take_of_length_le (by omega)]
        have hm : mapped f (es[k] :: es.drop (k + 1)) = (es[k].1, f es[k].1 0 es[k].2) :: mapped f (es.drop (k + 1)) := by
          unfold mapped; rw [List.map_cons, List.filter_cons_of_pos (by simp [hz'])]
        rw [hm]; simp
      rw [e]

/-- Once an entry has been removed the loop runs off the end. -/
theorem svec_drive_short (f : Nat → Nat → T → T) : ∀ (n : Nat) (s : SVec T) (it : SVec.Iter),
    s.indices.length = s.values.length → s.values.length < it.size → it.last < it.size →
    it.size - it.last ≤ n → Mat.drive f n (.svec s) (.svec it) = .panic := by
  intro n
  induction n with
  | zero => intro s it _ _ h1 h2; omega
  | succ n ih =>
    intro s it hl h0 h1 h2
    have hn : it.hasNext = true := by simp [SVec.Iter.hasNext]; omega
    have hold : it.next.old = it.last := rfl
    have hn' : (Mat.Iter.svec it).hasNext = true := hn
    by_cases hk : it.last < s.values.length
    · have hki : it.last < s.indices.length := by omega
      have hs : (Mat.svec s).step (.svec it) = .ok (.svec it.next, s.indices[it.last], 0, s.values[it.last]) := by
        simp only [Mat.step, SVec.step, hold, idx_ok hk, idx_ok hki, Out.ok_bind]
      by_cases hz : isZero (f s.indices[it.last] 0 s.values[it.last]) = true
      · rw [drive_turn hn' hs (show (Mat.svec s).put (.svec it.next) _ = .ok (.svec { s with indices := s.indices.take it.last ++ s.indices.drop (it.last + 1), values := s.values.take it.last ++ s.values.drop (it.last + 1) }) by
          simp only [Mat.put, SVec.put, hold, hz, Bool.not_true, Bool.false_eq_true, if_false, SVec.remove, unsplice, hki, hk, if_true, Out.ok_bind])]
        exact ih _ it.next (by simp; omega) (by simp [SVec.Iter.next]; omega)
          (by simp [SVec.Iter.next]; omega) (by simp [SVec.Iter.next]; omega)
      · have hz' : isZero (f s.indices[it.last] 0 s.values[it.last]) = false := by simpa using hz
        rw [drive_turn hn' hs (show (Mat.svec s).put (.svec it.next) _ = .ok (.svec { s with values := s.values.set it.last (f s.indices[it.last] 0 s.values[it.last]) }) by
          simp only [Mat.put, SVec.put, hold, hz', Bool.not_false, if_true, setIdx_ok hk, Out.ok_bind])]
        exact ih _ it.next (by simpa using hl) (by simpa [SVec.Iter.next] using h0)
          (by simp [SVec.Iter.next]; omega) (by simp [SVec.Iter.next]; omega)
    · have : idx s.indices it.last = .panic := by
        simp [idx, List.getElem?_eq_none (show s.indices.length ≤ it.last by omega)]
      exact drive_stuck hn' (by simp only [Mat.step, SVec.step, hold, this]; rfl)

theorem svec_drive_panic (f : Nat → Nat → T → T) : ∀ (m k n : Nat) (s : SVec T) (es : List (Nat × T))
    (it : SVec.Iter), s.indices = es.map Prod.fst → s.values = es.map Prod.snd → it.last = k →
    it.size = es.length → k + m = es.length → m ≤ n →
    (∃ q, k ≤ q ∧ q + 1 < es.length ∧ ∃ h : q < es.length, isZero (f es[q].1 0 es[q].2) = true) →
    Mat.drive f n (.svec s) (.svec it) = .panic := by
  intro m
  induction m with
  | zero => intro k n s es it hi hv h1 h2 hk _ ⟨q, h3, h4, _⟩; omega
  | succ m ih =>
    intro k n s es it hi hv h1 h2 hk hmn ⟨q, hq1, hq2, hq3, hq4⟩
    have hkl : k < es.length := by omega
    have hn : it.hasNext = true := by simp [SVec.Iter.hasNext, h1, h2]; omega
    obtain ⟨n, rfl⟩ : ∃ q, n = q + 1 := ⟨n - 1, by omega⟩
    have e1 : idx s.indices it.next.old = .ok es[k].1 := by
      rw [idx_ok (by simp [hi, SVec.Iter.next, h1, hkl])]
      simp only [hi, SVec.Iter.next, h1, List.getElem_map]
    have e2 : idx s.values it.next.old = .ok es[k].2 := by
      rw [idx_ok (by simp [hv, SVec.Iter.next, h1, hkl])]
      simp only [hv, SVec.Iter.next, h1, List.getElem_map]
    have hold : it.next.old = k := by simp [SVec.Iter.next, h1]
    have hki : k < s.indices.length := by simp [hi, hkl]
    have hkv : k < s.values.length := by simp [hv, hkl]
    have hn' : (Mat.Iter.svec it).hasNext = true := hn
    have hs : (Mat.svec s).step (.svec it) = .ok (.svec it.next, es[k].1, 0, es[k].2) := by
      simp only [Mat.step, SVec.step, e1, e2, Out.ok_bind]
    have hli : s.indices.length = es.length := by simp [hi]
    have hlv : s.values.length = es.length := by simp [hv]
    by_cases hz : isZero (f es[k].1 0 es[k].2) = true
    · rw [drive_turn hn' hs (show (Mat.svec s).put (.svec it.next) _ = .ok (.svec { s with indices := s.indices.take k ++ s.indices.drop (k + 1), values := s.values.take k ++ s.values.drop (k + 1) }) by
        simp only [Mat.put, SVec.put, hold, hz, Bool.not_true, Bool.false_eq_true, if_false, SVec.remove, unsplice, hki, hkv, if_true, Out.ok_bind])]
      exact svec_drive_short f n _ it.next (by simp; omega) (by simp [SVec.Iter.next, h2]; omega)
        (by simp [SVec.Iter.next, h1, h2]; omega) (by simp [SVec.Iter.next, h1, h2]; omega)
    · have hz' : isZero (f es[k].1 0 es[k].2) = false := by simpa using hz
      rw [drive_turn hn' hs (show (Mat.svec s).put (.svec it.next) _ = .ok (.svec { s with values := s.values.set k (f es[k].1 0 es[k].2) }) by
        simp only [Mat.put, SVec.put, hold, hz', Bool.not_false, if_true, setIdx_ok hkv, Out.ok_bind])]
      have hne : k ≠ q := by rintro rfl; rw [hq4] at hz'; simp at hz'
      exact ih (k + 1) n { s with values := s.values.set k (f es[k].1 0 es[k].2) }
        (es.set k (es[k].1, f es[k].1 0 es[k].2)) it.next
        (by
          simp only; rw [hi]; apply List.ext_getElem
          · simp
          · intro q h1 h2
            simp only [List.getElem_map, List.getElem_set]
            split
            · rename_i h; subst h; rfl
            · rfl)
        (by simp only; rw [hv, List.map_set])
        (by simp [SVec.Iter.next, h1]) (by simp [SVec.Iter.next, h2]) (by simp; omega) (by omega)
        ⟨q, by omega, by simpa using hq2, by simpa using hq3, by
          simp only [List.getElem_set, hne, if_false]; exact hq4⟩

end GB
