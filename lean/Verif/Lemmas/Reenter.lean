import Verif.Model.Reenter
import Verif.Lemmas.Pointer

/-!
# `Update` with functions that use the matrix: lemmas
-/

namespace GB

set_option linter.unusedSectionVars false

variable {T : Type} [GoNum T]

theorem callback_ok {S : Type} {v x : T} {f : Fn S T} {write : T → S → Out S} {s t u : S}
    (hf : f v s = (.ok x, t)) (hw : write x t = .ok u) : callback (.ok v) f write s = (.ok (), u) := by
  simp [callback, hf, hw]

theorem callback_fail {S : Type} {v x : T} {f : Fn S T} {write : T → S → Out S} {s t : S}
    (hf : f v s = (.ok x, t)) (hw : ∀ u, write x t ≠ .ok u) : ∀ u, callback (.ok v) f write s ≠ (.ok (), u) := by
  intro u
  cases h : write x t with
  | ok u => exact (hw u h).elim
  | panic => simp [callback, hf, h]
  | hang => simp [callback, hf, h]

theorem callback_eq {S : Type} {v x : T} {f : Fn S T} {write : T → S → Out S} {s t u : S}
    (hf : f v s = (.ok x, t)) : callback (.ok v) f write s = (.ok (), u) ↔ write x t = .ok u := by
  cases h : write x t <;> simp [callback, hf, h]

theorem callback_panic {S : Type} {v : T} {f : Fn S T} {write : T → S → Out S} {s t : S}
    (hf : f v s = (.panic, t)) : callback (.ok v) f write s = (.panic, t) := by simp [callback, hf]

theorem callback_hang {S : Type} {v : T} {f : Fn S T} {write : T → S → Out S} {s t : S}
    (hf : f v s = (.hang, t)) : callback (.ok v) f write s = (.hang, t) := by simp [callback, hf]

namespace CSR

/-- `UpdateReturnPointer` with a function of the old value: look up, then write. -/
theorem updateRP_look {β : Type} (s : CSR T) {i j : Nat} (hi : i < s.r) (hj : j < s.c) (f : T → β × T) :
    (∀ b s' p q, s.updateRP i j f = .ok (b, s', p, q) →
      ∃ v : Option T, s.look i j = .ok (p, v) ∧ b = (f (v.getD 0)).1 ∧ s.finish i j p v.isSome (f (v.getD 0)).2 = .ok s') := by
  intro b s' p q hok
  unfold updateRP at hok
  simp only [inRange_natCast, hi, hj, decide_true, if_true, Int.toNat_natCast] at hok
  unfold look
  cases hc : s.columnIndex i j with
  | panic => simp [hc] at hok
  | hang => simp [hc] at hok
  | ok pe =>
    obtain ⟨p0, e0⟩ := pe
    simp only [hc, Out.ok_bind] at hok ⊢
    cases hh : s.hit p0 e0 j with
    | panic => simp [hh] at hok
    | hang => simp [hh] at hok
    | ok found =>
      simp only [hh, Out.ok_bind] at hok ⊢
      cases found with
      | true =>
        simp only [if_true] at hok ⊢
        cases hv : idx s.values p0 with
        | panic => simp [hv] at hok
        | hang => simp [hv] at hok
        | ok old =>
          simp only [hv, Out.ok_bind] at hok ⊢
          refine ⟨some old, ?_⟩
          by_cases hz : isZero (f old).2 = true
          · rw [if_pos hz] at hok
            cases hr : s.remove p0 i with
            | panic => simp [hr] at hok
            | hang => simp [hr] at hok
            | ok a =>
              simp only [hr, Out.ok_bind, Out.ok.injEq, Prod.mk.injEq] at hok
              obtain ⟨rfl, rfl, rfl, rfl⟩ := hok
              simp [finish, hz, hr]
          · rw [if_neg hz] at hok
            cases hr : setIdx s.values p0 (f old).2 with
            | panic => simp [hr] at hok
            | hang => simp [hr] at hok
            | ok a =>
              simp only [hr, Out.ok_bind, Out.ok.injEq, Prod.mk.injEq] at hok
              obtain ⟨rfl, rfl, rfl, rfl⟩ := hok
              simp [finish, hz, hr]
      | false =>
        simp only [Bool.false_eq_true, if_false] at hok ⊢
        refine ⟨none, ?_⟩
        cases hr : s.insert p0 i j (f 0).2 with
        | panic => simp [hr] at hok
        | hang => simp [hr] at hok
        | ok a =>
          obtain ⟨a, n⟩ := a
          simp only [hr, Out.ok_bind, Out.ok.injEq, Prod.mk.injEq] at hok
          obtain ⟨rfl, rfl, rfl, rfl⟩ := hok
          simp [finish, hr]

/-- What is looked up. -/
theorem Rep.look_ok [GoStore T] {s : CSR T} {rows : List (List (Nat × T))} (h : Rep s rows) {i j : Nat} (hi : i < s.r) :
    ∃ p, s.look i j = .ok (p, if isZero (cellOf rows i j) then none else some (cellOf rows i j)) ∧
      p + (if isZero (cellOf rows i j) then 0 else 1) ≤ s.values.length := by
  have hi' : i < rows.length := by rw [h.len]; exact hi
  obtain ⟨L, M, R, old, hs⟩ := rowSplit_exists (h.sorted _ (List.getElem_mem hi')) j
  obtain ⟨e', h1, h2⟩ := h.columnIndex_ok hi hs
  have hold : cellOf rows i j = old := by rw [h.cell_eq hi]; exact hs.get
  have hvals : s.values = ((rows.take i).flatten ++ L).map Prod.snd ++ (M.map Prod.snd ++
      (R ++ (rows.drop (i + 1)).flatten).map Prod.snd) := by
    rw [h.values, h.flat hi, hs.eq]; simp
  have hp : offs rows i + L.length = (((rows.take i).flatten ++ L).map Prod.snd).length := by
    rw [List.length_map, List.length_append]; rfl
  refine ⟨offs rows i + L.length, ?_⟩
  unfold look
  rw [hold, h1]
  simp only [Out.ok_bind, h2]
  rcases hs.mid with ⟨h5, h6⟩ | h5
  · rw [h6]
    simp only [isZero_zero, if_true]
    refine ⟨by simp [h5], ?_⟩
    rw [hvals, hp, List.length_append]; omega
  · have hz : isZero old = false := by
      have := h.nz _ (List.getElem_mem hi') (j, old) (by rw [hs.eq, h5]; simp)
      simpa using this
    have hidx : idx s.values (offs rows i + L.length) = .ok old := by
      rw [hvals, hp, h5]; unfold idx; simp
    constructor
    · simp [h5, hz, hidx]
    · rw [hvals, hp, List.length_append, h5, if_neg (by simp [hz])]
      simp

theorem Rep.set_finish [GoStore T] {s : CSR T} {rows : List (List (Nat × T))} (h : Rep s rows) {i j : Nat} (hi : i < s.r)
    (hj : j < s.c) {p : Nat} {v : Option T} (hl : s.look i j = .ok (p, v)) (x : T) :
    ∃ u, s.set i j x = .ok u ∧ s.finish i j p v.isSome x = .ok u := by
  obtain ⟨s', _, a, b, h1, -⟩ := h.updateRP_cells hi hj (fun _ => ((), x))
  obtain ⟨v', h2, -, h3⟩ := s.updateRP_look hi hj (fun _ => ((), x)) _ _ _ _ h1
  rw [h2] at hl
  obtain ⟨rfl, rfl⟩ := hl
  refine ⟨s', ?_, h3⟩
  unfold set update updateWith
  rw [h1]; rfl

/-- Writing at two positions gives the same matrix for all values only if the positions are the same. -/
theorem finish_inj {t : CSR T} {i j p q : Nat} {a b : Bool} {x y : T} (hx : isZero x = false) (hy : isZero y = false)
    (hxy : x ≠ y) (hq : q + (if b then 1 else 0) ≤ t.values.length)
    (h : ∀ z, ∃ u, t.finish i j p a z = .ok u ∧ t.finish i j q b z = .ok u) : p = q ∧ a = b := by
  have len : ∀ z, isZero z = false → ∀ (p : Nat) (a : Bool) u, t.finish i j p a z = .ok u →
      (a = true → p < t.values.length ∧ u.values = t.values.set p z) ∧
      (a = false → p ≤ t.values.length ∧ u.values = t.values.take p ++ z :: t.values.drop p) := by
    intro z hz p a u hu
    unfold finish at hu
    cases a with
    | true =>
      simp only [if_true, hz, Bool.false_eq_true, if_false, setIdx] at hu
      split at hu
      · rename_i hlt
        simp only [Out.ok_bind, Out.ok.injEq] at hu
        subst hu
        exact ⟨fun _ => ⟨hlt, rfl⟩, fun h => by simp at h⟩
      · simp at hu
    | false =>
      simp only [Bool.false_eq_true, if_false, insert, hz] at hu
      cases h1 : splice t.cols p j with
      | panic => simp [h1] at hu
      | hang => simp [h1] at hu
      | ok cs =>
        cases h2 : splice t.values p z with
        | panic => simp [h1, h2] at hu
        | hang => simp [h1, h2] at hu
        | ok vs =>
          cases h3 : bump (· + 1) t.rowStart i t.r with
          | panic => simp [h1, h2, h3] at hu
          | hang => simp [h1, h2, h3] at hu
          | ok rs =>
            simp only [h1, h2, h3, Out.ok_bind, Out.ok.injEq] at hu
            subst hu
            unfold splice at h2
            split at h2
            · rename_i hle
              simp only [Out.ok.injEq] at h2
              exact ⟨fun h => by simp at h, fun _ => ⟨hle, h2.symm⟩⟩
            · simp at h2
  obtain ⟨u, hu1, hu2⟩ := h x
  obtain ⟨w, hw1, hw2⟩ := h y
  have A := len x hx p a u hu1
  have B := len x hx q b u hu2
  have C := len y hy p a w hw1
  have D := len y hy q b w hw2
  cases a with
  | true =>
    cases b with
    | true =>
      refine ⟨?_, rfl⟩
      by_contra hne
      have e1 : t.values.set p x = t.values.set q x := by rw [← (A.1 rfl).2, ← (B.1 rfl).2]
      have e2 : t.values.set p y = t.values.set q y := by rw [← (C.1 rfl).2, ← (D.1 rfl).2]
      have hp := (A.1 rfl).1
      have g1 := congrArg (fun l => l[p]?) e1
      have g2 := congrArg (fun l => l[p]?) e2
      simp only [List.getElem?_set, hp, if_true, if_neg (Ne.symm hne)] at g1 g2
      rw [← g2] at g1
      exact hxy (by simpa using g1)
    | false =>
      have e := congrArg List.length ((A.1 rfl).2.symm.trans (B.2 rfl).2)
      have := (B.2 rfl).1
      simp at e
      omega
  | false =>
    cases b with
    | true =>
      have e := congrArg List.length ((A.2 rfl).2.symm.trans (B.1 rfl).2)
      have := (A.2 rfl).1
      simp at e
      omega
    | false =>
      refine ⟨?_, rfl⟩
      have hp := (A.2 rfl).1
      have hq := (B.2 rfl).1
      have e1 := (A.2 rfl).2.symm.trans (B.2 rfl).2
      have e2 := (C.2 rfl).2.symm.trans (D.2 rfl).2
      have put : ∀ (z : T) (p q : Nat), p < q → q ≤ t.values.length →
          t.values.take p ++ z :: t.values.drop p = t.values.take q ++ z :: t.values.drop q → t.values[p]? = some z := by
        intro z p q h1 h2 he
        have g := congrArg (fun l => l[p]?) he
        have l1 : (t.values.take p).length = p := by rw [List.length_take]; omega
        have l2 : (t.values.take q).length = q := by rw [List.length_take]; omega
        rw [List.getElem?_append_right (by omega), List.getElem?_append_left (by omega), l1, Nat.sub_self,
          List.getElem?_take_of_lt h1] at g
        simpa using g.symm
      rcases Nat.lt_trichotomy p q with hlt | heq | hgt
      · have g1 := put x p q hlt hq e1
        rw [put y p q hlt hq e2] at g1
        exact absurd (by simpa using g1.symm) hxy
      · exact heq
      · have g1 := put x q p hgt hp e1.symm
        rw [put y q p hgt hp e2.symm] at g1
        exact absurd (by simpa using g1.symm) hxy

theorem updateBy_eq {s : CSR T} {i j : Nat} (hi : i < s.r) (hj : j < s.c) {p : Nat} {v : Option T}
    (hl : s.look i j = .ok (p, v)) (f : Fn (CSR T) T) :
    s.updateBy i j f = callback (.ok (v.getD 0)) f (fun x t => t.finish i j p v.isSome x) s := by
  simp [updateBy, hi, hj, hl]

end CSR

namespace CSC

theorem look_eq (s : CSC T) (r c : Nat) : s.look r c = (mir s).look c r := by
  unfold look CSR.look
  rw [rowIndex_eq]
  rfl

theorem finish_eq (s : CSC T) (r c p : Nat) (a : Bool) (x : T) :
    s.finish r c p a x = unmir <$> (mir s).finish c r p a x := by
  unfold finish CSR.finish
  cases a with
  | true =>
    simp only [if_true]
    split
    · exact remove_eq s p c
    · simp only [map_bind]; rfl
  | false =>
    simp only [Bool.false_eq_true, if_false, insert_eq]
    cases (mir s).insert p c r x <;> rfl

theorem set_finish [GoStore T] {s : CSC T} {cols : List (List (Nat × T))} (h : s.Rep cols) {i j : Nat} (hi : i < s.r)
    (hj : j < s.c) {p : Nat} {v : Option T} (hl : s.look i j = .ok (p, v)) (x : T) :
    ∃ u, s.set i j x = .ok u ∧ s.finish i j p v.isSome x = .ok u := by
  rw [look_eq] at hl
  obtain ⟨u, h1, h2⟩ := CSR.Rep.set_finish (s := mir s) h (i := j) (j := i) hj hi hl x
  refine ⟨unmir u, ?_, by rw [finish_eq, h2]; rfl⟩
  rw [set_eq, h1]; rfl

theorem updateBy_eq {s : CSC T} {i j : Nat} (hi : i < s.r) (hj : j < s.c) {p : Nat} {v : Option T}
    (hl : s.look i j = .ok (p, v)) (f : Fn (CSC T) T) :
    s.updateBy i j f = callback (.ok (v.getD 0)) f (fun x t => t.finish i j p v.isSome x) s := by
  simp [updateBy, hi, hj, hl]

end CSC

end GB
