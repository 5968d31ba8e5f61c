import Verif.Lemmas.LiveIter
import Verif.Lemmas.Ops3
import Verif.Lemmas.Meth
import Verif.Lemmas.FloatOps

/-!
# `Transpose` into its own operand

The loop reads the matrix it writes to, so what it writes depends on the order of the enumeration.
-/

namespace GB

set_option linter.unusedSectionVars false
set_option linter.unusedSimpArgs false

open M

variable {T : Type} [GoNum T]

/-! ## Tables -/

/-- What the loop does to the table: for each cell of the list in turn, unless `bit`, copy the cell across the
diagonal. -/
def mirrorOn (bit : Nat → Nat → Bool) : (Nat → Nat → T) → List (Nat × Nat) → (Nat → Nat → T)
  | t, [] => t
  | t, p :: ps => mirrorOn bit (if bit p.1 p.2 then t else put2 t p.2 p.1 (t p.1 p.2)) ps

theorem mirrorOn_append (bit : Nat → Nat → Bool) : ∀ (ps qs : List (Nat × Nat)) (t : Nat → Nat → T),
    mirrorOn bit t (ps ++ qs) = mirrorOn bit (mirrorOn bit t ps) qs
  | [], _, _ => rfl
  | p :: ps, qs, t => by simp only [List.cons_append, mirrorOn]; exact mirrorOn_append bit ps qs _

/-- Only visiting `(j, i)` writes to `(i, j)`. -/
theorem mirrorOn_ne {bit : Nat → Nat → Bool} {i j : Nat} : ∀ {ps : List (Nat × Nat)} {t : Nat → Nat → T},
    (j, i) ∉ ps → mirrorOn bit t ps i j = t i j
  | [], _, _ => rfl
  | p :: ps, t, h => by
    simp only [List.mem_cons, not_or] at h
    rw [mirrorOn, mirrorOn_ne h.2]
    split
    · rfl
    · unfold put2
      rw [if_neg]
      rintro ⟨rfl, rfl⟩
      exact h.1 rfl

/-- The cells across the diagonal from each other, when `(i, j)` comes before `(j, i)`. -/
theorem mirrorOn_pair {bit : Nat → Nat → Bool} {i j : Nat} (hij : i ≠ j) {a b c : List (Nat × Nat)} {t : Nat → Nat → T}
    (ha : (i, j) ∉ a ∧ (j, i) ∉ a) (hb : (i, j) ∉ b ∧ (j, i) ∉ b) (hc : (i, j) ∉ c ∧ (j, i) ∉ c) :
    mirrorOn bit t (a ++ (i, j) :: (b ++ (j, i) :: c)) j i = (if bit i j then t j i else t i j) ∧
    mirrorOn bit t (a ++ (i, j) :: (b ++ (j, i) :: c)) i j =
      if bit j i then t i j else if bit i j then t j i else t i j := by
  have hji : ¬ (j = i) := fun h => hij h.symm
  simp only [mirrorOn_append, mirrorOn]
  rw [mirrorOn_ne hc.1, mirrorOn_ne hc.2]
  constructor
  · by_cases h2 : bit j i
    · simp only [h2, if_true]
      rw [mirrorOn_ne hb.1]
      by_cases h1 : bit i j
      · simp only [h1, if_true]; rw [mirrorOn_ne ha.1]
      · simp only [h1, if_false, put2, and_self, if_true, Bool.false_eq_true]; rw [mirrorOn_ne ha.2]
    · simp only [h2, if_false, put2, hij, hji, and_self, Bool.false_eq_true]
      rw [mirrorOn_ne hb.1]
      by_cases h1 : bit i j
      · simp only [h1, if_true]; rw [mirrorOn_ne ha.1]
      · simp only [h1, if_false, put2, and_self, if_true, Bool.false_eq_true]; rw [mirrorOn_ne ha.2]
  · by_cases h2 : bit j i
    · simp only [h2, if_true]
      rw [mirrorOn_ne hb.2]
      by_cases h1 : bit i j
      · simp only [h1, if_true]; rw [mirrorOn_ne ha.2]
      · simp only [h1, if_false, put2, hij, hji, and_self, Bool.false_eq_true]; rw [mirrorOn_ne ha.2]
    · simp only [h2, if_false, put2, and_self, if_true, Bool.false_eq_true]
      rw [mirrorOn_ne hb.1]
      by_cases h1 : bit i j
      · simp only [h1, if_true]; rw [mirrorOn_ne ha.1]
      · simp only [h1, if_false, put2, and_self, if_true, Bool.false_eq_true]; rw [mirrorOn_ne ha.2]

/-- The final table of the loop: `first i j` when `(i, j)` is enumerated before `(j, i)`. -/
def mirrored (bit first : Nat → Nat → Bool) (t : Nat → Nat → T) (i j : Nat) : T :=
  if i = j then t i j
  else if first i j then (if bit j i then t i j else if bit i j then t j i else t i j)
  else (if bit j i then t i j else t j i)

theorem mirrorOn_diag {bit : Nat → Nat → Bool} {i : Nat} : ∀ {ps : List (Nat × Nat)} {t : Nat → Nat → T},
    mirrorOn bit t ps i i = t i i
  | [], _ => rfl
  | p :: ps, t => by
    rw [mirrorOn, mirrorOn_diag]
    split
    · rfl
    · unfold put2
      split
      · rename_i h; rw [← h.1, ← h.2]
      · rfl

/-- Any prefix of an enumeration that contains with each cell its mirror cell, in an order where `first` says which
comes first. -/
theorem mirrorOn_prefix {bit first : Nat → Nat → Bool} {ps : List (Nat × Nat)} {t : Nat → Nat → T} (k : Nat)
    (ho : ps.Pairwise (fun a b => a ≠ b ∧ (a = (b.2, b.1) → first a.1 a.2 = true ∧ first b.1 b.2 = false)))
    (hsym : ∀ i j, (i, j) ∈ ps → (j, i) ∈ ps) (hout : ∀ i j, (i, j) ∉ ps → t i j = t j i) (i j : Nat) :
    (ps.length ≤ k → mirrorOn bit t (ps.take k) i j = mirrored bit first t i j) ∧
    (mirrorOn bit t (ps.take k) i j = mirrored bit first t i j ∨ mirrorOn bit t (ps.take k) i j = t i j) := by
  by_cases hij : i = j
  · subst hij
    simp [mirrored, mirrorOn_diag]
  by_cases hin : (i, j) ∈ ps
  swap
  · have h2 : (j, i) ∉ ps := fun h => hin (hsym _ _ h)
    have e := hout i j hin
    have : mirrored bit first t i j = t i j := by
      unfold mirrored; rw [if_neg hij, ← e]; split_ifs <;> rfl
    rw [this, mirrorOn_ne (fun h => h2 (List.mem_of_mem_take h))]
    simp
  -- a general fact about which comes first
  have key : ∀ i j : Nat, i ≠ j → (i, j) ∈ ps → first i j = true → ∀ k,
      (ps.length ≤ k → mirrorOn bit t (ps.take k) i j = mirrored bit first t i j ∧
        mirrorOn bit t (ps.take k) j i = mirrored bit first t j i) ∧
      (mirrorOn bit t (ps.take k) i j = mirrored bit first t i j ∨ mirrorOn bit t (ps.take k) i j = t i j) ∧
      (mirrorOn bit t (ps.take k) j i = mirrored bit first t j i ∨ mirrorOn bit t (ps.take k) j i = t j i) := by
    intro i j hij hin hf k
    have hji : ¬ (j = i) := fun h => hij h.symm
    obtain ⟨a, d, rfl⟩ := List.append_of_mem hin
    have hswap := hsym _ _ hin
    have hp := List.pairwise_append.1 ho
    have hp2 := List.pairwise_cons.1 hp.2.1
    have hna : (i, j) ∉ a := fun h => (hp.2.2 _ h (i, j) (by simp)).1 rfl
    have hnd : (i, j) ∉ d := fun h => (hp2.1 _ h).1 rfl
    have hsa : (j, i) ∉ a := by
      intro h
      have := ((hp.2.2 _ h (i, j) (by simp)).2 rfl).2
      simp only [hf] at this
      exact absurd this (by simp)
    have hsd : (j, i) ∈ d := by
      rcases List.mem_append.1 hswap with h | h
      · exact absurd h hsa
      · rcases List.mem_cons.1 h with h | h
        · exact absurd (congrArg Prod.fst h) hji
        · exact h
    obtain ⟨b, c, rfl⟩ := List.append_of_mem hsd
    have hq := List.pairwise_append.1 hp2.2
    have hq2 := List.pairwise_cons.1 hq.2.1
    have hsb : (j, i) ∉ b := fun h => (hq.2.2 _ h (j, i) (by simp)).1 rfl
    have hsc : (j, i) ∉ c := fun h => (hq2.1 _ h).1 rfl
    simp only [List.mem_append, List.mem_cons, not_or] at hnd
    have hf2 : first j i = false := ((hp2.1 (j, i) hsd).2 rfl).2
    have m1 : mirrored bit first t i j = if bit j i then t i j else if bit i j then t j i else t i j := by
      simp [mirrored, hij, hf]
    have m2 : mirrored bit first t j i = if bit i j then t j i else t i j := by
      simp [mirrored, hji, hf2]
    have full : ∀ c', (i, j) ∉ c' ∧ (j, i) ∉ c' →
        mirrorOn bit t (a ++ (i, j) :: (b ++ (j, i) :: c')) i j = mirrored bit first t i j ∧
        mirrorOn bit t (a ++ (i, j) :: (b ++ (j, i) :: c')) j i = mirrored bit first t j i := by
      intro c' hc'
      have := mirrorOn_pair (bit := bit) (t := t) hij ⟨hna, hsa⟩ ⟨hnd.1, hsb⟩ hc'
      exact ⟨by rw [this.2, m1], by rw [this.1, m2]⟩
    refine ⟨fun hk => ?_, ?_⟩
    · rw [List.take_of_length_le hk]
      exact full c ⟨hnd.2.2, hsc⟩
    · -- where the prefix ends
      by_cases hk1 : k ≤ a.length
      · rw [List.take_append_of_le_length hk1]
        exact ⟨Or.inr (mirrorOn_ne (fun h => hsa (List.mem_of_mem_take h))),
          Or.inr (mirrorOn_ne (fun h => hna (List.mem_of_mem_take h)))⟩
      · obtain ⟨n, rfl⟩ : ∃ n, k = a.length + (n + 1) := ⟨k - a.length - 1, by omega⟩
        rw [List.take_length_add_append, List.take_succ_cons]
        by_cases hk2 : n ≤ b.length
        · rw [List.take_append_of_le_length hk2]
          have nb1 : (i, j) ∉ b.take n := fun h => hnd.1 (List.mem_of_mem_take h)
          have nb2 : (j, i) ∉ b.take n := fun h => hsb (List.mem_of_mem_take h)
          refine ⟨Or.inr (mirrorOn_ne ?_), Or.inl ?_⟩
          · simp only [List.mem_append, List.mem_cons, not_or]
            exact ⟨hsa, fun h => hji (congrArg Prod.fst h), nb2⟩
          · rw [mirrorOn_append, mirrorOn, mirrorOn_ne nb1, m2]
            by_cases h1 : bit i j
            · simp only [h1, if_true]; rw [mirrorOn_ne hna]
            · simp only [h1, if_false, put2, and_self, if_true, Bool.false_eq_true]; rw [mirrorOn_ne hsa]
        · obtain ⟨n', rfl⟩ : ∃ n', n = b.length + (n' + 1) := ⟨n - b.length - 1, by omega⟩
          rw [List.take_length_add_append, List.take_succ_cons]
          have := full (c.take n') ⟨fun h => hnd.2.2 (List.mem_of_mem_take h), fun h => hsc (List.mem_of_mem_take h)⟩
          exact ⟨Or.inl this.1, Or.inl this.2⟩
  by_cases hf : first i j = true
  · have := key i j hij hin hf k
    exact ⟨fun h => (this.1 h).1, this.2.1⟩
  · have hin' := hsym _ _ hin
    have hf' : first j i = true := by
      -- one of the two comes first
      obtain ⟨a, d, rfl⟩ := List.append_of_mem hin
      have hp := List.pairwise_append.1 ho
      have hp2 := List.pairwise_cons.1 hp.2.1
      rcases List.mem_append.1 hin' with h | h
      · exact ((hp.2.2 _ h (i, j) (by simp)).2 rfl).1
      · rcases List.mem_cons.1 h with h | h
        · exact absurd (congrArg Prod.fst h).symm hij
        · exact absurd ((hp2.1 _ h).2 rfl).1 hf
    have := key j i (fun h => hij h.symm) hin' hf' k
    exact ⟨fun h => (this.1 h).2, this.2.2⟩

/-! ## The loop -/

variable [GoStore T]

theorem Mat.MapAt.range {m : Mat T} : ∀ {rest : List (Nat × Nat × T)} {it : Mat.Iter}, Mat.MapAt m it rest →
    ∀ e ∈ rest, e.1 < m.rows ∧ e.2.1 < m.cols
  | [], _, _ => by simp
  | e :: rest, it, h => by
    obtain ⟨-, it', -, h2, h3, h4, -, -⟩ := h.cons
    intro x hx
    rcases List.mem_cons.1 hx with rfl | hx
    · exact ⟨h3, h4⟩
    · exact h2.range x hx

namespace Ops

/-- The cells of a square matrix of a compressed format are zero in pairs. -/
def ZeroSym (k : Kind) (n : Nat) (t : Nat → Nat → T) : Prop :=
  k = .dense ∨ k = .dvec ∨ ∀ i j, i < n → j < n → isZero (t i j) = isZero (t j i)

theorem live_loop {w : World T} {out : Ref} {bit : Nat → Nat → Bool} {n : Nat}
    {body : Nat → Nat → T → M T (Option Unit)}
    (hbody : ∀ r c v m' cn, r < n → c < n → Mat.Same m' (w.heap out) → body r c v (w.upd out m' cn) =
      if bit r c then .ok none (w.upd out m' cn) else (M.set out c r v >>= fun _ => pure none) (w.upd out m' cn)) :
    ∀ (g : Nat) (m : Mat T) (it : Mat.Iter) (rest : List (Nat × Nat × T)) (cn : Option Nat) (t : Nat → Nat → T),
      rest.length ≤ g → Mat.MapAt m it rest → Mat.Same m (w.heap out) → m.rows = n → m.cols = n →
      (∀ i j, i < n → j < n → m.val i j = t i j) → ZeroSym m.kind n t →
      (∀ e ∈ rest, m.kind = .dense ∨ m.kind = .dvec ∨ isZero e.2.2 = false) →
      ∃ x m' cn' k, loopIter out (some ()) body g it (w.upd out m cn) = .ok x (w.upd out m' cn') ∧
        m'.WF ∧ Mat.Same m' (w.heap out) ∧
        (∀ i j, i < n → j < n → m'.val i j = mirrorOn bit t ((placesOf rest).take k) i j) ∧
        (cn = none → cn' = none ∧ rest.length ≤ k) := by
  intro g
  induction g with
  | zero =>
    intro m it rest cn t hg h hsame hr hc hv hz hnz
    obtain rfl : rest = [] := List.length_eq_zero_iff.1 (by omega)
    refine ⟨none, m, cn, 0, ?_, h.wf, hsame, by simpa [placesOf, mirrorOn] using hv, fun e => ⟨e, by simp⟩⟩
    unfold loopIter; simp [h.nil]
  | succ g ih =>
    intro m it rest cn t hg h hsame hr hc hv hz hnz
    cases rest with
    | nil =>
      refine ⟨none, m, cn, 0, ?_, h.wf, hsame, by simpa [placesOf, mirrorOn] using hv, fun e => ⟨e, by simp⟩⟩
      unfold loopIter; simp [h.nil]
    | cons e rest =>
      obtain ⟨hn, it', h1, h2, h3, h4, h5, -⟩ := h.cons
      by_cases hcn : cn = some 0
      · refine ⟨some (), m, cn, 0, ?_, h.wf, hsame, by simpa [mirrorOn] using hv, fun e => by rw [hcn] at e; cases e⟩
        unfold loopIter
        simp only [hn, if_true]
        rw [bind_ok (poll_stop (by simpa using hcn))]
        rfl
      · have hstep : loopIter out (some ()) body (g + 1) it (w.upd out m cn) =
            (body e.1 e.2.1 e.2.2 >>= fun x => match x with
              | some b => pure (some b)
              | none => loopIter out (some ()) body g it') (w.upd out m (tick cn)) := by
          have hw : w.upd out m (tick cn) = { w.upd out m cn with cancel := tick (w.upd out m cn).cancel } := rfl
          rw [hw]
          conv => lhs; unfold loopIter
          simp only [hn, if_true]
          rw [bind_ok (poll_go (by simpa using hcn))]
          simp only [Bool.false_eq_true, if_false]
          rw [bind_ok (ofObj_ok (a := (it', e)) (by simpa [World.upd] using h1))]
          refine congrFun ?_ _
          congr 1
          funext x
          cases x <;> rfl
        rw [hr] at h3
        rw [hc] at h4
        have hb := hbody e.1 e.2.1 e.2.2 m (tick cn) h3 h4 hsame
        have hval : e.2.2 = t e.1 e.2.1 := by rw [← h5, hv _ _ h3 h4]
        by_cases hbit : bit e.1 e.2.1 = true
        · rw [if_pos hbit] at hb
          obtain ⟨x, m', cn', k, g1, g2, g3, g4, g5⟩ := ih m it' rest (tick cn) t (by simp at hg; omega) h2 hsame hr hc hv
            hz (fun e he => hnz e (List.mem_cons_of_mem _ he))
          refine ⟨x, m', cn', k + 1, ?_, g2, g3, ?_, ?_⟩
          · rw [hstep, bind_ok hb]; exact g1
          · intro i j hi hj
            rw [g4 i j hi hj]
            simp [placesOf, mirrorOn, hbit]
          · intro e0
            obtain ⟨a1, a2⟩ := g5 (by rw [e0]; rfl)
            exact ⟨a1, by simp; omega⟩
        · rw [if_neg hbit] at hb
          have hzero : m.kind = .dense ∨ m.kind = .dvec ∨ isZero (t e.2.1 e.1) = isZero e.2.2 := by
            rcases hz with hz | hz | hz
            · exact Or.inl hz
            · exact Or.inr (Or.inl hz)
            · exact Or.inr (Or.inr (by rw [hz _ _ h4 h3, hval]))
          have hz' : Mat.Keeps m.kind (m.val e.2.1 e.1) e.2.2 := by
            rw [hv _ _ h4 h3]
            unfold Mat.Keeps
            rcases hzero with hk | hk | hk
            · rw [hk]; trivial
            · rw [hk]; trivial
            · split <;> trivial
          have hkeep : m.keep e.2.2 = e.2.2 := by
            refine Mat.storable_keep ?_
            unfold Mat.Storable
            rcases hnz e (by simp) with hk | hk | hk
            · rw [hk]; trivial
            · rw [hk]; trivial
            · split <;> trivial
          obtain ⟨m1, rest1, s1, s2, s3, s4⟩ := h2.set_live (i := e.2.1) (j := e.1) (by rw [hr]; exact h4) (by rw [hc]; exact h3) hz'
          have hset : M.set out e.2.1 e.1 e.2.2 (w.upd out m (tick cn)) = .ok () (w.upd out m1 (tick cn)) := by
            unfold M.set
            rw [withObj_ok (a := ()) (m := m1) (by simp [s1]), World.upd_heap]
          rw [bind_ok hset] at hb
          have hl : rest1.length = rest.length := by simpa [placesOf] using congrArg List.length s3
          have hv1 : ∀ a b, a < n → b < n → m1.val a b = put2 t e.2.1 e.1 (t e.1 e.2.1) a b := by
            intro a b ha hb
            unfold put2
            split
            · rename_i he; obtain ⟨rfl, rfl⟩ := he
              rw [s4.hit, hkeep, hval]
            · rename_i he
              rw [s4.miss a b (by omega) (by omega) he, hv a b ha hb]
          have hz1 : ZeroSym m1.kind n (put2 t e.2.1 e.1 (t e.1 e.2.1)) := by
            unfold ZeroSym
            rw [s4.same.1]
            rcases hz with hz | hz | hz
            · exact Or.inl hz
            · exact Or.inr (Or.inl hz)
            · refine Or.inr (Or.inr ?_)
              have same : ∀ a b, isZero (put2 t e.2.1 e.1 (t e.1 e.2.1) a b) = isZero (t a b) := by
                intro a b
                unfold put2
                split
                · rename_i he; obtain ⟨rfl, rfl⟩ := he
                  exact hz _ _ h3 h4
                · rfl
              intro i j hi hj
              rw [same, same, hz i j hi hj]
          have hnz1 : ∀ e' ∈ rest1, m1.kind = .dense ∨ m1.kind = .dvec ∨ isZero e'.2.2 = false := by
            rw [s4.same.1]
            intro e' he'
            by_cases hk : m.kind = .dense ∨ m.kind = .dvec
            · rcases hk with hk | hk
              · exact Or.inl hk
              · exact Or.inr (Or.inl hk)
            · push Not at hk
              have hin : (e'.1, e'.2.1) ∈ placesOf rest := by
                rw [← s3]; exact List.mem_map_of_mem (f := fun e : Nat × Nat × T => (e.1, e.2.1)) he'
              obtain ⟨e'', he'', heq⟩ := List.mem_map.1 hin
              simp only [Prod.mk.injEq] at heq
              refine Or.inr (Or.inr ?_)
              have hold := hnz e'' (List.mem_cons_of_mem _ he'')
              rcases hold with hk' | hk' | hold
              · exact absurd hk' hk.1
              · exact absurd hk' hk.2
              · have v1 := s2.value e' he'
                have v2 := h2.value e'' he''
                rw [heq.1, heq.2] at v2
                by_cases hc2 : e'.1 = e.2.1 ∧ e'.2.1 = e.1
                · rw [hc2.1, hc2.2, s4.hit, hkeep] at v1
                  rw [← v1]
                  rcases hnz e (by simp) with hk' | hk' | h0
                  · exact absurd hk' hk.1
                  · exact absurd hk' hk.2
                  · exact h0
                · have hr'' := (h.wf)
                  have hrange : e'.1 < m.rows ∧ e'.2.1 < m.cols := by
                    have := s2.range e' he'
                    rw [s4.same.2.1, s4.same.2.2] at this
                    exact this
                  rw [s4.miss _ _ hrange.1 hrange.2 hc2, v2] at v1
                  rw [← v1]; exact hold
          obtain ⟨x, m', cn', k, g1, g2, g3, g4, g5⟩ := ih m1 it' rest1 (tick cn) _ (by simp at hg; omega) s2 (s4.same.trans hsame)
            (by rw [s4.same.2.1, hr]) (by rw [s4.same.2.2, hc]) hv1 hz1 hnz1
          refine ⟨x, m', cn', k + 1, ?_, g2, g3, ?_, ?_⟩
          · rw [hstep, bind_ok hb]; exact g1
          · intro i j hi hj
            rw [g4 i j hi hj, s3]
            simp [placesOf, mirrorOn, hbit]
          · intro e0
            obtain ⟨a1, a2⟩ := g5 (by rw [e0]; rfl)
            exact ⟨a1, by simp; omega⟩

/-- Which of two mirror cells a format enumerates first. -/
def firstOf : Kind → Nat → Nat → Bool
  | .csc => fun i j => decide (j < i)
  | _ => fun i j => decide (i < j)

theorem ordered {m : Mat T} (h : m.WF) {es : List (Nat × Nat × T)} (he : Mat.MapAt m m.iter es) :
    (placesOf es).Pairwise (fun a b => a ≠ b ∧
      (a = (b.2, b.1) → firstOf m.kind a.1 a.2 = true ∧ firstOf m.kind b.1 b.2 = false)) := by
  have row : RowMajor es → m.kind ≠ .csc → (placesOf es).Pairwise (fun a b => a ≠ b ∧
      (a = (b.2, b.1) → firstOf m.kind a.1 a.2 = true ∧ firstOf m.kind b.1 b.2 = false)) := by
    intro hr hk
    unfold placesOf
    rw [List.pairwise_map]
    refine List.Pairwise.imp ?_ hr
    intro a b hab
    have e : firstOf m.kind = fun i j => decide (i < j) := by
      cases hk' : m.kind <;> first | rfl | exact absurd hk' hk
    rw [e]
    simp only [Prod.mk.injEq, decide_eq_true_eq, decide_eq_false_iff_not, ne_eq]
    omega
  cases m with
  | csr s =>
    obtain ⟨rows, hr⟩ := h
    have hm : Mat.MapAt (.csr s) (Mat.csr s).iter (CSR.entriesFrom 0 rows) :=
      ⟨rows, 0, hr, hr.iter_init, by omega, by simp⟩
    rw [Yields.unique he.yields hm.yields] at row ⊢
    exact row hr.rowMajor (by simp [Mat.kind])
  | csc s =>
    obtain ⟨cols, hr⟩ := h
    have hm : Mat.MapAt (.csc s) (Mat.csc s).iter (CSC.entries cols) :=
      ⟨cols, 0, hr, CSC.Rep.iter_init hr, by omega, by simp⟩
    rw [Yields.unique he.yields hm.yields]
    have := CSC.Rep.colMajor hr
    unfold placesOf
    rw [List.pairwise_map]
    refine List.Pairwise.imp ?_ this
    intro a b hab
    have e : firstOf (Mat.csc s).kind = fun i j => decide (j < i) := rfl
    rw [e]
    simp only [Prod.mk.injEq, decide_eq_true_eq, decide_eq_false_iff_not, ne_eq]
    omega
  | dense s =>
    have hm : Mat.MapAt (.dense s) (Mat.dense s).iter s.entries := ⟨h, 0, Dense.iter_init s, by omega, by simp⟩
    rw [Yields.unique he.yields hm.yields] at row ⊢
    exact row (Dense.rowMajor s) (by simp [Mat.kind])
  | dvec s =>
    have hm : Mat.MapAt (.dvec s) (Mat.dvec s).iter s.entries := ⟨h, 0, DVec.iter_init s, by omega, by simp⟩
    rw [Yields.unique he.yields hm.yields] at row ⊢
    refine row ?_ (by simp [Mat.kind])
    unfold RowMajor DVec.entries
    rw [List.pairwise_map]
    exact List.pairwise_lt_range.imp (fun hab => Or.inl hab)
  | svec s =>
    obtain ⟨xs, hr, hp⟩ := h
    have hm : Mat.MapAt (.svec s) (Mat.svec s).iter (SVec.entries xs) :=
      ⟨xs, 0, hr, hp, rfl, by simp [SVec.iter, hr.values], by omega, by simp⟩
    rw [Yields.unique he.yields hm.yields] at row ⊢
    refine row ?_ (by simp [Mat.kind])
    unfold RowMajor SVec.entries
    rw [List.pairwise_map]
    exact hr.sorted.imp (fun hab => Or.inl hab)

theorem transpose_inplace_writes {w : World T} {s : Ref} {mask : Mask} (hs : (w.heap s).WF)
    (hsq : (w.heap s).rows = (w.heap s).cols) (hF : mask.Fits w s) (hS : mask.Sound w) (hmo : mask ≠ .ref s)
    (hgas : (w.heap s).nvalues ≤ w.gas) (hz : ZeroSym (w.heap s).kind (w.heap s).rows (w.heap s).val) :
    Writes w s (mirrored (mask.bit w) (firstOf (w.heap s).kind) (w.heap s).val) (Ops.transpose s mask s w) := by
  have hrun : Ops.transpose s mask s w = (forEach s (some ()) (fun r c value => do
      let e ← (mask.resolve w s).element r c
      if !e then M.set s c r value
      pure none) >>= fun _ => pure ()) w := by
    unfold Ops.transpose; rw [Mask.pre_ok hF]
  obtain ⟨es, h1, h2, h3, h4, h5, h6⟩ := Mat.visits hs
  have hel : ∀ r c m' cn, r < (w.heap s).rows → c < (w.heap s).rows → (mask.resolve w s).element r c (w.upd s m' cn) =
      .ok (mask.bit w r c) (w.upd s m' cn) := by
    intro r c m' cn hr hc
    cases mask with
    | nil => rfl
    | empty r c => rfl
    | given a b el =>
      obtain ⟨b, hb⟩ := hS r c (by rw [hF.1]; exact hr) (by rw [hF.2, ← hsq]; exact hc)
      simp only [Mask.resolve, Mask.element, Mask.bit, hb]
      rfl
    | ref p =>
      have hp : p ≠ s := fun h => hmo (by rw [h])
      have hS : (w.heap p).Inv := hS
      have e1 : (w.upd s m' cn).heap p = w.heap p := World.upd_ne _ _ _ hp
      simp only [Mask.resolve, Mask.element]
      rw [withObj_same (a := GoNum.glt 0 ((w.heap p).val r c))
        (by rw [e1]; exact hS.element_ok (by rw [hF.1]; exact hr) (by rw [hF.2, ← hsq]; exact hc))]
      simp [Mask.bit]
  let t : Nat → Nat → T := fun i j => if i < (w.heap s).rows ∧ j < (w.heap s).rows then (w.heap s).val i j else 0
  have ht : ∀ i j, i < (w.heap s).rows → j < (w.heap s).rows → t i j = (w.heap s).val i j :=
    fun i j hi hj => if_pos ⟨hi, hj⟩
  obtain ⟨x, m', cn', k, g1, g2, g3, g4, g5⟩ := live_loop (w := w) (out := s) (bit := mask.bit w) (n := (w.heap s).rows)
    (body := fun r c value => do
      let e ← (mask.resolve w s).element r c
      if !e then M.set s c r value
      pure none)
    (by
      intro r c v m' cn hr hc hsame
      rw [bind_ok (hel r c m' cn hr hc)]
      by_cases hb : mask.bit w r c = true
      · simp only [hb, Bool.not_true, if_true]; rfl
      · have hb' : mask.bit w r c = false := by simpa using hb
        simp only [hb', Bool.not_false, if_true, Bool.false_eq_true, if_false])
    w.gas (w.heap s) (w.heap s).iter es w.cancel t (by omega) h1 (Mat.Same.refl _) rfl hsq.symm
    (fun i j hi hj => (ht i j hi hj).symm)
    (by
      rcases hz with hz | hz | hz
      · exact Or.inl hz
      · exact Or.inr (Or.inl hz)
      · exact Or.inr (Or.inr (fun i j hi hj => by rw [ht i j hi hj, ht j i hj hi]; exact hz i j hi hj)))
    (by
      intro e he
      have := h6 e he
      unfold Mat.Storable at this
      cases hk : (w.heap s).kind <;> rw [hk] at this
      · exact Or.inr (Or.inr this)
      · exact Or.inr (Or.inr this)
      · exact Or.inl rfl
      · exact Or.inr (Or.inl rfl)
      · exact Or.inr (Or.inr this))
  rw [World.upd_self] at g1
  have hmem : ∀ i j, i < (w.heap s).rows → j < (w.heap s).rows → ((i, j) ∈ placesOf es ↔ (w.heap s).Visits i j) := by
    intro i j hi hj
    rw [← h4 i j hi (by rw [← hsq]; exact hj)]
    simp [placesOf, coord]
  have hrange : ∀ i j, (i, j) ∈ placesOf es → i < (w.heap s).rows ∧ j < (w.heap s).rows := by
    intro i j hij
    obtain ⟨e, he, hc⟩ := List.mem_map.1 hij
    simp only [Prod.mk.injEq] at hc
    have := h2.range e he
    rw [hc.1, hc.2, ← hsq] at this
    exact this
  have hsym : ∀ i j, (i, j) ∈ placesOf es → (j, i) ∈ placesOf es := by
    intro i j hij
    have hr := hrange i j hij
    refine (hmem j i hr.2 hr.1).2 ?_
    rcases hz with hz | hz | hz
    · exact Or.inl hz
    · exact Or.inr (Or.inl hz)
    · by_cases hk : (w.heap s).kind = .dense ∨ (w.heap s).kind = .dvec
      · rcases hk with hk | hk
        · exact Or.inl hk
        · exact Or.inr (Or.inl hk)
      · obtain ⟨e, he, hc⟩ := List.mem_map.1 hij
        simp only [Prod.mk.injEq] at hc
        have h0 : isZero ((w.heap s).val i j) = false := by
          have := h6 e he
          rw [← h2.value e he, hc.1, hc.2] at this
          unfold Mat.Storable at this
          cases hk' : (w.heap s).kind <;> rw [hk'] at this <;> first | exact this | (exfalso; apply hk; simp [hk'])
        rw [hz i j hr.1 hr.2] at h0
        refine Or.inr (Or.inr ?_)
        intro e0
        rw [e0, isZero_zero] at h0
        exact absurd h0 (by simp)
  have hout : ∀ i j, (i, j) ∉ placesOf es → t i j = t j i := by
    intro i j hij
    by_cases hr : i < (w.heap s).rows ∧ j < (w.heap s).rows
    · rw [ht i j hr.1 hr.2, ht j i hr.2 hr.1, Mat.not_visits (fun h => hij ((hmem i j hr.1 hr.2).2 h)),
        Mat.not_visits (fun h => hij (hsym j i ((hmem j i hr.2 hr.1).2 h)))]
    · have hr' : ¬ (j < (w.heap s).rows ∧ i < (w.heap s).rows) := fun h => hr ⟨h.2, h.1⟩
      simp only [t, if_neg hr, if_neg hr']
  have hmir : ∀ i j, i < (w.heap s).rows → j < (w.heap s).rows →
      mirrored (mask.bit w) (firstOf (w.heap s).kind) t i j =
        mirrored (mask.bit w) (firstOf (w.heap s).kind) (w.heap s).val i j := by
    intro i j hi hj
    unfold mirrored
    rw [ht i j hi hj, ht j i hj hi]
  have hlen : (placesOf es).length = es.length := by simp [placesOf]
  refine ⟨m', cn', ?_, g2, g3, ?_, ?_⟩
  · rw [hrun, bind_ok (by rw [forEach_eq]; exact g1)]; rfl
  · intro hc
    obtain ⟨a1, a2⟩ := g5 hc
    refine ⟨a1, fun i j hi hj => ?_⟩
    rw [g3.2.1] at hi
    rw [g3.2.2, ← hsq] at hj
    rw [g4 i j hi hj, (mirrorOn_prefix k (ordered hs h1) hsym hout i j).1 (by omega), hmir i j hi hj]
  · intro i j hi hj
    rw [g3.2.1] at hi
    rw [g3.2.2, ← hsq] at hj
    rw [g4 i j hi hj, ← hmir i j hi hj, ← ht i j hi hj]
    exact (mirrorOn_prefix k (ordered hs h1) hsym hout i j).2

/-! ## Any pattern -/

theorem _root_.GB.Mat.set_outside (m : Mat T) {i j : Nat} (v : T) (h : ¬ (i < m.rows ∧ j < m.cols)) :
    m.set i j v = .panic := by
  have h : ¬ (inRange (i : Int) m.rows = true ∧ inRange (j : Int) m.cols = true) := by
    rw [inRange_iff, inRange_iff]; omega
  cases m with
  | csr s => simp [Mat.set, CSR.set, CSR.update_panic _ _ _ _ h]
  | csc s => simp [Mat.set, CSC.set, CSC.update_panic _ _ _ _ h]
  | dense s => simp [Mat.set, Dense.set_panic _ _ _ _ h]
  | dvec s =>
    by_cases h1 : inRange i s.l = true
    · simp [Mat.set, DVec.set, h1, show inRange j 1 = false by simpa [Mat.rows, Mat.cols, h1] using h]
    · simp [Mat.set, DVec.set, h1]
  | svec s =>
    by_cases h1 : inRange i s.l = true
    · simp [Mat.set, SVec.set, h1, show inRange j 1 = false by simpa [Mat.rows, Mat.cols, h1] using h]
    · simp [Mat.set, SVec.set, h1]

theorem _root_.GB.CSR.Rep.step_nz {s : CSR T} {rows : List (List (Nat × T))} (h : CSR.Rep s rows) {it it' : CSR.Iter}
    {e : Nat × Nat × T} (he : s.step it = .ok (it', e)) : isZero e.2.2 = false := by
  unfold CSR.step at he
  cases h1 : s.next it with
  | panic => simp [h1] at he
  | hang => simp [h1] at he
  | ok it1 =>
    simp only [h1, Out.ok_bind] at he
    cases h3 : idx s.values it1.index with
    | panic => simp [h3] at he
    | hang => simp [h3] at he
    | ok v =>
      simp only [h3, Out.ok_bind] at he
      injection he with he
      injection he with he1 he2
      subst he2
      have hv : v ∈ s.values := by
        unfold idx at h3
        cases hg : s.values[it1.index]? with
        | none => rw [hg] at h3; simp at h3
        | some x =>
          rw [hg] at h3
          injection h3 with h3
          subst h3
          exact List.mem_of_getElem? hg
      rw [h.values] at hv
      obtain ⟨x, hx, rfl⟩ := List.mem_map.1 hv
      obtain ⟨row, hrow, hx⟩ := List.mem_flatten.1 hx
      exact h.nz row hrow x hx

theorem _root_.GB.Mat.step_nz {m : Mat T} (hw : m.WF) (hk : m.kind = .csr ∨ m.kind = .csc) {it it' : Mat.Iter}
    {e : Nat × Nat × T} (he : m.step it = .ok (it', e)) : isZero e.2.2 = false := by
  cases m <;> simp [Mat.kind] at hk <;> cases it <;> simp only [Mat.step] at he <;> try (simp at he; done)
  · rename_i s it
    obtain ⟨rows, hr⟩ := hw
    cases h1 : s.step it with
    | panic => simp [h1] at he
    | hang => simp [h1] at he
    | ok x =>
      simp only [h1, Out.ok_bind] at he
      injection he with he; injection he with h h'; subst h'
      exact hr.step_nz (it' := x.1) (e := x.2) h1
  · rename_i s it
    obtain ⟨rows, hr⟩ := hw
    rw [CSC.step_eq] at he
    cases h1 : (CSC.mir s).step (CSC.mirIt it) with
    | panic => simp [h1] at he
    | hang => simp [h1] at he
    | ok x =>
      simp only [h1, Out.map_ok, Out.ok_bind] at he
      injection he with he; injection he with h h'; subst h'
      exact CSR.Rep.step_nz hr (it' := x.1) (e := x.2) h1

/-- The loop of an unmasked `Transpose` in a compressed format, wherever the iterator stands: no entry is ever removed. -/
theorem live_grows {w : World T} {out : Ref} : ∀ (g : Nat) (m : Mat T) (it : Mat.Iter) (cn : Option Nat) (x : Option Unit)
    (w' : World T), m.WF → m.kind = .csr ∨ m.kind = .csc →
    loopIter out (some ()) (fun r c v => M.set out c r v >>= fun _ => pure none) g it (w.upd out m cn) = .ok x w' →
    ∃ m' cn', w' = w.upd out m' cn' ∧ Mat.Same m' m ∧
      ∀ i j, i < m.rows → j < m.cols → isZero (m.val i j) = false → isZero (m'.val i j) = false := by
  intro g
  induction g with
  | zero =>
    intro m it cn x w' hw hk he
    unfold loopIter at he
    cases hn : it.hasNext with
    | true => rw [hn] at he; simp at he
    | false =>
      rw [hn] at he
      injection he with h1 h2
      exact ⟨m, cn, h2.symm, Mat.Same.refl _, fun _ _ _ _ h => h⟩
  | succ g ih =>
    intro m it cn x w' hw hk he
    unfold loopIter at he
    cases hn : it.hasNext with
    | false =>
      simp only [hn, Bool.false_eq_true, if_false] at he
      injection he with h1 h2
      exact ⟨m, cn, h2.symm, Mat.Same.refl _, fun _ _ _ _ h => h⟩
    | true =>
    simp only [hn, if_true] at he
    by_cases hcn : cn = some 0
    · rw [bind_ok (poll_stop (by simpa using hcn))] at he
      simp only [if_true] at he
      injection he with h1 h2
      exact ⟨m, cn, h2.symm, Mat.Same.refl _, fun _ _ _ _ h => h⟩
    · rw [bind_ok (poll_go (by simpa using hcn))] at he
      simp only [Bool.false_eq_true, if_false] at he
      have hw0 : ({ w.upd out m cn with cancel := tick (w.upd out m cn).cancel } : World T) = w.upd out m (tick cn) := rfl
      simp only [hw0] at he
      cases hs : m.step it with
      | panic =>
        rw [bind_panic (w' := w.upd out m (tick cn)) (by unfold ofObj; simp [hs])] at he
        simp at he
      | hang =>
        rw [bind_apply, show ofObj out (fun m => m.step it) (w.upd out m (tick cn)) = .hang (w.upd out m (tick cn)) by
          unfold ofObj; simp [hs]] at he
        simp at he
      | ok y =>
        obtain ⟨it', e⟩ := y
        rw [bind_ok (ofObj_ok (a := (it', e)) (by simpa [World.upd] using hs))] at he
        by_cases hin : e.2.1 < m.rows ∧ e.1 < m.cols
        · obtain ⟨m1, s1, s2⟩ := Mat.set_ok hw (by rcases hk with hk | hk <;> simp [hk]) hin.1 hin.2 e.2.2
          have hset : M.set out e.2.1 e.1 e.2.2 (w.upd out m (tick cn)) = .ok () (w.upd out m1 (tick cn)) := by
            unfold M.set
            rw [withObj_ok (a := ()) (m := m1) (by simp [s1]), World.upd_heap]
          rw [bind_ok (a := none) (w' := w.upd out m1 (tick cn)) (by
            show (M.set out e.2.1 e.1 e.2.2 >>= fun _ => pure none) _ = _
            rw [bind_ok hset]; rfl)] at he
          obtain ⟨m', cn', p1, p2, p3⟩ := ih m1 it' (tick cn) x w' s2.wf (by rw [s2.same.1]; exact hk) he
          refine ⟨m', cn', p1, p2.trans s2.same, ?_⟩
          intro i j hi hj hz
          refine p3 i j (by rw [s2.same.2.1]; exact hi) (by rw [s2.same.2.2]; exact hj) ?_
          by_cases hc : i = e.2.1 ∧ j = e.1
          · rw [hc.1, hc.2, s2.hit, Mat.storable_keep]
            · exact Mat.step_nz hw hk hs
            · unfold Mat.Storable
              have := Mat.step_nz hw hk hs
              split <;> trivial
          · rw [s2.miss i j hi hj hc]; exact hz
        · rw [bind_panic (w' := w.upd out m (tick cn)) (by
            show (M.set out e.2.1 e.1 e.2.2 >>= fun _ => pure none) _ = _
            refine bind_panic ?_
            unfold M.set withObj
            simp [Mat.set_outside m e.2.2 hin])] at he
          simp at he

/-- The loop of an unmasked `Transpose` over a dense format when some cell to come has its mirror cell outside. -/
theorem live_panics {w : World T} {out : Ref} : ∀ (g : Nat) (m : Mat T) (it : Mat.Iter) (rest : List (Nat × Nat × T)),
    rest.length ≤ g → Mat.MapAt m it rest → m.kind = .dense ∨ m.kind = .dvec →
    (∃ e ∈ rest, ¬ (e.2.1 < m.rows ∧ e.1 < m.cols)) →
    ∃ m', loopIter out (some ()) (fun r c v => M.set out c r v >>= fun _ => pure none) g it (w.upd out m none) =
      .panic (w.upd out m' none) := by
  intro g
  induction g with
  | zero =>
    intro m it rest hg h hk hbad
    obtain rfl : rest = [] := List.length_eq_zero_iff.1 (by omega)
    obtain ⟨e, he, -⟩ := hbad
    simp at he
  | succ g ih =>
    intro m it rest hg h hk hbad
    cases rest with
    | nil => obtain ⟨e, he, -⟩ := hbad; simp at he
    | cons e rest =>
      obtain ⟨hn, it', h1, h2, h3, h4, h5, -⟩ := h.cons
      have hstep : ∀ {r}, (M.set out e.2.1 e.1 e.2.2 >>= fun _ => loopIter out (some ())
            (fun r c v => M.set out c r v >>= fun _ => pure none) g it') (w.upd out m none) = r →
          loopIter out (some ()) (fun r c v => M.set out c r v >>= fun _ => pure none) (g + 1) it (w.upd out m none) = r := by
        intro r hr
        rw [← hr]
        conv => lhs; unfold loopIter
        simp only [hn, if_true]
        rw [bind_ok (poll_go (by simp))]
        simp only [Bool.false_eq_true, if_false]
        have hw0 : ({ w.upd out m none with cancel := tick (w.upd out m none).cancel } : World T) = w.upd out m none := rfl
        simp only [hw0]
        rw [bind_ok (ofObj_ok (a := (it', e)) (by simpa [World.upd] using h1))]
        rw [bind_apply, bind_apply, bind_apply]
        cases M.set out e.2.1 e.1 e.2.2 (w.upd out m none) <;> rfl
      by_cases hin : e.2.1 < m.rows ∧ e.1 < m.cols
      · obtain ⟨m1, rest1, s1, s2, s3, s4⟩ := h2.set_live (i := e.2.1) (j := e.1) (v := e.2.2) hin.1 hin.2 (by
          unfold Mat.Keeps; rcases hk with hk | hk <;> rw [hk] <;> trivial)
        have hset : M.set out e.2.1 e.1 e.2.2 (w.upd out m none) = .ok () (w.upd out m1 none) := by
          unfold M.set
          rw [withObj_ok (a := ()) (m := m1) (by simp [s1]), World.upd_heap]
        have hl : rest1.length = rest.length := by simpa [placesOf] using congrArg List.length s3
        obtain ⟨m', hm'⟩ := ih m1 it' rest1 (by simp at hg; omega) s2 (by rw [s4.same.1]; exact hk) (by
          obtain ⟨x, hx, hb⟩ := hbad
          rcases List.mem_cons.1 hx with rfl | hx
          · exact absurd hin hb
          · have hp : (x.1, x.2.1) ∈ placesOf rest1 := by
              rw [s3]; exact List.mem_map_of_mem (f := fun e : Nat × Nat × T => (e.1, e.2.1)) hx
            obtain ⟨y, hy, hxy⟩ := List.mem_map.1 hp
            simp only [Prod.mk.injEq] at hxy
            refine ⟨y, hy, ?_⟩
            rw [hxy.1, hxy.2, s4.same.2.1, s4.same.2.2]
            exact hb)
        exact ⟨m', hstep (by rw [bind_ok hset]; exact hm')⟩
      · refine ⟨m, hstep (bind_panic ?_)⟩
        unfold M.set withObj
        simp [Mat.set_outside m e.2.2 hin]

/-- `Transpose` without a mask is its loop. -/
theorem transpose_nil (s out : Ref) (w : World T) : Ops.transpose s .nil out w =
    (forEach s (some ()) (fun r c v => M.set out c r v >>= fun _ => pure none) >>= fun _ => pure ()) w := by
  unfold Ops.transpose
  rw [Mask.pre_ok (mask := .nil) trivial]
  rfl

end Ops
end GB
