import Verif.SpecRace
import Verif.Lemmas.Mutex3

/-!
# Which places the accesses of a call write and read
-/

namespace GB
namespace Mutex

set_option linter.unusedSectionVars false

section
variable {S R : Type}

/-- The accesses the call makes while the state stays `s`. -/
def Prog.trace : Prog S R → S → List ((S → S) × (S → Prog S R))
  | .done _, _ => []
  | .act f k, s => (f, k) :: (k s).trace s

/-- Every access, whatever the states in between. -/
def Prog.All (Q : (S → S) → (S → Prog S R) → Prop) : Prog S R → Prop
  | .done _ => True
  | .act f k => Q f k ∧ ∀ s, (k s).All Q

end

variable {T : Type} [GoNum T]

/-! ## Places -/

theorem look_swap (m : Mat T) (l : Loc) : (swap m).look l = m.look l := by
  cases m <;> rfl

theorem same_swap {s m : Mat T} (h : Mat.Same s m) : Mat.Same (swap s) (swap m) := by
  obtain ⟨h1, h2, h3⟩ := h
  cases s <;> cases m <;> simp only [Mat.kind, reduceCtorEq] at h1 <;>
    first
    | exact ⟨rfl, h3, h2⟩
    | exact ⟨rfl, h2, h3⟩

theorem agree_swap {l : Loc} {s s' : Mat T} (h : Mat.AgreeOff l s s') : Mat.AgreeOff l (swap s) (swap s') := by
  intro l' hl x hx y hy
  rw [look_swap] at hx hy
  exact h l' hl x hx y hy

theorem puts_swap {m : Mat T} {f : Mat T → Mat T} {l : Loc} (h : Puts m (fun s => swap (f (swap s))) l) :
    Puts (swap m) f l := by
  obtain ⟨s, hs, x, h1, h2⟩ := h
  rw [look_swap] at h1
  exact ⟨swap s, same_swap hs, x, h1, by rw [look_swap]; exact h2⟩

theorem puts_swap' {m : Mat T} {f : Mat T → Mat T} {l : Loc} (h : Puts (swap m) f l) :
    Puts m (fun s => swap (f (swap s))) l := by
  refine puts_swap (f := fun s => swap (f (swap s))) (m := swap m) ?_ |> fun h' => by rwa [swap_swap] at h'
  simpa using h

theorem PutsNow.puts {m : Mat T} {f : Mat T → Mat T} {l : Loc} (h : PutsNow m f l) : Puts m f l := by
  obtain ⟨s, h1, -, h2⟩ := h
  exact ⟨s, h1, h2⟩

theorem TakesNow.takes {R : Type} {m : Mat T} {f : Mat T → Mat T} {k : Mat T → Prog (Mat T) R} {l : Loc}
    (h : TakesNow m f k l) : Takes m f k l := by
  obtain ⟨s, s', h1, h2, -, -, h3⟩ := h
  exact ⟨s, s', h1, h2, h3⟩

theorem putsNow_swap {m : Mat T} {f : Mat T → Mat T} {l : Loc} (h : PutsNow (swap m) f l) :
    PutsNow m (fun s => swap (f (swap s))) l := by
  obtain ⟨s, hs, ha, x, h1, h2⟩ := h
  refine ⟨swap s, ?_, ?_, x, ?_, ?_⟩
  · have := same_swap hs
    rwa [swap_swap] at this
  · have := agree_swap ha
    rwa [swap_swap] at this
  · dsimp only
    rw [look_swap, swap_swap]; exact h1
  · rw [look_swap]; exact h2

theorem takes_swap {R : Type} {m : Mat T} {f : Mat T → Mat T} {k : Mat T → Prog (Mat T) R} {l : Loc}
    (h : Takes m (fun s => swap (f (swap s))) (fun s => (k (swap s)).conj) l) : Takes (swap m) f k l := by
  obtain ⟨s, s', h1, h2, h3, h4⟩ := h
  refine ⟨swap s, swap s', same_swap h1, same_swap h2, agree_swap h3, ?_⟩
  rcases h4 with h4 | h4
  · exact .inl fun e => h4 (by dsimp only; rw [e])
  · exact .inr fun e => h4 (agree_swap e)

theorem puts_id {m : Mat T} {l : Loc} {f : Mat T → Mat T} (hf : ∀ s, Mat.Same s m → f s = s) : ¬ Puts m f l := by
  rintro ⟨s, hs, x, h1, h2⟩
  rw [hf s hs] at h1
  exact h2 h1

theorem takes_id {R : Type} {m : Mat T} {l : Loc} {f : Mat T → Mat T} {k : Mat T → Prog (Mat T) R}
    (hf : ∀ s, Mat.Same s m → f s = s)
    (hk : ∀ s s', Mat.Same s m → Mat.Same s' m → Mat.AgreeOff l s s' → k s = k s') : ¬ Takes m f k l := by
  rintro ⟨s, s', h1, h2, h3, h4⟩
  rcases h4 with h4 | h4
  · exact h4 (hk s s' h1 h2 h3)
  · rw [hf s h1, hf s' h2] at h4
    exact h4 h3

theorem list_ext_of {α β : Type} (g : α → β) (hg : Function.Injective g) {a b : List α}
    (hl : a.length = b.length) (h : ∀ i : Nat, ∀ x ∈ (a.map g)[i]?, ∀ y ∈ (b.map g)[i]?, x = y) : a = b := by
  refine List.ext_getElem hl fun i h1 h2 => hg ?_
  exact h i _ (by simp [h1]) _ (by simp [h2])

/-- Matrices of one type and dimensions that agree but for an element of `values` have the same structure. -/
theorem agree_csr {p : Nat} {s s' : CSR T} (h : Mat.AgreeOff (.elem 2 p) (.csr s) (.csr s')) :
    s.rowStart = s'.rowStart ∧ s.cols = s'.cols ∧ s.values.length = s'.values.length ∧
    ∀ q, q ≠ p → s.values[q]? = s'.values[q]? := by
  have l0 := h (.len 0) (by simp) _ rfl _ rfl
  have l1 := h (.len 1) (by simp) _ rfl _ rfl
  have l2 := h (.len 2) (by simp) _ rfl _ rfl
  simp only [List.length_map, Sum.inl.injEq] at l0 l1 l2
  refine ⟨list_ext_of _ Sum.inl_injective l0 fun i x hx y hy => h (.elem 0 i) (by simp) x hx y hy,
    list_ext_of _ Sum.inl_injective l1 fun i x hx y hy => h (.elem 1 i) (by simp) x hx y hy, l2, fun q hq => ?_⟩
  by_cases h1 : q < s.values.length
  · have h2 : q < s'.values.length := by omega
    have := h (.elem 2 q) (by simpa using hq) (.inr s.values[q]) (by simp [Mat.look, Mat.arrays, h1])
      (.inr s'.values[q]) (by simp [Mat.look, Mat.arrays, h2])
    simp only [Sum.inr.injEq] at this
    simp [h1, h2, this]
  · rw [List.getElem?_eq_none (by omega), List.getElem?_eq_none (by omega)]

/-! ## The accesses of `At` and `Element` on a CSR matrix -/

/-- Place `p` of `values` is the one of the cell `(r, c)`, which is not 0. -/
structure CellAt (s : CSR T) (r c : Int) (p : Nat) : Prop where
  row : inRange r s.r = true
  col : inRange c s.c = true
  lo : ∃ a, s.rowStart[r.toNat]? = some a ∧ a ≤ p
  hi : ∃ b, s.rowStart[r.toNat + 1]? = some b ∧ p < b
  here : s.cols[p]? = some c.toNat
  nz : isZero ((Mat.csr s).val r.toNat c.toNat) = false

/-- The access writes nothing but the value of a non-zero cell, and reads no other value; `P`: the places of the
cell in `values`. -/
def Mild {R : Type} (m : Mat T) (P : Nat → Prop) (x : (Mat T → Mat T) × (Mat T → Prog (Mat T) R)) : Prop :=
  (∀ l, Puts m x.1 l → ∃ p, l = .elem 2 p ∧ P p) ∧ ∀ p, Takes m x.1 x.2 (.elem 2 p) → P p

theorem Mild.conj {R : Type} {m : Mat T} {P : Nat → Prop} {f : Mat T → Mat T} {k : Mat T → Prog (Mat T) R}
    (h : Mild (swap m) P (f, k)) : Mild m P (fun s => swap (f (swap s)), fun s => (k (swap s)).conj) :=
  ⟨fun l hl => h.1 l (puts_swap hl), fun p hp => h.2 p (takes_swap hp)⟩

theorem same_csr {s : Mat T} {m : CSR T} (h : Mat.Same s (.csr m)) : ∃ s', s = .csr s' ∧ s'.r = m.r ∧ s'.c = m.c := by
  obtain ⟨h1, h2, h3⟩ := h
  cases s <;> simp only [Mat.kind, reduceCtorEq] at h1
  exact ⟨_, rfl, h2, h3⟩

/-- A read of the structure. -/
theorem rdCSR_mild {α : Type} {get : CSR T → Out α} {k : α → Prog (Mat T) (Out (Val T))} {m : CSR T} {P : Nat → Prop}
    (hg : ∀ s s' : CSR T, s.r = s'.r → s.c = s'.c → s.rowStart = s'.rowStart → s.cols = s'.cols → get s = get s')
    {f : Mat T → Mat T} {k' : Mat T → Prog (Mat T) (Out (Val T))} (he : rdCSR get k = .act f k') :
    Mild (.csr m) P (f, k') := by
  cases he
  refine ⟨fun l hl => absurd hl (puts_id fun _ _ => rfl), fun p hp => absurd hp (takes_id (fun _ _ => rfl) ?_)⟩
  intro s s' h1 h2 h3
  obtain ⟨s, rfl, a1, a2⟩ := same_csr h1
  obtain ⟨s', rfl, b1, b2⟩ := same_csr h2
  obtain ⟨e1, e2, -⟩ := agree_csr h3
  simp only [hg s s' (by rw [a1, b1]) (by rw [a2, b2]) e1 e2]

/-- The read of a value. -/
theorem rdVal_mild {k : T → Prog (Mat T) (Out (Val T))} {m : CSR T} {P : Nat → Prop} {q : Nat} (hq : P q)
    {f : Mat T → Mat T} {k' : Mat T → Prog (Mat T) (Out (Val T))}
    (he : rdCSR (fun m => idx m.values q) k = .act f k') : Mild (.csr m) P (f, k') := by
  cases he
  refine ⟨fun l hl => absurd hl (puts_id fun _ _ => rfl), fun p hp => ?_⟩
  by_cases e : q = p
  · exact e ▸ hq
  · refine absurd hp (takes_id (fun _ _ => rfl) ?_)
    intro s s' h1 h2 h3
    obtain ⟨s, rfl, a1, a2⟩ := same_csr h1
    obtain ⟨s', rfl, b1, b2⟩ := same_csr h2
    obtain ⟨-, -, -, e2⟩ := agree_csr h3
    simp only [idx, e2 q e]

/-- The write of a value. -/
theorem wrVal_mild {k : Prog (Mat T) (Out (Val T))} {m : CSR T} {P : Nat → Prop} {q : Nat} {v : T} (hq : P q)
    {f : Mat T → Mat T} {k' : Mat T → Prog (Mat T) (Out (Val T))}
    (he : wrCSR (fun m => do let l ← setIdx m.values q v; .ok { m with values := l }) k = .act f k') :
    Mild (.csr m) P (f, k') := by
  cases he
  refine ⟨fun l hl => ?_, fun p hp => ?_⟩
  · obtain ⟨s, h1, x, h2, h3⟩ := hl
    obtain ⟨s, rfl, a1, a2⟩ := same_csr h1
    by_cases hs : q < s.values.length
    · simp only [setIdx, hs, if_true, Out.ok_bind] at h2
      refine ⟨q, ?_, hq⟩
      by_contra hl
      apply h3
      rw [← h2]
      match l with
      | .slices => rfl
      | .len 0 => rfl
      | .len 1 => rfl
      | .len 2 => simp [Mat.look, Mat.arrays]
      | .len (a + 3) => rfl
      | .elem 0 i => rfl
      | .elem 1 i => rfl
      | .elem 2 i =>
        have : q ≠ i := fun e => hl (by rw [e])
        simp [Mat.look, Mat.arrays, this]
      | .elem (a + 3) i => rfl
    · simp only [setIdx, hs, if_false] at h2
      exact absurd h2 h3
  · by_contra hP
    obtain ⟨s, s', h1, h2, h3, h4⟩ := hp
    obtain ⟨s, rfl, a1, a2⟩ := same_csr h1
    obtain ⟨s', rfl, b1, b2⟩ := same_csr h2
    obtain ⟨e1, e2, e3, e4⟩ := agree_csr h3
    by_cases hs : q < s.values.length
    · have hs' : q < s'.values.length := by omega
      simp only [setIdx, hs, hs', if_true, Out.ok_bind, not_true_eq_false, ne_eq, false_or] at h4
      refine h4 fun l' hl x hx y hy => ?_
      match l' with
      | .slices => cases hx; cases hy; rfl
      | .len 0 => cases hx; cases hy; simp [e1]
      | .len 1 => cases hx; cases hy; simp [e2]
      | .len 2 => cases hx; cases hy; simp [e3]
      | .len (a + 3) => cases hx
      | .elem 0 i => exact h3 (.elem 0 i) (by simp) x hx y hy
      | .elem 1 i => exact h3 (.elem 1 i) (by simp) x hx y hy
      | .elem 2 i =>
        by_cases hi : q = i
        · subst hi
          simp [Mat.look, Mat.arrays, hs, hs'] at hx hy
          rw [← hx, ← hy]
        · simp only [Mat.look, Mat.arrays, List.getElem?_cons_succ, List.getElem?_cons_zero, Option.bind_some,
            List.getElem?_map, List.getElem?_set, hi, if_false] at hx hy
          exact h3 (.elem 2 i) hl x (by simpa [Mat.look, Mat.arrays] using hx) y (by simpa [Mat.look, Mat.arrays] using hy)
      | .elem (a + 3) i => cases hx
    · have hs' : ¬ q < s'.values.length := by omega
      simp only [setIdx, hs, hs', if_false] at h4
      rcases h4 with h4 | h4
      · exact h4 rfl
      · exact h4 h3

/-! ## Traces -/

theorem rdCSR_trace {α : Type} {get : CSR T → Out α} {k : α → Prog (Mat T) (Out (Val T))} {s : CSR T} {a : α}
    (h : get s = .ok a) : ∃ f k', rdCSR get k = .act f k' ∧
      (rdCSR get k).trace (.csr s) = (f, k') :: (k a).trace (.csr s) := by
  refine ⟨_, _, rfl, ?_⟩
  simp only [rdCSR, Prog.trace, h]

theorem searchProg_trace (c : Nat) (k : Nat → Nat → Prog (Mat T) (Out (Val T))) (s : CSR T) (P : Nat → Prop) :
    ∀ (fuel a b : Nat) (x : Nat × Nat), CSR.search s.cols c fuel a b = .ok x →
    ∃ l, (∀ y ∈ l, Mild (.csr s) P y) ∧
      (searchProg c k fuel a b).trace (.csr s) = l ++ (k x.1 x.2).trace (.csr s) := by
  intro fuel
  induction fuel with
  | zero =>
    intro a b x h
    unfold CSR.search at h
    unfold searchProg
    by_cases hab : a < b
    · rw [if_pos hab] at h; cases h
    · rw [if_neg hab] at h ⊢
      simp only [Out.ok.injEq] at h
      subst h; exact ⟨[], by simp, rfl⟩
  | succ fuel ih =>
    intro a b x h
    unfold CSR.search at h
    unfold searchProg
    by_cases hab : a < b
    · rw [if_pos hab] at h ⊢
      obtain ⟨y, h1, h⟩ := ok_of_bind h
      obtain ⟨f, k', e1, e2⟩ := rdCSR_trace (k := fun x =>
        if x > c then searchProg c k fuel a ((a + b) / 2)
        else if x < c then searchProg c k fuel ((a + b) / 2 + 1) b
        else k ((a + b) / 2) b) (get := fun m => idx m.cols ((a + b) / 2)) h1
      have hm : Mild (.csr s) P (f, k') := rdCSR_mild (fun s s' _ _ _ h => by rw [h]) e1
      rw [e2]
      split at h
      · rename_i hc
        obtain ⟨l, g1, g2⟩ := ih _ _ _ h
        exact ⟨(f, k') :: l, List.forall_mem_cons.2 ⟨hm, g1⟩, by rw [if_pos hc, g2]; rfl⟩
      · rename_i hc
        split at h
        · rename_i hc'
          obtain ⟨l, g1, g2⟩ := ih _ _ _ h
          exact ⟨(f, k') :: l, List.forall_mem_cons.2 ⟨hm, g1⟩, by rw [if_neg hc, if_pos hc', g2]; rfl⟩
        · rename_i hc'
          simp only [Out.ok.injEq] at h
          subst h
          exact ⟨[(f, k')], by simpa using hm, by rw [if_neg hc, if_neg hc']; rfl⟩
    · rw [if_neg hab] at h ⊢
      simp only [Out.ok.injEq] at h
      subst h; exact ⟨[], by simp, rfl⟩

theorem indexProg_trace {s : CSR T} {r c : Nat} {x : Nat × Nat} (k : Nat → Nat → Prog (Mat T) (Out (Val T)))
    (P : Nat → Prop) (h : s.columnIndex r c = .ok x) :
    ∃ l, (∀ y ∈ l, Mild (.csr s) P y) ∧
      (indexProg r c k).trace (.csr s) = l ++ (k x.1 x.2).trace (.csr s) := by
  unfold CSR.columnIndex at h
  unfold indexProg
  obtain ⟨start, h1, h⟩ := ok_of_bind h
  obtain ⟨stop, h2, h⟩ := ok_of_bind h
  obtain ⟨f1, k1, e1, t1⟩ := rdCSR_trace (k := fun start => rdCSR (fun m => idx m.rowStart (r + 1)) fun stop =>
    if start = stop then k start stop
    else rdCSR (fun m => idxPred m.cols stop) fun last =>
      if c > last then k stop stop
      else searchProg c k (stop - start) start stop) (get := fun m => idx m.rowStart r) h1
  obtain ⟨f2, k2, e2, t2⟩ := rdCSR_trace (k := fun stop =>
    if start = stop then k start stop
    else rdCSR (fun m => idxPred m.cols stop) fun last =>
      if c > last then k stop stop
      else searchProg c k (stop - start) start stop) (get := fun m => idx m.rowStart (r + 1)) h2
  have m1 : Mild (.csr s) P (f1, k1) := rdCSR_mild (fun s s' _ _ h _ => by rw [h]) e1
  have m2 : Mild (.csr s) P (f2, k2) := rdCSR_mild (fun s s' _ _ h _ => by rw [h]) e2
  rw [t1, t2]
  by_cases he : start = stop
  · rw [if_pos he] at h ⊢
    simp only [Out.ok.injEq] at h
    subst h
    exact ⟨[(f1, k1), (f2, k2)], by simpa using ⟨m1, m2⟩, rfl⟩
  · rw [if_neg he] at h ⊢
    obtain ⟨last, h3, h⟩ := ok_of_bind h
    obtain ⟨f3, k3, e3, t3⟩ := rdCSR_trace (k := fun last =>
      if c > last then k stop stop
      else searchProg c k (stop - start) start stop) (get := fun m => idxPred m.cols stop) h3
    have m3 : Mild (.csr s) P (f3, k3) := rdCSR_mild (fun s s' _ _ _ h => by rw [h]) e3
    rw [t3]
    by_cases hc : c > last
    · rw [if_pos hc] at h ⊢
      simp only [Out.ok.injEq] at h
      subst h
      exact ⟨[(f1, k1), (f2, k2), (f3, k3)], by simpa using ⟨m1, m2, m3⟩, rfl⟩
    · rw [if_neg hc] at h ⊢
      obtain ⟨l, g1, g2⟩ := searchProg_trace c k s P _ _ _ _ h
      refine ⟨(f1, k1) :: (f2, k2) :: (f3, k3) :: l, List.forall_mem_cons.2 ⟨m1, List.forall_mem_cons.2 ⟨m2, List.forall_mem_cons.2 ⟨m3, g1⟩⟩⟩, by rw [g2]; rfl⟩

/-- The access that writes back the value `v` at place `p`. -/
def IsStore (p : Nat) (v : T) (x : (Mat T → Mat T) × (Mat T → Prog (Mat T) (Out (Val T)))) : Prop :=
  ∃ k, wrCSR (fun m => do let l ← setIdx m.values p v; .ok { m with values := l }) k = .act x.1 x.2

theorem storeProg_trace {β : Type} {s : CSR T} {r c pStart pEnd : Nat} {f : T → β × T} {val : β → Val T} {found : Bool}
    {P : Nat → Prop} (hf : ∀ v, (f v).2 = v) (h0 : isZero (0 : T) = true)
    (hh : s.hit pStart pEnd c = .ok found)
    (hs : found = true → P pStart ∧ ∃ old, idx s.values pStart = .ok old ∧ isZero old = false) :
    (∀ y ∈ (storeProg s.r r c f val pStart pEnd).trace (.csr s), Mild (.csr s) P y) ∧
    (found = true → ∃ v, isZero v = false ∧
      ∃ y ∈ (storeProg s.r r c f val pStart pEnd).trace (.csr s), IsStore pStart v y) := by
  have miss : (insertProg s.r pStart r c (f 0).2 (.done (.ok (val (f 0).1)))).trace (.csr s) = [] := by
    unfold insertProg
    rw [hf, if_pos h0]
    rfl
  unfold storeProg
  dsimp only
  unfold CSR.hit at hh
  by_cases hp : pStart < pEnd
  · rw [if_pos hp] at hh ⊢
    obtain ⟨x, h1, h2⟩ := ok_of_bind hh
    simp only [Out.ok.injEq] at h2
    subst h2
    obtain ⟨f1, k1, e1, t1⟩ := rdCSR_trace (k := fun x =>
      if x = c then
        rdCSR (fun m => idx m.values pStart) fun old =>
          if isZero (f old).2 then removeProg s.r pStart r (.done (.ok (val (f old).1)))
          else wrCSR (fun m => do let l ← setIdx m.values pStart (f old).2; .ok { m with values := l })
            (.done (.ok (val (f old).1)))
      else insertProg s.r pStart r c (f 0).2 (.done (.ok (val (f 0).1)))) (get := fun m => idx m.cols pStart) h1
    have m1 : Mild (.csr s) P (f1, k1) := rdCSR_mild (fun s s' _ _ _ h => by rw [h]) e1
    rw [t1]
    by_cases hx : x = c
    · rw [if_pos hx]
      obtain ⟨hP, old, h3, h4⟩ := hs (by simpa using hx)
      obtain ⟨f2, k2, e2, t2⟩ := rdCSR_trace (k := fun old =>
          if isZero (f old).2 then removeProg s.r pStart r (.done (.ok (val (f old).1)))
          else wrCSR (fun m => do let l ← setIdx m.values pStart (f old).2; .ok { m with values := l })
            (.done (.ok (val (f old).1)))) (get := fun m => idx m.values pStart) h3
      rw [t2, hf, if_neg (by rw [h4]; simp)]
      have hlt : pStart < s.values.length := by
        by_contra hn
        simp [idx, List.getElem?_eq_none (Nat.le_of_not_lt hn)] at h3
      have t3 : ∃ f3 k3, wrCSR (fun m => do let l ← setIdx m.values pStart old; .ok { m with values := l })
          (.done (.ok (val (f old).1)) : Prog (Mat T) (Out (Val T))) = .act f3 k3 ∧
          (wrCSR (fun m => do let l ← setIdx m.values pStart old; .ok { m with values := l })
            (.done (.ok (val (f old).1)) : Prog (Mat T) (Out (Val T)))).trace (.csr s) = [(f3, k3)] := by
        refine ⟨_, _, rfl, ?_⟩
        simp only [wrCSR, Prog.trace, setIdx, hlt, if_true, Out.ok_bind]
      obtain ⟨f3, k3, e3, t3⟩ := t3
      rw [t3]
      refine ⟨?_, fun _ => ⟨old, h4, (f3, k3), by simp, _, e3⟩⟩
      exact List.forall_mem_cons.2 ⟨m1, List.forall_mem_cons.2 ⟨rdVal_mild hP e2,
        List.forall_mem_cons.2 ⟨wrVal_mild hP e3, by simp⟩⟩⟩
    · rw [if_neg hx, miss]
      exact ⟨List.forall_mem_cons.2 ⟨m1, by simp⟩, fun h => absurd (by simpa using h) hx⟩
  · rw [if_neg hp] at hh ⊢
    simp only [Out.ok.injEq] at hh
    rw [miss]
    exact ⟨by simp, fun h => by rw [← hh] at h; cases h⟩

/-- The accesses of a call that writes back what it finds. -/
theorem updateProg_trace {β : Type} [GoStore T] {s : CSR T} {rows : List (List (Nat × T))} (h : CSR.Rep s rows)
    {r c : Int} {f : T → β × T} (hf : ∀ v, (f v).2 = v) (val : β → Val T) :
    (∀ y ∈ (updateProg r c f val).trace (.csr s), Mild (.csr s) (CellAt s r c) y) ∧
    (inRange r s.r = true → inRange c s.c = true → isZero ((Mat.csr s).val r.toNat c.toNat) = false →
      ∃ p v, (∃ e, s.columnIndex r.toNat c.toNat = .ok (p, e)) ∧ CellAt s r c p ∧ p < s.values.length ∧
        isZero v = false ∧ ∃ y ∈ (updateProg r c f val).trace (.csr s), IsStore p v y) := by
  obtain ⟨f0, k0, e0, t0⟩ := rdCSR_trace (s := s) (a := (s.r, s.c)) (get := fun m => .ok (m.r, m.c)) (k := fun (sr, sc) =>
    if inRange r sr then
      if inRange c sc then indexProg r.toNat c.toNat (storeProg sr r.toNat c.toNat f val)
      else .done .panic
    else .done .panic) rfl
  have m0 : Mild (.csr s) (CellAt s r c) (f0, k0) := rdCSR_mild (fun s s' h1 h2 _ _ => by rw [h1, h2]) e0
  unfold updateProg
  rw [t0]
  dsimp only
  by_cases hv : inRange r s.r = true ∧ inRange c s.c = true
  · obtain ⟨h1, h2⟩ := hv
    rw [if_pos h1, if_pos h2]
    obtain ⟨a1, a2⟩ := inRange_iff.1 h1
    obtain ⟨b1, b2⟩ := inRange_iff.1 h2
    obtain ⟨i, rfl⟩ := Int.eq_ofNat_of_zero_le a1
    obtain ⟨j, rfl⟩ := Int.eq_ofNat_of_zero_le b1
    have hi : i < s.r := by exact_mod_cast a2
    have hj : j < s.c := by exact_mod_cast b2
    have hi' : i < rows.length := by rw [h.len]; exact hi
    obtain ⟨L, M, R, old, hs⟩ := rowSplit_exists (h.sorted _ (List.getElem_mem hi')) j
    obtain ⟨e', g1, g2⟩ := h.columnIndex_ok hi hs
    have hval : (Mat.csr s).val i j = old := by
      have := h.at_ok hi hj
      simp only [Mat.val, Mat.at', this, Out.ok_bind, cellOf]
      rw [show rows.getD i [] = rows[i] by simp [List.getD, hi'], hs.get]
    have key : decide (M ≠ []) = true → (CellAt s i j (offs rows i + L.length) ∧
        offs rows i + L.length < s.values.length) ∧
        ∃ old, idx s.values (offs rows i + L.length) = .ok old ∧ isZero old = false := by
      intro hM
      rcases hs.mid with ⟨hM', -⟩ | hM'
      · simp [hM'] at hM
      · have hz : isZero old = false := by
          refine h.nz _ (List.getElem_mem hi') (j, old) ?_
          rw [hs.eq, hM']; simp
        have e1 : rows.flatten = ((rows.take i).flatten ++ L) ++
            ((j, old) :: (R ++ (rows.drop (i + 1)).flatten)) := by
          rw [h.flat hi, hs.eq, hM']; simp
        have e2 : offs rows i + L.length = ((rows.take i).flatten ++ L).length := by
          simp only [offs, List.length_append]
        have e3 : rows.flatten[offs rows i + L.length]? = some (j, old) := by
          rw [e1, e2]; simp
        have e4 : s.values[offs rows i + L.length]? = some old := by rw [h.values, List.getElem?_map, e3]; rfl
        refine ⟨⟨⟨h1, h2, ⟨offs rows i, ?_, by omega⟩, ⟨offs rows (i + 1), ?_, ?_⟩, ?_, ?_⟩, ?_⟩, old, by simp [idx, e4], hz⟩
        · rw [h.starts, List.getElem?_map, Int.toNat_natCast, List.getElem?_range (by omega)]; rfl
        · rw [h.starts, List.getElem?_map, Int.toNat_natCast, List.getElem?_range (by omega)]; rfl
        · rw [offs_succ rows i hi', hs.eq, hM']; simp
        · rw [h.cols, List.getElem?_map, e3]; rfl
        · simpa [hval] using hz
        · exact (List.getElem?_eq_some_iff.1 e4).1
    simp only [Int.toNat_natCast]
    obtain ⟨l, hl, tl⟩ := indexProg_trace (storeProg s.r i j f val) (CellAt s i j) g1
    obtain ⟨q1, q2⟩ := storeProg_trace (r := i) (val := val) (P := CellAt s i j) hf isZero_zero g2
      (fun h => ⟨(key h).1.1, (key h).2⟩)
    rw [tl]
    refine ⟨List.forall_mem_cons.2 ⟨m0, List.forall_mem_append.2 ⟨hl, q1⟩⟩, fun _ _ hz => ?_⟩
    have hM : decide (M ≠ []) = true := by
      rcases hs.mid with ⟨-, ho⟩ | hM'
      · rw [hval, ho, isZero_zero] at hz; cases hz
      · simp [hM']
    obtain ⟨v, v1, y, v2, v3⟩ := q2 hM
    exact ⟨_, v, ⟨e', g1⟩, (key hM).1.1, (key hM).1.2, v1, y, List.mem_cons_of_mem _ (List.mem_append_right _ v2), v3⟩
  · have e : (if inRange r s.r = true then if inRange c s.c = true then
        indexProg r.toNat c.toNat (storeProg s.r r.toNat c.toNat f val) else .done .panic else .done .panic :
        Prog (Mat T) (Out (Val T))) = .done .panic := by
      by_cases hr : inRange r s.r
      · rw [if_pos hr, if_neg (fun hc => hv ⟨hr, hc⟩)]
      · rw [if_neg hr]
    rw [e]
    exact ⟨List.forall_mem_cons.2 ⟨m0, by simp [Prog.trace]⟩, fun a b => absurd ⟨a, b⟩ hv⟩

theorem agree_refl (l : Loc) (s : Mat T) : Mat.AgreeOff l s s :=
  fun _ _ _ hx _ hy => Option.some.inj (hx.symm.trans hy)

theorem agree_symm {l : Loc} {s s' : Mat T} (h : Mat.AgreeOff l s s') : Mat.AgreeOff l s' s :=
  fun l' hl x hx y hy => (h l' hl y hy x hx).symm

/-- A slice made longer. -/
theorem agree_longer (s : CSR T) {v v' : List T} (h : v <+: v') :
    Mat.AgreeOff (.len 2) (.csr { s with values := v }) (.csr { s with values := v' }) := by
  obtain ⟨t, rfl⟩ := h
  intro l' hl x hx y hy
  match l', hl with
  | .slices, _ => exact Option.some.inj (hx.symm.trans hy)
  | .len 0, _ => exact Option.some.inj (hx.symm.trans hy)
  | .len 1, _ => exact Option.some.inj (hx.symm.trans hy)
  | .len 2, h => exact absurd rfl h
  | .len (a + 3), _ => cases hx
  | .elem 0 i, _ => exact Option.some.inj (hx.symm.trans hy)
  | .elem 1 i, _ => exact Option.some.inj (hx.symm.trans hy)
  | .elem 2 i, _ =>
    have hx : (v.map Sum.inr)[i]? = some x := hx
    have hy : ((v ++ t).map Sum.inr)[i]? = some y := hy
    obtain ⟨hi, -⟩ := List.getElem?_eq_some_iff.1 hx
    rw [List.map_append, List.getElem?_append_left hi, hx] at hy
    exact Option.some.inj hy
  | .elem (a + 3) i, _ => cases hx

/-- The store writes its place. -/
theorem IsStore.puts {s : CSR T} {p : Nat} {v : T} (h0 : isZero (0 : T) = true) (hv : isZero v = false)
    (hp : p < s.values.length) {y} (hy : IsStore p v y) : PutsNow (.csr s) y.1 (.elem 2 p) := by
  obtain ⟨k, hk⟩ := hy
  obtain ⟨f, g⟩ := y
  cases hk
  have hne : (0 : T) ≠ v := fun h => by rw [← h, h0] at hv; cases hv
  refine ⟨.csr { s with values := s.values.set p 0 }, ⟨rfl, rfl, rfl⟩, ?_, .inr v, ?_, ?_⟩
  · intro l' hl x hx y hy
    have e : Mat.look (.csr { s with values := s.values.set p 0 }) l' = Mat.look (.csr s) l' := by
      match l', hl with
      | .slices, _ => rfl
      | .len 0, _ => rfl
      | .len 1, _ => rfl
      | .len 2, _ => simp [Mat.look, Mat.arrays]
      | .len (a + 3), _ => rfl
      | .elem 0 i, _ => rfl
      | .elem 1 i, _ => rfl
      | .elem 2 i, h =>
        have hi : p ≠ i := fun e => h (by rw [e])
        simp [Mat.look, Mat.arrays, List.getElem?_set_ne hi]
      | .elem (a + 3) i, _ => rfl
    rw [e] at hx
    exact Option.some.inj (hx.symm.trans hy)
  · simp [setIdx, hp, Mat.look, Mat.arrays]
  · simp [hp, Mat.look, Mat.arrays, hne]

/-- A place of `values` belongs to one cell. -/
theorem CellAt.unique {s : CSR T} {rows : List (List (Nat × T))} (h : CSR.Rep s rows) {r c r' c' : Int} {p : Nat}
    (h1 : CellAt s r c p) (h2 : CellAt s r' c' p) : r = r' ∧ c = c' := by
  obtain ⟨a1, a2⟩ := inRange_iff.1 h1.row
  obtain ⟨b1, b2⟩ := inRange_iff.1 h1.col
  obtain ⟨a1', a2'⟩ := inRange_iff.1 h2.row
  obtain ⟨b1', b2'⟩ := inRange_iff.1 h2.col
  have hc : c.toNat = c'.toNat := by
    have := h1.here
    rw [h2.here] at this
    exact (Option.some.inj this).symm
  have mono : ∀ i j, i ≤ j → j ≤ rows.length → offs rows i ≤ offs rows j := by
    intro i j hij hj
    induction j with
    | zero => obtain rfl : i = 0 := by omega
              exact le_refl _
    | succ j ih =>
      rcases Nat.lt_or_ge i (j + 1) with hlt | hge
      · have := ih (by omega) (by omega)
        rw [offs_succ rows j (by omega)]
        omega
      · obtain rfl : i = j + 1 := by omega
        exact le_refl _
  have bounds : ∀ {q : Int} {z : Int}, CellAt s q z p → offs rows q.toNat ≤ p ∧ p < offs rows (q.toNat + 1) ∧ q.toNat < rows.length := by
    intro q z hq
    obtain ⟨x1, x2⟩ := inRange_iff.1 hq.row
    have hq' : q.toNat < s.r := by omega
    obtain ⟨a, ha, ha'⟩ := hq.lo
    obtain ⟨b, hb, hb'⟩ := hq.hi
    rw [h.starts] at ha hb
    rw [List.getElem?_map, List.getElem?_range (by omega)] at ha hb
    simp only [Option.map_some, Option.some.injEq] at ha hb
    exact ⟨by omega, by omega, by rw [h.len]; exact hq'⟩
  obtain ⟨x1, x2, x3⟩ := bounds h1
  obtain ⟨y1, y2, y3⟩ := bounds h2
  have hr : r.toNat = r'.toNat := by
    rcases Nat.lt_trichotomy r.toNat r'.toNat with hlt | he | hgt
    · have := mono (r.toNat + 1) r'.toNat (by omega) (by omega); omega
    · exact he
    · have := mono (r'.toNat + 1) r.toNat (by omega) (by omega); omega
  omega

end Mutex
end GB
